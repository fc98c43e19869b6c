import Verif.Spec.Sparse
import Verif.Props.ForeignFile
/-
C102: columns of nulls without data streams.
-/
namespace Goorc

/-! ### One column -/

theorem EncodedAs.reader {kind : TypeKind} {enc : Encoding} (h : EncodedAs kind enc) :
    ∃ t : LeafTag, newReaderTag kind enc = .ok (.leaf t) ∧ kind ≠ .struct ∧ t.read.init (fun _ => none) = none := by
  cases h with
  | stored h =>
    refine ⟨_, h.reader.1, h.reader.2.1, ?_⟩
    cases h <;> rfl
  | float => exact ⟨.float false, rfl, by decide, rfl⟩
  | timestamp => exact ⟨.timestamp, rfl, by decide, rfl⟩
  | decimal => exact ⟨.decimal, rfl, by decide, rfl⟩

/-- What a present stream leaves of the other streams of a column. -/
theorem init_unnamed {t : LeafTag} {f : StreamKind → Option StreamReader} (h : t.read.init (fun _ => none) = none)
    (hf : ∀ k, k ≠ .present → f k = none) : t.read.init f = none := by
  cases t with
  | byte => simp [LeafTag.read, byteRead, hf]
  | bool => simp [LeafTag.read, boolRead, hf]
  | int b => cases b <;> simp [LeafTag.read, intRead, hf]
  | float b => cases b <;> simp [LeafTag.read, floatRead, hf]
  | string => simp [LeafTag.read, stringRead, hf]
  | binary => simp [LeafTag.read, binaryRead, hf]
  | date => simp [LeafTag.read, dateRead, hf]
  | timestamp => simp [LeafTag.read, timestampRead, hf]
  | decimal => simp [LeafTag.read, decimalRead, hf]

theorem columnAbsent_accepts {c : Codec} {kind : CompKind} {size : Nat} {file : Bytes} {n : SchemaNode} {enc : Encoding} {ps : List LaidStream}
    {rows : List (Option GoVal)} (h : ColumnAbsent c kind size file n enc ps rows) :
    ∃ tag, newReaderTag n.kind enc = .ok tag ∧ (∀ p ∈ ps, tag.accepts n.hasNulls p.kind = true) := by
  obtain ⟨hn, henc, -, contents, hl⟩ := h
  obtain ⟨t, h1, -, -⟩ := henc.reader
  refine ⟨_, h1, fun p hp => own_streams_accepted_partial _ _ _ ?_⟩
  rcases (hl.kinds p.kind).1 (List.mem_map_of_mem hp) with h | ⟨g1, -⟩
  · simp at h
  · exact .inr ⟨g1, hn⟩

theorem columnAbsent_opened {E : Env} {ro : ROpts} {file : Bytes} {d : Schema} {enc : Encoding} {ps : List LaidStream}
    {col : List (Option GoVal)} (h : ColumnAbsent E.c ro.kind ro.chunkSize file d.node enc ps col) {tag : ReaderTag} (htag : newReaderTag d.node.kind enc = .ok tag) :
    ∃ (t : LeafTag) (p : StreamReader) (q : BoolReader), tag = .leaf t ∧ d.node.kind ≠ .struct ∧
      t.read.openCol ro.kind d.node.hasNulls (laid ro.kind ro.chunkSize file ps) = none ∧ d.node.hasNulls = true ∧
      Goorc.lookup (laid ro.kind ro.chunkSize file ps) .present = some p ∧ Yields (BoolReader.next E.c) (newBoolReader p) (col.map (·.isSome)) q ∧
      ∀ x ∈ col, x = none := by
  obtain ⟨hn, henc, hnone, contents, hl⟩ := h
  obtain ⟨t, h1, h2, h3⟩ := henc.reader
  rw [h1] at htag
  injection htag with htag
  obtain ⟨p, g1, g2⟩ := (hl.lookup .present).1 (by simp)
  obtain ⟨bytes, pad, k1, k2⟩ := hl.flags _ rfl
  have hr := BoolReader.fresh g2 (byteStream_decodes k1)
  have e : bytes.flatMap boolsOfByte = bytesBits bytes := by
    simp only [bytesBits]; congr 1; funext b; exact boolsOfByte_bits b
  rw [e, k2] at hr
  obtain ⟨q, m, -⟩ := BoolReader.yields_spec _ pad hr
  refine ⟨t, p, q, htag.symm, h2, ?_, hn, g1, ?_, hnone⟩
  · have := init_unnamed (f := Goorc.lookup (laid ro.kind ro.chunkSize file ps)) h3 (fun k hk => (hl.lookup k).2 (by simp [hk]))
    simp only [ReadKind.openCol]
    split
    · rw [Option.map_eq_none_iff]; exact this
    · rfl
  · have : col.map (·.isSome) = col.map fun _ => false := List.map_congr_left fun x hx => by rw [hnone x hx]; rfl
    rw [this]; exact m

/-! ### Stripes and files -/

/-- A stripe whose columns of nulls have flags only can be opened. -/
theorem stripeSparse_opens {E : Env} {ro : ROpts} {s : Schema} {file : Bytes} {info : StripeInfo} {rows : List Row} {f : StripeFooter}
    {index data : List StreamInfo} (h : StripeSparse E ro.kind ro.chunkSize s file info rows f index data) (num : s.Numbered) (htab : s.Columnar)
    (once : s.NullsOnce) (hflags : f.Flags s) {bo : BatchOption} (hsel : bo.Selects s) {types : List RdType} (ht : TypesOf s types) (hfit : NullsFit s rows) :
    ∃ x, newStripeReader E ro bo file types info = .ok ⟨types.map (·.hasNulls), some x, rows.length, 0⟩ ∧
      RdHas .any E.c bo (fun j => rows.map (Row.cell j)) types.length none s x := by
  obtain ⟨rs, rs', e1, f1, hcols⟩ := stripeFrame_readers (bo := bo) h.toStripeFrame num (by
    intro c hc
    obtain ⟨enc, g1, g2⟩ := h.columns c hc
    obtain ⟨tag, g3, g4⟩ := g2.elim columnStored_accepts columnAbsent_accepts
    exact ⟨enc, tag, g1, g3, g4⟩) ht
  have hop : Opened .any E.c bo ro.kind (fun j => rows.map (Row.cell j)) s rs' := by
    intro d hd hinc
    obtain ⟨enc, tag, ix, henc, htag, k1, hpr, -⟩ := hcols d hd hinc
    obtain ⟨enc', henc', hd'⟩ := h.columns d hd
    rw [henc] at henc'
    cases henc'
    rcases hd' with g5 | g5
    · exact (columnStored_opened hfit.cols hd (columnStored_seen num htab once hd hfit g5) (fun _ _ _ _ _ => trivial) (fun _ _ => trivial)
        (fun hn => hpr hn (hflags d hd hn)) htag k1).imp_right .inl
    · rw [seenRows_nullable num htab once hd g5.1] at g5
      obtain ⟨t, p, q, rfl, m1, m2, m3, m4, m5, m6⟩ := columnAbsent_opened g5 htag
      exact .inr (.inr ⟨t, _, ix, p, q, m1, k1, m2, trivial, m3, m4, m5, m6⟩)
  have := stripe_of_opened num htab hsel ht (stripeFrame_footer h.toStripeFrame) e1 f1 hop hfit.cols
  rwa [h.count] at this

variable {E : Env} {s : Schema} {file : Bytes} {parts : List (List Row × StripeFooter)} {ps : PostScript} {ft : FileFooter} {content metadata fb pb : Bytes}

/-- **C102** A file of any writer, in which columns of nulls may have flags only, can be opened: the batch reader stands at the beginning, and
has the rows of the file, stripe by stripe, restricted to the columns that were chosen. -/
theorem sparse_file_opens (h : FileSparse E s file parts ps ft content metadata fb pb) (num : s.Numbered) (named : s.Named) (tab : s.Columnar)
    (once : s.NullsOnce) (hfit : ∀ p ∈ parts, NullsFit s p.1 ∧ p.2.Flags s) (hlen : fb.length + pb.length + 1 ≤ 16384) :
    ∃ r, newReader E file = .ok r ∧ TypesOf s r.schemas ∧ ∀ bo : BatchOption, bo.Selects s → bo.rowSize ≠ 0 →
      ∃ br, r.createBatchReader E bo = .ok br ∧
        br.Fresh (r.schemas.map (·.hasNulls)) (RowsLeft .any E.c bo s r.schemas.length) (parts.map fun p => p.1.map (Row.only (s.leaves bo))) := by
  obtain ⟨types, k1, k3, k4⟩ := fileFrame_created h.toFileFrame num named hlen
  refine ⟨_, k1, k3, fun bo hsel hrow => ?_⟩
  obtain ⟨rs, m1, m2⟩ := k4 bo hrow (StripeReader.Fresh (types.map (·.hasNulls)) (RowsLeft .any E.c bo s types.length))
    (parts.map fun p => p.1.map (Row.only (s.leaves bo))) (by
      have hall := h.stripes
      rw [List.forall₂_iff_get] at hall ⊢
      refine ⟨by rw [List.length_map, hall.1], fun k hk hk' => ?_⟩
      rw [List.length_map] at hk'
      obtain ⟨index, data, a⟩ := hall.2 k hk hk'
      simp only [List.get_eq_getElem, List.getElem_map] at a ⊢
      have hmem : parts[k] ∈ parts := List.getElem_mem hk'
      obtain ⟨x, b1, b2⟩ := stripeSparse_opens (ro := ⟨ps.compression, ps.chunkSize, ft.rowIndexStride⟩) a num tab once (hfit _ hmem).2 hsel k3 (hfit _ hmem).1
      refine ⟨?_, _, b1, rfl, rfl, ?_, x, rfl, ?_, ?_⟩
      · rw [a.count]
        exact h.filled _ (List.mem_map_of_mem hmem)
      · simp
      · intro r hr
        obtain ⟨r', -, rfl⟩ := List.mem_map.1 hr
        simp [Row.only, Function.comp_def]
      · refine RdHas.congr s _ none x hsel.1 (fun j hj => ?_) (fun p hp => by simp at hp) b2
        simp only [List.map_map]
        apply List.map_congr_left
        intro r _
        simp [Row.cell_only hj])
  refine ⟨_, m1, rfl, rfl, ?_, m2⟩
  simp only [List.length_flatten, List.map_map, Function.comp_def, List.length_map]

/-- **C102** (partial: with the restrictions of C85 on the columns that have values) A client that reads some columns of a file of any writer
in which columns of nulls may have flags only, with batches of `bo.rowSize` rows: no call fails, the loop ends exactly if at most one stripe before the
last loses its last row, and what it has then are the rows of the file, restricted to the columns, but for the lost rows. -/
theorem sparse_file_reads_partial (init : List (List Row)) (last : List Row)
    (h : FileSparse E s file parts ps ft content metadata fb pb) (hparts : parts.map (·.1) = init ++ [last])
    (num : s.Numbered) (named : s.Named) (tab : s.Columnar) (once : s.NullsOnce) (hfit : ∀ p ∈ parts, NullsFit s p.1 ∧ p.2.Flags s) (hlen : fb.length + pb.length + 1 ≤ 16384)
    (bo : BatchOption) (hsel : bo.Selects s) (hrow : bo.rowSize ≠ 0) (hmake : bo.notCreateVector = false) (fuel : Nat) :
    (∀ k, ∃ rows stop, readFile E fuel s bo k file = .ok (rows, stop)) ∧
    ((∃ k rows, readFile E fuel s bo k file = .ok (rows, true)) ↔ lostRows bo.rowSize init ≤ 1) ∧
    ∀ k rows, readFile E fuel s bo k file = .ok (rows, true) → rows = (delivered bo.rowSize init last).map (Row.only (s.leaves bo)) := by
  obtain ⟨r, e1, e2, e3⟩ := sparse_file_opens h num named tab once hfit hlen
  obtain ⟨br, e4, e5⟩ := e3 bo hsel hrow
  have e5' : br.Fresh (r.schemas.map (·.hasNulls)) (RowsLeft .any E.c bo s r.schemas.length) ((init ++ [last]).map fun rows => rows.map (Row.only (s.leaves bo))) := by
    rw [← hparts, List.map_map]; exact e5
  refine opened_reads num tab e1 e2 hsel hrow hmake e4 init last e5' (fun rows hr => ?_) fuel
  rw [← hparts] at hr
  obtain ⟨p, hp, rfl⟩ := List.mem_map.1 hr
  exact fun hz => h.filled _ (List.mem_map_of_mem hp) (List.length_eq_zero_iff.2 hz)

/-- C85 is the case without such columns. -/
theorem StripeLaid.sparse {kind : CompKind} {size : Nat} {info : StripeInfo} {rows : List Row} {f : StripeFooter} {index data : List StreamInfo}
    (h : StripeLaid E kind size s file info rows f index data) : StripeSparse E kind size s file info rows f index data where
  toStripeFrame := h.toStripeFrame
  columns c hc := by
    obtain ⟨enc, h1, h2⟩ := h.columns c hc
    exact ⟨enc, h1, .inl h2⟩

theorem FileLaid.sparse (h : FileLaid E s file parts ps ft content metadata fb pb) : FileSparse E s file parts ps ft content metadata fb pb where
  toFileFrame := h.toFileFrame
  stripes := h.stripes.imp fun _ _ ⟨index, data, h⟩ => ⟨index, data, h.sparse⟩

/-! ### What else happens to such columns -/

section
variable {c : Codec} {r : ColReader Unit} {p q : BoolReader} {bs : List Bool}

/-- **C102**, exactly: `NextBatch` of a column without a data stream marks the rows null if all of them are, and leaves their old values; it panics
if one of them is not. For every type without a dictionary. -/
theorem bare_batch_exact (t : LeafTag) (hp : r.present = some p) (hy : Yields (BoolReader.next c) p bs q) (vec : List Value) (hlen : vec.length = bs.length) :
    (bareRead (some t)).nextBatch c r vec = if bs.all (!·) then .ok (vec.map fun v => ⟨true, v.v⟩, { r with present := some q }) else .panic := by
  have : (bareRead (some t)).nextBatch c r vec = (bareRead (some t)).nextRows c r vec := rfl
  rw [this]
  induction bs generalizing r p vec with
  | nil =>
    cases vec with
    | nil =>
      simp only [Yields] at hy
      subst hy
      cases r; simp only at hp; subst hp; rfl
    | cons => simp at hlen
  | cons b bs ih =>
    cases vec with
    | nil => simp at hlen
    | cons v vec =>
      obtain ⟨p1, h1, h2⟩ := hy
      have hlen' : vec.length = bs.length := by simpa using hlen
      cases b with
      | true =>
        simp only [ReadKind.nextRows, hp, h1, Res.ok_bind, Res.pure_eq, Bool.not_true, Bool.false_eq_true, if_false, List.all_cons, Bool.false_and]
        rfl
      | false =>
        have := ih (r := { r with present := some p1 }) rfl h2 vec hlen' rfl
        simp only [ReadKind.nextRows, hp, h1, Res.ok_bind, Res.pure_eq, Bool.not_false, if_true, List.all_cons, Bool.true_and, this]
        cases bs.all (!·) <;> rfl

/-- **C102**, exactly: so does `Skip`. -/
theorem bare_skip_exact (t : LeafTag) (hp : r.present = some p) (hy : Yields (BoolReader.next c) p bs q) :
    (bareRead (some t)).skipRows c bs.length r = if bs.all (!·) then .ok { r with present := some q } else .panic := by
  induction bs generalizing r p with
  | nil =>
    simp only [Yields] at hy
    subst hy
    cases r; simp only at hp; subst hp; rfl
  | cons b bs ih =>
    obtain ⟨p1, h1, h2⟩ := hy
    cases b with
    | true =>
      simp only [List.length_cons, ReadKind.skipRows, hp, h1, Res.ok_bind, Res.pure_eq, if_true, List.all_cons, Bool.not_true, Bool.false_and, Bool.false_eq_true, if_false]
      rfl
    | false =>
      have := ih (r := { r with present := some p1 }) rfl h2
      simp only [List.length_cons, ReadKind.skipRows, hp, h1, Res.ok_bind, Res.pure_eq, Bool.false_eq_true, if_false, List.all_cons, Bool.not_false, Bool.true_and, this]

/-- **C102, refuted** for dictionaries: `NextBatch` of a column with the encoding of dictionaries of which a stream is missing panics, whatever its flags, even for no rows. -/
theorem bare_dictionary_panics (r : ColReader Unit) (vec : List Value) : (bareRead none).nextBatch c r vec = .panic := rfl

/-- **C102, refuted** for `SeekStride`: a column without a data stream is never sent anywhere, not even to its beginning and even if all its rows are null. -/
theorem bare_seek_fails (t : Option LeafTag) (r r' : ColReader Unit) (k : Nat) : (bareRead t).seekStride c r k ≠ .ok r' := by
  have hseek : ∀ d ps, (bareRead t).seek c d ps = .panic := by cases t <;> exact fun _ _ => rfl
  intro h
  simp only [ReadKind.seekStride, hseek] at h
  split at h
  · obtain ⟨_, -, h⟩ := Res.bind_ok_inv h
    simp at h
  · obtain ⟨_, -, h⟩ := Res.bind_ok_inv h
    split at h
    · obtain ⟨_, -, h⟩ := Res.bind_ok_inv h
      obtain ⟨_, -, h⟩ := Res.bind_ok_inv h
      simp at h
    · obtain ⟨_, -, h⟩ := Res.bind_ok_inv h
      simp at h

/-- **C102** ... to its beginning it panics, if its flags can be sent there. -/
theorem bare_rewind_panics (t : LeafTag) (ht : t ≠ .date) (hp : r.present = some p) (hs : p.seek c 0 0 0 0 = .ok q) : (bareRead (some t)).seekStride c r 0 = .panic := by
  have hz : (bareRead (some t)).seeksZero = true := by
    cases t with
    | int b => cases b <;> rfl
    | float b => cases b <;> rfl
    | date => exact absurd rfl ht
    | _ => rfl
  simp only [ReadKind.seekStride]
  rw [if_pos ⟨hz, trivial⟩, hp]
  simp only [hs, Res.ok_bind, Res.pure_eq]
  rfl

end

/-! ### A file with such a column -/

/-- A table with a tinyint and a timestamp column, both with nulls. -/
def exSparse : Schema := .mk ⟨0, .struct, .direct, false, ["x", "t"]⟩ [.mk ⟨1, .byte, .direct, true, []⟩ [], .mk ⟨2, .timestamp, .directV2, true, []⟩ []]

/-- Its stripe: flags and numbers, and flags. -/
def exSparseFooter : StripeFooter := ⟨[⟨.present, 1, 2⟩, ⟨.data, 1, 3⟩, ⟨.present, 2, 2⟩], [.direct, .direct, .directV2]⟩

/-- The stripe and its footer. -/
def exSparseBody : Bytes := [0xff#8, 0x60#8, 0xfe#8, 0x05#8, 0x06#8, 0xff#8, 0x00#8, 0x00#8]

/-- The file. -/
def exSparseFile : Bytes := tinyFile exSparseBody

/-- Its rows: the times are null. -/
def exSparseRows : List Row :=
  [[(1, none), (2, none)], [(1, some (.u8 5#8)), (2, none)], [(1, some (.u8 6#8)), (2, none)]]

/-- The environment of the file, for a stripe footer and a table. -/
def exSparseEnv (f : StripeFooter) (s : Schema) : Env := tinyEnv [f] (tinyFooter s [⟨3, 0, 7, 1, 3⟩]) tinyScript

theorem exSparse_columns {P : Schema → Prop} (h0 : P exSparse) (h1 : P (.mk ⟨1, .byte, .direct, true, []⟩ [])) (h2 : P (.mk ⟨2, .timestamp, .directV2, true, []⟩ [])) :
    ∀ c ∈ exSparse.columns, P c := by
  intro c hc
  simp only [exSparse, Schema.columns, columnsAll, List.append_nil, List.mem_cons, List.cons_append, List.nil_append, List.not_mem_nil, or_false] at hc
  rcases hc with rfl | rfl | rfl
  exacts [h0, h1, h2]

/-- The stripe is as the format wants it. -/
theorem exSparse_stripe : StripeSparse (exSparseEnv exSparseFooter exSparse) .none (256 * 1024) exSparse exSparseFile ⟨3, 0, 7, 1, 3⟩
    exSparseRows exSparseFooter [] exSparseFooter.streams where
  count := rfl
  inFile := by decide +kernel
  footerAt := ⟨[0#8], ⟨by decide, by decide +kernel⟩, rfl⟩
  listed := rfl
  existing := by decide +kernel
  indexes := by simp
  indexLength := rfl
  indexAt := by simp [startsFrom]
  noIndex := by decide +kernel
  dataLength := by decide +kernel
  columns := by
    have hfits : ∀ p ∈ startsFrom (3 + 0) exSparseFooter.streams, p.2 + p.1.length ≤ exSparseFile.length := by decide +kernel
    refine exSparse_columns ⟨.direct, rfl, .inl ?_⟩ ⟨.direct, rfl, .inl ?_⟩ ⟨.directV2, rfl, .inr ?_⟩
    · refine ⟨_, none, by simp, .inl ⟨rfl, rfl, plain_laid _ _ (by decide) _ _ _ [] none hfits (by decide +kernel) ?_ (by simp),
        by simp [exSparse, node_mk]⟩⟩
      intro k; cases k <;> decide +kernel
    · refine ⟨_, some [false, true, true], by simp [node_mk], .inr ⟨.byte, .tinyint,
        plain_laid _ _ (by decide) _ _ _ [.data] _ hfits (by decide +kernel) ?_ ?_, by unfold Flagged; decide +kernel, ?_⟩⟩
      · intro k; cases k <;> decide +kernel
      · intro bs hb; cases hb
        exact ⟨[0x60#8], [false, false, false, false, false], ⟨[.literal [0x60#8]], by simp [ByteRun.WF], by decide +kernel, rfl⟩,
          by decide +kernel⟩
      · exact ⟨[5#8, 6#8], ⟨[.literal [5#8, 6#8]], by simp [ByteRun.WF], by decide +kernel, rfl⟩, by decide +kernel⟩
    · refine ⟨rfl, .timestamp, by decide +kernel, _, plain_laid _ _ (by decide) _ _ _ [] _ hfits (by decide +kernel) ?_ ?_⟩
      · intro k; cases k <;> decide +kernel
      · intro bs hb
        have : bs = [false, false, false] := by
          have := (Option.some.inj hb).symm
          rw [this]; decide +kernel
        subst this
        exact ⟨[0x00#8], [false, false, false, false, false], ⟨[.literal [0x00#8]], by simp [ByteRun.WF], by decide +kernel, rfl⟩, by decide +kernel⟩

/-- The file is as the format wants it. -/
theorem exSparse_laid : FileSparse (exSparseEnv exSparseFooter exSparse) exSparse exSparseFile [(exSparseRows, exSparseFooter)] tinyScript
    (tinyFooter exSparse [⟨3, 0, 7, 1, 3⟩]) ([0x4f#8, 0x52#8, 0x43#8] ++ exSparseBody) [] [0xf0#8] [0xf1#8] where
  toFileFrame := tiny_frame exSparse [exSparseFooter] [⟨3, 0, 7, 1, 3⟩] exSparseBody (by simp) (by simp)
  stripes := .cons ⟨_, _, exSparse_stripe⟩ .nil

/-- A file with a column of nulls without data that meets the conditions: what is read is what is in it. -/
example : ∃ k, readFile (exSparseEnv exSparseFooter exSparse) 10 exSparse ⟨[], 10, false⟩ k exSparseFile = .ok (exSparseRows, true) := by
  obtain ⟨_, h2, h3⟩ := sparse_file_reads_partial [] exSparseRows exSparse_laid rfl
    (by unfold Schema.Numbered; decide +kernel) (by unfold Schema.Named; decide +kernel)
    ⟨by decide +kernel, by decide +kernel, by
      intro c hc hn d hd
      cases hc with
      | here => cases hn
      | down _ _ _ _ _ below => cases below; cases hd⟩ (by unfold Schema.NullsOnce; decide +kernel)
    (fun p hp => by
      rw [List.mem_singleton] at hp
      subst hp
      exact ⟨⟨by decide +kernel, by decide +kernel, by decide +kernel⟩, by unfold StripeFooter.Flags; decide +kernel⟩) (by decide) ⟨[], 10, false⟩
    (by unfold BatchOption.Selects; decide +kernel) (by decide) rfl 10
  obtain ⟨k, rows, e⟩ := h2.mpr (by decide +kernel)
  exact ⟨k, by rw [e, h3 k rows e]; rfl⟩

local instance sparseRowDec : DecidableEq Row := inferInstanceAs (DecidableEq (List _))

/-- **C102, refuted** What makes the difference are the values: without the data of the first column, two rows of which are not null, `Next` panics. With the encoding
of dictionaries it panics although all rows are null. -/
theorem sparse_panics :
    readFile (exSparseEnv ⟨[⟨.present, 1, 2⟩, ⟨.present, 2, 2⟩], [.direct, .direct, .directV2]⟩ exSparse) 10 exSparse ⟨[], 10, false⟩ 5 exSparseFile = .panic ∧
    let d : Schema := .mk ⟨0, .struct, .direct, false, ["x", "t"]⟩ [.mk ⟨1, .byte, .direct, true, []⟩ [], .mk ⟨2, .string, .dictionaryV2, true, []⟩ []]
    let f : StripeFooter := { exSparseFooter with columns := [.direct, .direct, .dictionaryV2] }
    readFile (exSparseEnv f d) 10 d ⟨[], 10, false⟩ 5 exSparseFile = .panic ∧
    readFile (exSparseEnv { f with columns := [.direct, .direct, .directV2] } d) 10 d ⟨[], 10, false⟩ 5 exSparseFile = .ok (exSparseRows, true) := by
  decide +kernel

end Goorc
