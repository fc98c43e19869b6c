import Verif.Proofs.ForeignFile
import Verif.Props.ColumnStats
/-
C85: files of other writers, laid out as the ORC specification says.
-/
namespace Goorc

variable {E : Env} {s : Schema} {file : Bytes} {parts : List (List Row × StripeFooter)} {ps : PostScript} {ft : FileFooter} {content metadata fb pb : Bytes}

/-- A file of any writer can be opened: the readers of the stripes are those of the stripes in the footer. -/
theorem fileFrame_created {counts : List Nat} (h : FileFrame E s file counts ps ft content metadata fb pb) (num : s.Numbered) (named : s.Named)
    (hlen : fb.length + pb.length + 1 ≤ 16384) :
    ∃ types, newReader E file = .ok ⟨file, ⟨ps.compression, ps.chunkSize, ft.rowIndexStride⟩, types, ft.numberOfRows, ft.statistics, ft.stripes⟩ ∧ TypesOf s types ∧
      ∀ bo : BatchOption, bo.rowSize ≠ 0 → ∀ {β : Type} (P : StripeReader (Rd types.length) → β → Prop) (bs : List β),
        List.Forall₂ (fun info b => info.numberOfRows ≠ 0 ∧ ∃ x, newStripeReader E ⟨ps.compression, ps.chunkSize, ft.rowIndexStride⟩ bo file types info = .ok x ∧ P x b) ft.stripes bs →
        ∃ rs, FileReader.createBatchReader E ⟨file, ⟨ps.compression, ps.chunkSize, ft.rowIndexStride⟩, types, ft.numberOfRows, ft.statistics, ft.stripes⟩ bo =
            .ok ⟨ft.rowIndexStride, 0, rs, counts.sum, 0⟩ ∧ List.Forall₂ P rs bs := by
  have ht := fileFrame_tail h
  rw [if_pos hlen] at ht
  obtain ⟨heap, types, k1, k2, k3⟩ := types_found num named h.nulls
  have hn0 : ft.numberOfRows ≠ 0 := by
    rw [h.rows]
    intro hz
    obtain ⟨n, hn⟩ := List.exists_mem_of_ne_nil _ h.nonempty
    obtain ⟨l, m, e⟩ := List.append_of_mem hn
    rw [e] at hz
    simp only [List.sum_append_nat, List.sum_cons] at hz
    exact h.filled n hn (by omega)
  have hsize : (if ps.compression ≠ .none then ps.blockSize else defaultChunkSize) = ps.chunkSize := by
    by_cases hk : ps.compression = .none <;> simp [hk, PostScript.chunkSize, defaultChunkSize]
  refine ⟨types, ?_, k3, fun bo hrow β P bs hP => ?_⟩
  · simp only [newReader, ht, Res.ok_bind, if_neg hn0, h.types, k1, k2, hsize]
    rfl
  obtain ⟨rs, m1, m2⟩ := initStripes_spec (E := E) (ro := ⟨ps.compression, ps.chunkSize, ft.rowIndexStride⟩) (bo := bo) (file := file) (types := types) hP
  refine ⟨rs, ?_, m2⟩
  simp only [FileReader.createBatchReader, if_neg hrow, m1, Res.ok_bind, Res.pure_eq, h.rows]

theorem fileLaid_created (h : FileLaid E s file parts ps ft content metadata fb pb) (num : s.Numbered) (named : s.Named)
    (hlen : fb.length + pb.length + 1 ≤ 16384) :
    ∃ types, newReader E file = .ok ⟨file, ⟨ps.compression, ps.chunkSize, ft.rowIndexStride⟩, types, ft.numberOfRows, ft.statistics, ft.stripes⟩ ∧ TypesOf s types ∧
      ∀ bo : BatchOption, bo.rowSize ≠ 0 → ∀ P : StripeReader (Rd types.length) → List Row → Prop,
        List.Forall₂ (fun info p => ∃ x, newStripeReader E ⟨ps.compression, ps.chunkSize, ft.rowIndexStride⟩ bo file types info = .ok x ∧ P x (p.1.map (Row.only (s.leaves bo)))) ft.stripes parts →
        ∃ rs, FileReader.createBatchReader E ⟨file, ⟨ps.compression, ps.chunkSize, ft.rowIndexStride⟩, types, ft.numberOfRows, ft.statistics, ft.stripes⟩ bo =
            .ok ⟨ft.rowIndexStride, 0, rs, (parts.map fun p => p.1.map (Row.only (s.leaves bo))).flatten.length, 0⟩ ∧
          List.Forall₂ P rs (parts.map fun p => p.1.map (Row.only (s.leaves bo))) := by
  obtain ⟨types, k1, k2, k3⟩ := fileFrame_created h.toFileFrame num named hlen
  refine ⟨types, k1, k2, fun bo hrow P hP => ?_⟩
  obtain ⟨rs, m1, m2⟩ := k3 bo hrow P (parts.map fun p => p.1.map (Row.only (s.leaves bo))) (by
      have hall := h.stripes
      rw [List.forall₂_iff_get] at hall hP ⊢
      refine ⟨by rw [List.length_map, hall.1], fun k hk hk' => ?_⟩
      rw [List.length_map] at hk'
      obtain ⟨index, data, a⟩ := hall.2 k hk hk'
      obtain ⟨x, b1, b2⟩ := hP.2 k hk hk'
      simp only [List.get_eq_getElem] at a b1 b2 ⊢
      refine ⟨?_, x, b1, by simpa using b2⟩
      rw [a.count]
      exact h.filled _ (List.mem_map_of_mem (List.getElem_mem hk')))
  refine ⟨rs, ?_, m2⟩
  rw [m1]
  simp only [List.length_flatten, List.map_map, Function.comp_def, List.length_map]

/-- **C85** A file of any writer can be opened: the batch reader stands at the beginning, and has the rows of the file, stripe by stripe, restricted
to the columns that were chosen. -/
theorem foreign_file_opens (h : FileLaid E s file parts ps ft content metadata fb pb) (num : s.Numbered) (named : s.Named) (tab : s.Columnar)
    (once : s.NullsOnce) (hfit : ∀ p ∈ parts, NullsFit s p.1 ∧ p.2.Flags s) (hlen : fb.length + pb.length + 1 ≤ 16384) :
    ∃ r, newReader E file = .ok r ∧ TypesOf s r.schemas ∧ ∀ bo : BatchOption, bo.Selects s → bo.rowSize ≠ 0 →
      ∃ br, r.createBatchReader E bo = .ok br ∧
        br.Fresh (r.schemas.map (·.hasNulls)) (RowsLeft .any E.c bo s r.schemas.length) (parts.map fun p => p.1.map (Row.only (s.leaves bo))) := by
  obtain ⟨types, k1, k3, k4⟩ := fileLaid_created h num named hlen
  refine ⟨_, k1, k3, fun bo hsel hrow => ?_⟩
  obtain ⟨rs, m1, m2⟩ := k4 bo hrow (StripeReader.Fresh (types.map (·.hasNulls)) (RowsLeft .any E.c bo s types.length)) (by
      have hall := h.stripes
      rw [List.forall₂_iff_get] at hall ⊢
      refine ⟨hall.1, fun k hk hk' => ?_⟩
      obtain ⟨index, data, a⟩ := hall.2 k hk hk'
      simp only [List.get_eq_getElem] at a ⊢
      have hmem : parts[k] ∈ parts := List.getElem_mem hk'
      obtain ⟨x, b1, b2⟩ := stripeLaid_opens (ro := ⟨ps.compression, ps.chunkSize, ft.rowIndexStride⟩) a num tab once (hfit _ hmem).2 hsel k3 (hfit _ hmem).1
      refine ⟨_, b1, rfl, rfl, ?_, x, rfl, ?_, ?_⟩
      · simp
      · intro r hr
        obtain ⟨r', -, rfl⟩ := List.mem_map.1 hr
        simp [Row.only, Function.comp_def]
      · refine RdHas.congr s _ none x hsel.1 (fun j hj => ?_) (fun p hp => by simp at hp) b2
        simp only [List.map_map]
        apply List.map_congr_left
        intro r _
        simp [Row.cell_only hj])
  exact ⟨_, m1, rfl, rfl, rfl, m2⟩

/-- **C85** (partial: no column with nulls is in a struct with nulls, columns with nulls have flags in every stripe, no dictionaries, lists, maps,
floats, timestamps, decimals, and the restrictions on integers of C26) A client that reads some columns of a file of any writer with
batches of `bo.rowSize` rows: no call fails, the loop ends exactly if at most one stripe before the last loses its last row, and what it
has then are the rows of the file, restricted to the columns, but for the lost rows. -/
theorem foreign_file_reads_partial (init : List (List Row)) (last : List Row)
    (h : FileLaid E s file parts ps ft content metadata fb pb) (hparts : parts.map (·.1) = init ++ [last])
    (num : s.Numbered) (named : s.Named) (tab : s.Columnar) (once : s.NullsOnce) (hfit : ∀ p ∈ parts, NullsFit s p.1 ∧ p.2.Flags s) (hlen : fb.length + pb.length + 1 ≤ 16384)
    (bo : BatchOption) (hsel : bo.Selects s) (hrow : bo.rowSize ≠ 0) (hmake : bo.notCreateVector = false) (fuel : Nat) :
    (∀ k, ∃ rows stop, readFile E fuel s bo k file = .ok (rows, stop)) ∧
    ((∃ k rows, readFile E fuel s bo k file = .ok (rows, true)) ↔ lostRows bo.rowSize init ≤ 1) ∧
    ∀ k rows, readFile E fuel s bo k file = .ok (rows, true) → rows = (delivered bo.rowSize init last).map (Row.only (s.leaves bo)) := by
  obtain ⟨r, e1, e2, e3⟩ := foreign_file_opens h num named tab once hfit hlen
  obtain ⟨br, e4, e5⟩ := e3 bo hsel hrow
  have e5' : br.Fresh (r.schemas.map (·.hasNulls)) (RowsLeft .any E.c bo s r.schemas.length) ((init ++ [last]).map fun rows => rows.map (Row.only (s.leaves bo))) := by
    rw [← hparts, List.map_map]; exact e5
  refine opened_reads num tab e1 e2 hsel hrow hmake e4 init last e5' (fun rows hr => ?_) fuel
  rw [← hparts] at hr
  obtain ⟨p, hp, rfl⟩ := List.mem_map.1 hr
  exact fun hz => h.filled _ (List.mem_map_of_mem hp) (List.length_eq_zero_iff.2 hz)

/-- **C85, refuted** A file whose footer and postscript have more than 16383 bytes makes opening it panic. -/
theorem foreign_long_tail_panics (h : FileLaid E s file parts ps ft content metadata fb pb) (hlen : 16384 < fb.length + pb.length + 1) :
    newReader E file = .panic := by
  have ht := fileFrame_tail h.toFileFrame
  rw [if_neg (by omega)] at ht
  simp only [newReader, ht]
  rfl

/-! ### Small files -/

/-- An environment in which the messages of small files are one byte each. -/
def tinyEnv (footers : List StripeFooter) (ft : FileFooter) (ps : PostScript) : Env :=
  ⟨exArith, runCodec, fun _ => [], fun _ => [], fun _ => [], fun _ => [], fun b => if b = [0xf2#8] then some [] else none,
    fun b => match b with | [x] => footers[x.toNat]? | _ => none, fun b => if b = [0xf0#8] then some ft else none, fun b => if b = [0xf1#8] then some ps else none⟩

/-- Statistics of which only the flag of nulls matters. -/
def tinyStats (hasNull : Bool) : AnyStats := .struct ⟨none, hasNull, 0, 0⟩

/-- The footer of a small file. -/
def tinyFooter (s : Schema) (infos : List StripeInfo) : FileFooter :=
  ⟨3, 0, (infos.map (·.numberOfRows)).sum, infos, schemasToTypes s.columns, s.columns.map fun c => tinyStats c.node.hasNulls, 10000⟩

/-- The postscript of a small file: no compression. -/
def tinyScript : PostScript := ⟨1, .none, 0, 0, [0, 12], "ORC"⟩

/-- A small file. -/
def tinyFile (body : Bytes) : Bytes := [0x4f#8, 0x52#8, 0x43#8] ++ body ++ [0xf0#8, 0xf1#8, 0x01#8]

theorem tiny_frame (s : Schema) (footers : List StripeFooter) (infos : List StripeInfo) (body : Bytes) (hne : infos ≠ []) (hfilled : ∀ i ∈ infos, i.numberOfRows ≠ 0) :
    FileFrame (tinyEnv footers (tinyFooter s infos) tinyScript) s (tinyFile body) (infos.map (·.numberOfRows)) tinyScript (tinyFooter s infos)
      ([0x4f#8, 0x52#8, 0x43#8] ++ body) [] [0xf0#8] [0xf1#8] where
  bytes := by simp [tinyFile]
  magic := List.prefix_append _ _
  short := by simp
  postScript := rfl
  compression := .inl rfl
  footerLength := rfl
  metadataLength := rfl
  footer := ⟨[0xf0#8], ⟨by decide, rfl⟩, rfl⟩
  types := rfl
  nulls := by simp only [tinyFooter, List.map_map]; rfl
  rows := rfl
  nonempty := by simpa using hne
  filled := by
    intro n hn
    obtain ⟨i, hi, rfl⟩ := List.mem_map.1 hn
    exact hfilled i hi

theorem tiny_laid (s : Schema) (footers : List StripeFooter) (infos : List StripeInfo) (parts : List (List Row × StripeFooter)) (body : Bytes)
    (hrows : infos.map (·.numberOfRows) = parts.map (·.1.length)) (hne : parts ≠ []) (hfilled : ∀ p ∈ parts, p.1 ≠ [])
    (hst : List.Forall₂ (fun info p => ∃ index data, StripeLaid (tinyEnv footers (tinyFooter s infos) tinyScript) .none (256 * 1024) s (tinyFile body) info p.1 p.2 index data)
      infos parts) :
    FileLaid (tinyEnv footers (tinyFooter s infos) tinyScript) s (tinyFile body) parts tinyScript (tinyFooter s infos)
      ([0x4f#8, 0x52#8, 0x43#8] ++ body) [] [0xf0#8] [0xf1#8] where
  toFileFrame := by
    rw [← hrows]
    refine tiny_frame s footers infos body (fun h => ?_) (fun i hi hz => ?_)
    · subst h; exact hne (by simpa using hrows.symm)
    · have : i.numberOfRows ∈ parts.map (·.1.length) := by rw [← hrows]; exact List.mem_map_of_mem hi
      obtain ⟨p, hp, e⟩ := List.mem_map.1 this
      exact hfilled p hp (List.length_eq_zero_iff.1 (by rw [e, hz]))
  stripes := hst

/-- What the streams of a column contain if there is no compression. -/
def plainContents (ps : List LaidStream) (k : StreamKind) : Bytes :=
  match ps.find? fun p => p.kind = k with
  | some p => p.body
  | none => []

theorem plain_laid (c : Codec) (size : Nat) (hsize : 1 ≤ size) (file : Bytes) (id : Nat) (places : List (StreamInfo × Nat)) (kinds : List StreamKind)
    (present : Option (List Bool)) (hfits : ∀ p ∈ places, p.2 + p.1.length ≤ file.length) (hnodup : ((columnStreams file id places).map (·.kind)).Nodup)
    (hkinds : ∀ k, k ∈ (columnStreams file id places).map (·.kind) ↔ k ∈ kinds ∨ (k = .present ∧ present.isSome))
    (hflags : ∀ bs, present = some bs → BoolStream (plainContents (columnStreams file id places) .present) bs) :
    ColumnLaid c .none size file kinds (columnStreams file id places) (plainContents (columnStreams file id places)) present where
  nodup := hnodup
  kinds := hkinds
  inFile p hp := by
    refine ⟨?_, hsize, ?_⟩
    · obtain ⟨q, hq, rfl⟩ := List.mem_map.1 hp
      have := hfits q (List.mem_filter.1 hq).1
      exact ⟨file.take q.2, file.drop (q.2 + q.1.length), by simp [← List.drop_drop], by simp; omega⟩
    · simp only [plainContents]
      cases hf : (columnStreams file id places).find? fun q => decide (q.kind = p.kind) with
      | none =>
        have := List.find?_eq_none.mp hf p hp
        simp at this
      | some q =>
        have h1 := List.mem_of_find?_eq_some hf
        have h2 : q.kind = p.kind := by simpa using List.find?_some hf
        rw [laid_unique hnodup h1 hp h2]
  flags := hflags

/-- A table with a tinyint column with nulls and a string column without. -/
def exNamed : Schema := .mk ⟨0, .struct, .direct, false, ["x", "name"]⟩ [.mk ⟨1, .byte, .direct, true, []⟩ [], .mk ⟨2, .string, .directV2, false, []⟩ []]

/-- Its first stripe: a row index, flags, numbers, texts, lengths. -/
def exFooter0 : StripeFooter := ⟨[⟨.rowIndex, 1, 1⟩, ⟨.present, 1, 2⟩, ⟨.data, 1, 3⟩, ⟨.data, 2, 3⟩, ⟨.length, 2, 3⟩], [.direct, .direct, .directV2]⟩

/-- Its second stripe, with flags or without. -/
def exFooter1 (flags : Bool) : StripeFooter :=
  ⟨[⟨.length, 2, 3⟩, ⟨.data, 2, 2⟩, ⟨.data, 1, 3⟩] ++ (if flags then [⟨.present, 1, 2⟩] else []), [.direct, .direct, .directV2]⟩

/-- Where the stripes are. -/
def exInfos (flags : Bool) : List StripeInfo := [⟨3, 1, 11, 1, 3⟩, ⟨16, 0, if flags then 10 else 8, 1, 2⟩]

/-- The stripes. -/
def exNamedBody (flags : Bool) : Bytes :=
  [0xf2#8, 0xff#8, 0x60#8, 0xfe#8, 0x05#8, 0x06#8, 0x61#8, 0x62#8, 0x63#8, 0x42#8, 0x02#8, 0x84#8, 0x00#8,
    0x42#8, 0x01#8, 0x50#8, 0x78#8, 0x79#8, 0xfe#8, 0x07#8, 0x08#8] ++ (if flags then [0xff#8, 0xc0#8] else []) ++ [0x01#8]

/-- The file. -/
def exNamedFile (flags : Bool) : Bytes := tinyFile (exNamedBody flags)

/-- Its rows: the first number is null. -/
def exNamedRows : List (List Row) :=
  [[[(1, none), (2, some (.str [0x61#8, 0x62#8]))], [(1, some (.u8 5#8)), (2, some (.str []))], [(1, some (.u8 6#8)), (2, some (.str [0x63#8]))]],
    [[(1, some (.u8 7#8)), (2, some (.str [0x78#8]))], [(1, some (.u8 8#8)), (2, some (.str [0x79#8]))]]]

/-- The environment of the file. -/
def exNamedEnv (flags : Bool) : Env := tinyEnv [exFooter0, exFooter1 flags] (tinyFooter exNamed (exInfos flags)) tinyScript

theorem exNamed_columns {P : Schema → Prop} (h0 : P exNamed) (h1 : P (.mk ⟨1, .byte, .direct, true, []⟩ [])) (h2 : P (.mk ⟨2, .string, .directV2, false, []⟩ [])) :
    ∀ c ∈ exNamed.columns, P c := by
  intro c hc
  simp only [exNamed, Schema.columns, columnsAll, List.append_nil, List.mem_cons, List.cons_append, List.nil_append, List.not_mem_nil, or_false] at hc
  rcases hc with rfl | rfl | rfl
  exacts [h0, h1, h2]

/-- The first stripe of the file is as the format wants it. -/
theorem exNamed_first (flags : Bool) : StripeLaid (exNamedEnv flags) .none (256 * 1024) exNamed (exNamedFile flags) ⟨3, 1, 11, 1, 3⟩
    (exNamedRows.getD 0 []) exFooter0 [⟨.rowIndex, 1, 1⟩] [⟨.present, 1, 2⟩, ⟨.data, 1, 3⟩, ⟨.data, 2, 3⟩, ⟨.length, 2, 3⟩] where
  count := rfl
  inFile := by decide +kernel +revert
  footerAt := ⟨[0#8], ⟨by decide, by decide +kernel +revert⟩, rfl⟩
  listed := rfl
  existing := by decide
  indexes := by decide
  indexLength := rfl
  indexAt := by
    intro p hp
    simp only [startsFrom, List.mem_singleton] at hp
    subst hp
    exact ⟨by decide +kernel +revert, [0xf2#8], [], ⟨by decide, by decide +kernel +revert⟩, rfl⟩
  noIndex := by decide
  dataLength := rfl
  columns := by
    have hfits : ∀ p ∈ startsFrom (3 + 1) [(⟨.present, 1, 2⟩ : StreamInfo), ⟨.data, 1, 3⟩, ⟨.data, 2, 3⟩, ⟨.length, 2, 3⟩],
        p.2 + p.1.length ≤ (exNamedFile flags).length := by decide +kernel +revert
    refine exNamed_columns ⟨.direct, rfl, ?_⟩ ⟨.direct, rfl, ?_⟩ ⟨.directV2, rfl, ?_⟩
    · refine ⟨_, none, by simp, .inl ⟨rfl, rfl, plain_laid _ _ (by decide) _ _ _ [] none hfits (by decide +kernel +revert) ?_ (by simp),
        by simp [exNamed, node_mk]⟩⟩
      intro k; cases k <;> decide +kernel +revert
    · refine ⟨_, some [false, true, true], by simp [node_mk], .inr ⟨.byte, .tinyint,
        plain_laid _ _ (by decide) _ _ _ [.data] _ hfits (by decide +kernel +revert) ?_ ?_, by unfold Flagged; decide +kernel +revert, ?_⟩⟩
      · intro k; cases k <;> decide +kernel +revert
      · intro bs hb; cases hb
        exact ⟨[0x60#8], [false, false, false, false, false], ⟨[.literal [0x60#8]], by simp [ByteRun.WF], by decide +kernel +revert, rfl⟩,
          by decide +kernel⟩
      · exact ⟨[5#8, 6#8], ⟨[.literal [5#8, 6#8]], by simp [ByteRun.WF], by decide +kernel +revert, rfl⟩, by decide +kernel +revert⟩
    · refine ⟨_, none, by simp, .inr ⟨.string, .string, plain_laid _ _ (by decide) _ _ _ [.data, .length] none hfits (by decide +kernel +revert)
        ?_ (by simp), by unfold Flagged; decide +kernel +revert, ?_⟩⟩
      · intro k; cases k <;> decide +kernel +revert
      · exact ⟨[[0x61#8, 0x62#8], [], [0x63#8]], ⟨by simp, by decide +kernel +revert, [.direct 1 [2, 0, 1]],
          ⟨by simp [RleBlock.WF]; decide +kernel, by decide +kernel +revert⟩, by simp [RleBlock.Handled], by decide +kernel +revert⟩,
          by decide +kernel +revert⟩

/-- So is the second, with flags and without: none of its rows are null. -/
theorem exNamed_second (flags : Bool) : StripeLaid (exNamedEnv flags) .none (256 * 1024) exNamed (exNamedFile flags)
    ⟨16, 0, if flags then 10 else 8, 1, 2⟩ (exNamedRows.getD 1 []) (exFooter1 flags) [] (exFooter1 flags).streams where
  count := rfl
  inFile := by decide +kernel +revert
  footerAt := ⟨[1#8], ⟨by decide, by decide +kernel +revert⟩, rfl⟩
  listed := rfl
  existing := by decide +kernel +revert
  indexes := by simp
  indexLength := rfl
  indexAt := by simp [startsFrom]
  noIndex := by decide +kernel +revert
  dataLength := by decide +kernel +revert
  columns := by
    have hfits : ∀ p ∈ startsFrom (16 + 0) (exFooter1 flags).streams, p.2 + p.1.length ≤ (exNamedFile flags).length := by
      decide +kernel +revert
    refine exNamed_columns ⟨.direct, rfl, ?_⟩ ⟨.direct, rfl, ?_⟩ ⟨.directV2, rfl, ?_⟩
    · refine ⟨_, none, by simp, .inl ⟨rfl, rfl, plain_laid _ _ (by decide) _ _ _ [] none hfits (by decide +kernel +revert) ?_ (by simp),
        by simp [exNamed, node_mk]⟩⟩
      intro k; cases k <;> decide +kernel +revert
    · refine ⟨_, if flags then some [true, true] else none, by simp [node_mk], .inr ⟨.byte, .tinyint,
        plain_laid _ _ (by decide) _ _ _ [.data] _ hfits (by decide +kernel +revert) ?_ ?_, by unfold Flagged; decide +kernel +revert, ?_⟩⟩
      · intro k; cases k <;> decide +kernel +revert
      · intro bs hb
        cases flags with
        | false => cases hb
        | true =>
          cases hb
          exact ⟨[0xc0#8], [false, false, false, false, false, false], ⟨[.literal [0xc0#8]], by simp [ByteRun.WF], by decide +kernel, rfl⟩,
            by decide +kernel⟩
      · exact ⟨[7#8, 8#8], ⟨[.literal [7#8, 8#8]], by simp [ByteRun.WF], by decide +kernel +revert, rfl⟩, by decide +kernel +revert⟩
    · refine ⟨_, none, by simp, .inr ⟨.string, .string, plain_laid _ _ (by decide) _ _ _ [.data, .length] none hfits (by decide +kernel +revert)
        ?_ (by simp), by unfold Flagged; decide +kernel +revert, ?_⟩⟩
      · intro k; cases k <;> decide +kernel +revert
      · exact ⟨[[0x78#8], [0x79#8]], ⟨by simp, by decide +kernel +revert, [.direct 1 [1, 1]],
          ⟨by simp [RleBlock.WF]; decide +kernel, by decide +kernel +revert⟩, by simp [RleBlock.Handled], by decide +kernel +revert⟩,
          by decide +kernel +revert⟩

/-- The rows and the stripe footers of the file. -/
def exNamedParts (flags : Bool) : List (List Row × StripeFooter) := [(exNamedRows.getD 0 [], exFooter0), (exNamedRows.getD 1 [], exFooter1 flags)]

/-- The file is as the format wants it. -/
theorem exNamed_laid (flags : Bool) : FileLaid (exNamedEnv flags) exNamed (exNamedFile flags) (exNamedParts flags) tinyScript
    (tinyFooter exNamed (exInfos flags)) ([0x4f#8, 0x52#8, 0x43#8] ++ exNamedBody flags) [] [0xf0#8] [0xf1#8] :=
  tiny_laid exNamed _ _ _ _ rfl (by simp [exNamedParts]) (by simp [exNamedParts, exNamedRows])
    (.cons ⟨_, _, exNamed_first flags⟩ (.cons ⟨_, _, exNamed_second flags⟩ .nil))

theorem exNamed_fits (flags : Bool) : ∀ p ∈ exNamedParts flags, NullsFit exNamed p.1 := by
  intro p hp
  simp only [exNamedParts, List.mem_cons, List.not_mem_nil, or_false] at hp
  rcases hp with rfl | rfl
  · exact ⟨by decide +kernel, by decide +kernel, by decide +kernel⟩
  · exact ⟨by decide +kernel +revert, by decide +kernel +revert, by decide +kernel +revert⟩

/-- A table for which vectors can be created. -/
theorem exNamed_columnar : exNamed.Columnar where
  kinds := by decide +kernel
  structs := by decide +kernel
  supported := by
    intro c hc hn d hd
    cases hc with
    | here => cases hn
    | down _ _ _ _ _ below => cases below; cases hd

/-- A file of another writer that meets the conditions: what is read is what is in it. -/
example : ∃ k, readFile (exNamedEnv true) 10 exNamed ⟨[], 10, false⟩ k (exNamedFile true) = .ok (exNamedRows.flatten, true) := by
  obtain ⟨_, h2, h3⟩ := foreign_file_reads_partial [exNamedRows.getD 0 []] (exNamedRows.getD 1 []) (exNamed_laid true) rfl
    (by unfold Schema.Numbered; decide +kernel) (by unfold Schema.Named; decide +kernel) exNamed_columnar (by unfold Schema.NullsOnce; decide +kernel)
    (fun p hp => ⟨exNamed_fits true p hp, by revert p; unfold StripeFooter.Flags; decide +kernel⟩) (by decide) ⟨[], 10, false⟩
    (by unfold BatchOption.Selects; decide +kernel) (by decide) rfl 10
  obtain ⟨k, rows, e⟩ := h2.mpr (by decide +kernel)
  exact ⟨k, by rw [e, h3 k rows e]; rfl⟩

local instance : DecidableEq Row := inferInstanceAs (DecidableEq (List _))

/-- **C85, refuted** A stripe without nulls in a column may do without flags, even if other stripes have them. The reader goes by the
flags the batch before left in the vector: here the first row of the second stripe is read as null, the second gets the value of the first, and the value of
the second is lost. -/
theorem foreign_stale_flags :
    FileLaid (exNamedEnv false) exNamed (exNamedFile false) (exNamedParts false) tinyScript (tinyFooter exNamed (exInfos false))
      ([0x4f#8, 0x52#8, 0x43#8] ++ exNamedBody false) [] [0xf0#8] [0xf1#8] ∧
    exNamed.Numbered ∧ exNamed.Named ∧ exNamed.Columnar ∧ exNamed.NullsOnce ∧ (∀ p ∈ exNamedParts false, NullsFit exNamed p.1) ∧
    (exNamedParts false).flatMap (·.1) = exNamedRows.flatten ∧
    readFile (exNamedEnv false) 10 exNamed ⟨[], 10, false⟩ 5 (exNamedFile false) =
      .ok (exNamedRows.getD 0 [] ++ [[(1, none), (2, some (.str [0x78#8]))], [(1, some (.u8 7#8)), (2, some (.str [0x79#8]))]], true) := by
  refine ⟨exNamed_laid false, ?_, ?_, exNamed_columnar, ?_, exNamed_fits false, rfl, ?_⟩
  · unfold Schema.Numbered; decide +kernel
  · unfold Schema.Named; decide +kernel
  · unfold Schema.NullsOnce; decide +kernel
  · decide +kernel

/-- A table with a struct with nulls that has two tinyint columns, one of them with nulls. -/
def exInner : Schema :=
  .mk ⟨0, .struct, .direct, false, ["p"]⟩ [.mk ⟨1, .struct, .direct, true, ["x", "y"]⟩ [.mk ⟨2, .byte, .direct, false, []⟩ [], .mk ⟨3, .byte, .direct, true, []⟩ []]]

/-- Its only stripe. -/
def exInnerFooter : StripeFooter := ⟨[⟨.present, 1, 2⟩, ⟨.data, 2, 3⟩, ⟨.present, 3, 2⟩, ⟨.data, 3, 2⟩], [.direct, .direct, .direct, .direct]⟩

/-- The stripe: the flags of three structs, of which two are not null, and the numbers of these. -/
def exInnerBody : Bytes := [0xff#8, 0x60#8, 0xfe#8, 0x01#8, 0x02#8, 0xff#8, 0x40#8, 0xff#8, 0x05#8, 0x00#8]

/-- The file. -/
def exInnerFile : Bytes := tinyFile exInnerBody

/-- The environment of the file. -/
def exInnerEnv : Env := tinyEnv [exInnerFooter] (tinyFooter exInner [⟨3, 0, 9, 1, 3⟩]) tinyScript

/-- Its rows. -/
def exInnerRows : List Row :=
  [[(1, none), (2, none), (3, none)], [(1, some .nil), (2, some (.u8 1#8)), (3, none)], [(1, some .nil), (2, some (.u8 2#8)), (3, some (.u8 5#8))]]

theorem exInner_stripe : StripeLaid exInnerEnv .none (256 * 1024) exInner exInnerFile ⟨3, 0, 9, 1, 3⟩ exInnerRows exInnerFooter [] exInnerFooter.streams where
  count := rfl
  inFile := by decide +kernel
  footerAt := ⟨[0#8], ⟨by decide, by decide +kernel⟩, rfl⟩
  listed := rfl
  existing := by decide
  indexes := by simp
  indexLength := rfl
  indexAt := by simp [startsFrom]
  noIndex := by decide +kernel
  dataLength := rfl
  columns := by
    have hfits : ∀ p ∈ startsFrom (3 + 0) exInnerFooter.streams, p.2 + p.1.length ≤ exInnerFile.length := by decide +kernel
    intro c hc
    simp only [exInner, Schema.columns, columnsAll, List.append_nil, List.mem_cons, List.cons_append, List.nil_append, List.not_mem_nil, or_false] at hc
    rcases hc with rfl | rfl | rfl | rfl
    · refine ⟨.direct, rfl, _, none, by simp, .inl ⟨rfl, rfl, plain_laid _ _ (by decide) _ _ _ [] none hfits (by decide +kernel) ?_ (by simp),
        by simp [exInner, node_mk]⟩⟩
      intro k; cases k <;> decide +kernel
    · refine ⟨.direct, rfl, _, some [false, true, true], by simp [node_mk], .inl ⟨rfl, rfl,
        plain_laid _ _ (by decide) _ _ _ [] _ hfits (by decide +kernel) ?_ ?_, fun _ => by unfold Flagged; decide +kernel⟩⟩
      · intro k; cases k <;> decide +kernel
      · intro bs hb; cases hb
        exact ⟨[0x60#8], [false, false, false, false, false], ⟨[.literal [0x60#8]], by simp [ByteRun.WF], by decide +kernel, rfl⟩, by decide +kernel⟩
    · refine ⟨.direct, rfl, _, none, by simp, .inr ⟨.byte, .tinyint,
        plain_laid _ _ (by decide) _ _ _ [.data] _ hfits (by decide +kernel) ?_ (by simp), by unfold Flagged; decide +kernel, ?_⟩⟩
      · intro k; cases k <;> decide +kernel
      · exact ⟨[1#8, 2#8], ⟨[.literal [1#8, 2#8]], by simp [ByteRun.WF], by decide +kernel, rfl⟩, by decide +kernel⟩
    · refine ⟨.direct, rfl, _, some [false, true], by simp [node_mk], .inr ⟨.byte, .tinyint,
        plain_laid _ _ (by decide) _ _ _ [.data] _ hfits (by decide +kernel) ?_ ?_, by unfold Flagged; decide +kernel, ?_⟩⟩
      · intro k; cases k <;> decide +kernel
      · intro bs hb; cases hb
        exact ⟨[0x40#8], [false, false, false, false, false, false], ⟨[.literal [0x40#8]], by simp [ByteRun.WF], by decide +kernel, rfl⟩, by decide +kernel⟩
      · exact ⟨[5#8], ⟨[.literal [5#8]], by simp [ByteRun.WF], by decide +kernel, rfl⟩, by decide +kernel⟩

/-- **C85, refuted** Where a struct is null the columns in it have no rows, so no flags either. The reader takes one flag of a column with
nulls for every row, null or not, and pads the missing ones: here the number of the third row turns up in the second, whose number is null,
and the third row is null. -/
theorem foreign_inner_nulls :
    FileLaid exInnerEnv exInner exInnerFile [(exInnerRows, exInnerFooter)] tinyScript (tinyFooter exInner [⟨3, 0, 9, 1, 3⟩])
      ([0x4f#8, 0x52#8, 0x43#8] ++ exInnerBody) [] [0xf0#8] [0xf1#8] ∧
    exInner.Numbered ∧ exInner.Named ∧ exInner.Columnar ∧ NullsFit exInner exInnerRows ∧ exInnerFooter.Flags exInner ∧
    readFile exInnerEnv 10 exInner ⟨[], 10, false⟩ 5 exInnerFile =
      .ok ([[(1, none), (2, none), (3, none)], [(1, some .nil), (2, some (.u8 1#8)), (3, some (.u8 5#8))], [(1, some .nil), (2, some (.u8 2#8)), (3, none)]],
        true) := by
  refine ⟨tiny_laid exInner _ _ _ _ rfl (by simp) (by simp [exInnerRows]) (.cons ⟨_, _, exInner_stripe⟩ .nil), ?_, ?_,
    ⟨by decide +kernel, by decide +kernel, ?_⟩, ⟨by decide +kernel, by decide +kernel, by decide +kernel⟩, ?_, ?_⟩
  · unfold Schema.Numbered; decide +kernel
  · unfold Schema.Named; decide +kernel
  · intro c hc hn d hd
    cases hc with
    | here => cases hn
    | down _ _ _ _ _ below =>
      cases below with
      | here => cases hd; rfl
      | down _ _ _ _ _ below => cases below; cases hn
  · unfold StripeFooter.Flags; decide +kernel
  · decide +kernel

end Goorc
