import Verif.Proofs.DeepSeek
import Verif.Props.SeekFile
import Verif.Props.Trees
/-
C93: row groups and `Seek` in tables with lists, maps, structs and dictionaries, whoever wrote them.
-/
namespace Goorc

variable {E : Env} {most : Nat} {s : Schema} {file : Bytes}

theorem record_solid (hs : s.Record) {types : List RdType} (ht : TypesOf s types) : s.StructsSolid (types.map (·.hasNulls)) := by
  intro c hc hk
  rw [ht.hasNulls c hc]
  rcases record_columns_kinds hs c hc with hk' | ⟨h1, h2⟩
  · exact absurd hk hk'
  · rw [h2]

/-- **C93** The column readers of a stripe of any writer, of a table as in C91, with row indexes: asked for batches, rows to pass over and row groups, in any
order, as long as they stay within the stripe, they show the rows they should if `SeekStride(k)` is taken to go to row group `k - 1`, with the elements of the
lists and maps in step. `SeekStride(0)` goes to the first row, if no dates are read; `Skip` works if no maps are read. -/
theorem deep_groups_exact (full : Bool) {ro : ROpts} {info : StripeInfo} {rows : List DeepRow} {f : StripeFooter} {index data : List StreamInfo} {stride groups : Nat}
    {entries : Nat → List (List Nat)} (h : StripeDeep E ro.kind ro.chunkSize most s file info rows f index data)
    (hg : StripeGroups E ro.kind ro.chunkSize most s file info rows f index data stride groups entries) (num : s.Numbered) (hs : s.Record)
    (hreach : info.Reachable ro.kind ro.chunkSize s file data) {types : List RdType} (ht : TypesOf s types)
    (bo : BatchOption) (hsel : bo.Chooses s) (hrow : bo.rowSize ≠ 0) (hmake : bo.notCreateVector = false) (hfull : full = true → bo.rowSize = 1)
    (fuel : Nat) (hfuel : most ≤ fuel) (ops : List GroupOp)
    (hops : KeepsIn (fun k => (k - 1) * stride) (fun k => k ≤ groups ∧ (k = 0 → ∀ c ∈ s.columns, bo.isInclude c.node.id = true → c.node.kind ≠ .date))
      (∀ c ∈ s.columns, bo.isInclude c.node.id = true → c.node.kind ≠ .map) bo.rowSize rows.length 0 ops) :
    wanderStripe E fuel ro s bo full file types info ops = .ok (seenBy (fun k => (k - 1) * stride) (rows.map (DeepRow.shown full (s.chosen bo))) 0 ops) := by
  obtain ⟨x, h1, h2, h3⟩ := stripeGroups_roams h hg num hs hsel ht hfuel hreach
  obtain ⟨v, e6, -, e7⟩ := rec_vector hsel hmake hrow types.length s hs (self_mem_columns s) hsel.1 (Nat.le_of_eq ht.1.symm)
  have D := rec_delivers E.c fuel bo s hs (chooses_closed hsel) hsel.1 types.length (types.map (·.hasNulls)) (record_solid hs ht) bo.rowSize full hfull
  have := wander_spec D (row := fun k => (k - 1) * stride)
    (allowed := fun k => k ≤ groups ∧ (k = 0 → ∀ c ∈ s.columns, bo.isInclude c.node.id = true → c.node.kind ≠ .date)) (by
      rintro k ⟨a1, a2⟩
      by_cases hk : k = 0
      · exact .inl ⟨hk, by simp [hk], a2 hk⟩
      · exact .inr ⟨by omega, a1, rfl⟩) ops 0 x v h3.shown ⟨rows, rfl, h2⟩ ⟨_, e7⟩ (by rw [List.length_map]; exact hops)
  simp only [wanderStripe, h1, createVector, hrow, if_false, record_verify hs, e6, Res.ok_bind, this]

variable {parts : List (List DeepRow × StripeFooter)} {ps : PostScript} {ft : FileFooter} {content metadata fb pb : Bytes}

/-- The batch reader of such a file can seek, if neither dates nor maps are read. -/
theorem deep_file_seekable (full : Bool) (h : FileDeep E most s file parts ps ft content metadata fb pb) (num : s.Numbered) (named : s.Named) (hs : s.Record)
    (hlen : fb.length + pb.length + 1 ≤ 16384)
    (hreach : List.Forall₂ (fun info p => ∃ index data, StripeDeep E ps.compression ps.chunkSize most s file info p.1 p.2 index data ∧
      info.Reachable ps.compression ps.chunkSize s file data) ft.stripes parts)
    (bo : BatchOption) (hsel : bo.Chooses s) (hrow : bo.rowSize ≠ 0)
    (hkinds : ∀ c ∈ s.columns, bo.isInclude c.node.id = true → c.node.kind ≠ .date ∧ c.node.kind ≠ .map) (fuel : Nat) (hfuel : most ≤ fuel) :
    ∃ r br, newReader E file = .ok r ∧ TypesOf s r.schemas ∧ r.createBatchReader E bo = .ok br ∧ br.indexStride = ft.rowIndexStride ∧
      br.Fresh (r.schemas.map (·.hasNulls)) (RecLeft E.c fuel bo s full r.schemas.length) (parts.map fun p => p.1.map (DeepRow.shown full (s.chosen bo))) ∧
      List.Forall₂ (StripeReader.Seekable (rdOps E.c fuel r.schemas.length) (RecLeft E.c fuel bo s full r.schemas.length)) br.stripes
        (parts.map fun p => p.1.map (DeepRow.shown full (s.chosen bo))) := by
  obtain ⟨types, k1, k3, k4⟩ := fileFrame_created h.toFileFrame num named hlen
  obtain ⟨rs, m1, m2⟩ := k4 bo hrow (fun x rows => StripeReader.Fresh (types.map (·.hasNulls)) (RecLeft E.c fuel bo s full types.length) x rows ∧
      StripeReader.Seekable (rdOps E.c fuel types.length) (RecLeft E.c fuel bo s full types.length) x rows) (parts.map fun p => p.1.map (DeepRow.shown full (s.chosen bo))) (by
    rw [List.forall₂_iff_get] at hreach ⊢
    refine ⟨by rw [List.length_map, hreach.1], fun k hk hk' => ?_⟩
    rw [List.length_map] at hk'
    obtain ⟨index, data, a, a'⟩ := hreach.2 k hk hk'
    simp only [List.get_eq_getElem] at a a' ⊢
    rw [List.getElem_map]
    obtain ⟨x, b1, b2, b3⟩ := stripeDeep_rewinds (ro := ⟨ps.compression, ps.chunkSize, ft.rowIndexStride⟩) a num hs hsel k3 hfuel a'
    refine ⟨?_, _, b1, ⟨rfl, rfl, by simp, x, rfl, _, rfl, b2⟩, by simp, x, ?_⟩
    · rw [a.count]
      exact h.filled _ (List.mem_map_of_mem (List.getElem_mem hk'))
    · have b4 := b3.shown (full := full)
      obtain ⟨x0, g1, g2, g3⟩ := rover_roves.seek x 0 0 b4 ⟨rfl, rfl, fun c hc hi => (hkinds c hc hi).1⟩
      rw [List.drop_zero] at g3
      refine ⟨x0, rfl, g1, fun n hn => ?_⟩
      obtain ⟨x1, g4, -, g6⟩ := rover_roves.skip (fun c hc hi => (hkinds c hc hi).2) x0 ((parts[k].1.map (DeepRow.shown full (s.chosen bo))).take n)
        ((parts[k].1.map (DeepRow.shown full (s.chosen bo))).drop n) g2 (by rw [List.take_append_drop]; exact g3)
      rw [List.length_take, Nat.min_eq_left hn] at g4
      exact ⟨x1, g4, g6⟩)
  have hcount : (parts.map (·.1.length)).sum = (parts.map fun p => p.1.map (DeepRow.shown full (s.chosen bo))).flatten.length := by
    simp only [List.length_flatten, List.map_map, Function.comp_def, List.length_map]
  exact ⟨_, _, k1, k3, m1, rfl, ⟨rfl, rfl, hcount, m2.imp fun _ _ h => h.1⟩, m2.imp fun _ _ h => h.2⟩

/-- **C93, exact** `Seek` in such a file, if neither dates nor maps are read (and the streams can be sought in, C33): a row that does not exist is an error; without
an index stride `Seek` panics; otherwise the next batch has rows of the FIRST stripe: from row `r` modulo the stride if the row is row `r` of the first stripe,
and from row 0 if it is in another stripe. -/
theorem deep_seek_exact (full : Bool) (h : FileDeep E most s file parts ps ft content metadata fb pb) (num : s.Numbered) (named : s.Named) (hs : s.Record)
    (hlen : fb.length + pb.length + 1 ≤ 16384)
    (hreach : List.Forall₂ (fun info p => ∃ index data, StripeDeep E ps.compression ps.chunkSize most s file info p.1 p.2 index data ∧
      info.Reachable ps.compression ps.chunkSize s file data) ft.stripes parts)
    (bo : BatchOption) (hsel : bo.Chooses s) (hrow : bo.rowSize ≠ 0) (hmake : bo.notCreateVector = false) (hfull : full = true → bo.rowSize = 1)
    (hkinds : ∀ c ∈ s.columns, bo.isInclude c.node.id = true → c.node.kind ≠ .date ∧ c.node.kind ≠ .map) (fuel : Nat) (hfuel : most ≤ fuel) (row : Nat) :
    ((parts.flatMap (·.1)).length ≤ row → seekRecords E fuel s bo full row file = .err .other) ∧
    (row < (parts.flatMap (·.1)).length → ft.rowIndexStride = 0 → seekRecords E fuel s bo full row file = .panic) ∧
    (∀ first rest, parts.map (·.1) = first :: rest → row < (first :: rest).flatten.length → 2 ≤ (first :: rest).flatten.length → ft.rowIndexStride ≠ 0 →
      ∀ q, q = (if row < first.length then row % ft.rowIndexStride else 0) → q + min bo.rowSize first.length ≤ first.length →
      seekRecords E fuel s bo full row file = .ok (((first.drop q).take (min bo.rowSize first.length)).map (DeepRow.shown full (s.chosen bo)))) := by
  obtain ⟨r, br, e1, e2, e3, e4, e5, e6⟩ := deep_file_seekable full h num named hs hlen hreach bo hsel hrow hkinds fuel hfuel
  obtain ⟨v, f0, -, f2⟩ := rec_vector hsel hmake hrow r.schemas.length s hs (self_mem_columns s) hsel.1 (Nat.le_of_eq e2.1.symm)
  have f1 : createVector s bo = .ok v := by simp only [createVector, hrow, if_false, record_verify hs, f0, Res.ok_bind]
  have D := rec_delivers E.c fuel bo s hs (chooses_closed hsel) hsel.1 r.schemas.length (r.schemas.map (·.hasNulls)) (record_solid hs e2) bo.rowSize full hfull
  have hlength : ∀ l : List (List DeepRow × StripeFooter), (l.map fun p => p.1.map (DeepRow.shown full (s.chosen bo))).flatten.length = (l.flatMap (·.1)).length := by
    intro l
    simp [List.length_flatten, List.length_flatMap, Function.comp_def]
  have hsplit : row < (parts.flatMap (·.1)).length → ∃ before p after t, parts = before ++ p :: after ∧ row = (before.flatMap (·.1)).length + t ∧ t < p.1.length := by
    have : ∀ (l : List (List DeepRow × StripeFooter)) row, row < (l.flatMap (·.1)).length →
        ∃ before p after t, l = before ++ p :: after ∧ row = (before.flatMap (·.1)).length + t ∧ t < p.1.length := by
      intro l
      induction l with
      | nil => intro row h; simp at h
      | cons a l ih =>
        intro row h
        by_cases hlt : row < a.1.length
        · exact ⟨[], a, l, row, rfl, by simp, hlt⟩
        · obtain ⟨before, p, after, t, rfl, h2, h3⟩ := ih (row - a.1.length) (by simp at h ⊢; omega)
          refine ⟨a :: before, p, after, t, rfl, ?_, h3⟩
          simp only [List.flatMap_cons, List.length_append]; omega
    exact this parts row
  have hx := seek_exact br _ e6 e5.total row
  refine ⟨fun hle => ?_, fun hlt h0 => ?_, ?_⟩
  · have := hx.1 (by rw [hlength]; exact hle)
    simp only [seekRecords, e1, e3, f1, this, Res.ok_bind]
    rfl
  · obtain ⟨before, p, after, t, rfl, ht1, ht2⟩ := hsplit hlt
    have := (hx.2 (before.map fun p => p.1.map (DeepRow.shown full (s.chosen bo))) (p.1.map (DeepRow.shown full (s.chosen bo)))
      (after.map fun p => p.1.map (DeepRow.shown full (s.chosen bo))) t
      (by simp) (by rw [hlength]; exact ht1) (by simpa using ht2)).1 (by rw [e4]; exact h0)
    simp only [seekRecords, e1, e3, f1, this, Res.ok_bind]
    rfl
  · intro first rest hparts hlt h2 hS q hq hqfit
    have htot : (first :: rest).flatten.length = (parts.flatMap (·.1)).length := by
      rw [← hparts, List.flatMap_def]
    obtain ⟨before, p, after, t, rfl, ht1, ht2⟩ := hsplit (by rw [← htot]; exact hlt)
    have hmap : (before ++ p :: after).map (fun p => p.1.map (DeepRow.shown full (s.chosen bo))) = (before.map fun p => p.1.map (DeepRow.shown full (s.chosen bo))) ++
      p.1.map (DeepRow.shown full (s.chosen bo)) :: (after.map fun p => p.1.map (DeepRow.shown full (s.chosen bo))) := by simp
    rw [hmap] at e5 e6
    obtain ⟨br', br'', stop, vec', g1, g2, g3⟩ := seek_next_exact D fuel br _ _ _ (first.map (DeepRow.shown full (s.chosen bo))) e5 e6 v ⟨_, f2⟩ (Nat.one_le_iff_ne_zero.2 hrow)
      (by
        cases before with
        | nil => simp only [List.nil_append, List.map_cons, List.cons.injEq] at hparts; simp [hparts.1]
        | cons b before => simp only [List.cons_append, List.map_cons, List.cons.injEq] at hparts; simp [hparts.1])
      (by rw [← hmap, hlength, ← htot]; exact h2) t (by simpa using ht2) (by rw [e4]; exact hS) q
      (by
        rw [hq, e4]
        cases before with
        | nil =>
          simp only [List.nil_append, List.map_cons, List.cons.injEq] at hparts
          simp only [List.flatMap_nil, List.length_nil, Nat.zero_add] at ht1
          simp only [List.map_nil, if_true]
          rw [if_pos (by rw [← hparts.1, ht1]; exact ht2), ht1]
        | cons b before =>
          simp only [List.cons_append, List.map_cons, List.cons.injEq] at hparts
          rw [if_neg (by rw [← hparts.1, ht1]; simp only [List.flatMap_cons, List.length_append]; omega), if_neg (by simp)])
      (by simpa using hqfit)
    rw [hlength, ← ht1] at g1
    simp only [seekRecords, e1, e3, f1, g1, g2, Res.ok_bind, Res.pure_eq, g3, List.length_map]
    rw [← List.map_drop, ← List.map_take]

/-! ### A file with row groups -/

/-- Lists of numbers; a list may be null. -/
def exLists : Schema := .mk ⟨0, .struct, .direct, false, ["l"]⟩ [.mk ⟨1, .list, .directV2, true, []⟩ [.mk ⟨2, .byte, .direct, false, []⟩ []]]

/-- Its data streams. -/
def exListsData : List StreamInfo := [⟨.present, 1, 2⟩, ⟨.length, 1, 3⟩, ⟨.data, 2, 6⟩]

/-- Row groups of two rows. -/
def exListsFooter : StripeFooter := ⟨[⟨.rowIndex, 1, 1⟩, ⟨.rowIndex, 2, 1⟩, ⟨.present, 1, 2⟩, ⟨.length, 1, 3⟩, ⟨.data, 2, 6⟩], [.direct, .directV2, .direct]⟩

/-- The stripe. -/
def exListsBody : Bytes := [0xe1#8, 0xe2#8, 0xff#8, 0xb0#8, 0x42#8, 0x02#8, 0x98#8, 0xfb#8, 0x01#8, 0x02#8, 0x03#8, 0x04#8, 0x05#8, 0x00#8]

/-- The file. -/
def exListsFile : Bytes := tinyFile exListsBody

/-- The row indexes: the second row group starts with the second list, of which the elements start with the third. -/
def exListsEntries : Nat → List (List Nat)
  | 1 => [[0, 0, 0, 0, 0], [0, 0, 2, 0, 1]]
  | 2 => [[0, 0], [0, 2]]
  | _ => []

/-- An environment with indexes. -/
def exListsEnv : Env :=
  { tinyEnv [exListsFooter] (tinyFooter exLists [⟨3, 2, 11, 1, 4⟩]) tinyScript with
    P := { (tinyEnv [exListsFooter] (tinyFooter exLists [⟨3, 2, 11, 1, 4⟩]) tinyScript).P with
      readIndex := fun b => if b = [0xe1#8] then some (exListsEntries 1) else if b = [0xe2#8] then some (exListsEntries 2) else none } }

/-- Its rows. -/
def exListsRows : List DeepRow :=
  [[(1, .list [.value (.u8 1#8), .value (.u8 2#8)])], [(1, .null)], [(1, .list [.value (.u8 3#8)])], [(1, .list [.value (.u8 4#8), .value (.u8 5#8)])]]

theorem exLists_columns {P : Schema → Prop} (h0 : P exLists) (h1 : P (.mk ⟨1, .list, .directV2, true, []⟩ [.mk ⟨2, .byte, .direct, false, []⟩ []]))
    (h2 : P (.mk ⟨2, .byte, .direct, false, []⟩ [])) : ∀ c ∈ exLists.columns, P c := by
  intro c hc
  simp only [exLists, Schema.columns, columnsAll, List.append_nil, List.mem_cons, List.cons_append, List.nil_append, List.not_mem_nil, or_false] at hc
  rcases hc with rfl | rfl | rfl
  exacts [h0, h1, h2]

theorem exLists_groups : StripeGroups exListsEnv .none (256 * 1024) 2 exLists exListsFile ⟨3, 2, 11, 1, 4⟩ exListsRows exListsFooter
    [⟨.rowIndex, 1, 1⟩, ⟨.rowIndex, 2, 1⟩] exListsData 2 2 exListsEntries where
  once := by decide
  each := exLists_columns (fun h => absurd rfl h)
    (fun _ => ⟨rfl, (⟨.rowIndex, 1, 1⟩, 3), [0xe1#8], by decide, rfl, ⟨by decide, by decide +kernel⟩, rfl⟩)
    (fun _ => ⟨rfl, (⟨.rowIndex, 2, 1⟩, 4), [0xe2#8], by decide, rfl, ⟨by decide, by decide +kernel⟩, rfl⟩)
  fields := by
    have hfits : ∀ p ∈ startsFrom (3 + 2) exListsData, p.2 + p.1.length ≤ exListsFile.length := by decide +kernel
    have he : ByteStream [] [] := ⟨[], by simp, rfl, rfl⟩
    have hi : IntStream false [] [] := ⟨by simp, rfl⟩
    have hp : ByteStream [0xff#8, 0xb0#8] [0xb0#8] := ⟨[.literal [0xb0#8]], by simp [ByteRun.WF], by decide +kernel, by decide +kernel⟩
    have hl : IntStream false [0x42#8, 0x02#8, 0x98#8] [.direct 1 [2, 1, 2]] := ⟨by simp [RleBlock.WF]; decide +kernel, by decide +kernel⟩
    have hx : ByteStream [0xfb#8, 0x01#8, 0x02#8, 0x03#8, 0x04#8, 0x05#8] [1#8, 2#8, 3#8, 4#8, 5#8] :=
      ⟨[.literal [1#8, 2#8, 3#8, 4#8, 5#8]], by simp [ByteRun.WF], by decide +kernel, by decide +kernel⟩
    have hbits : bytesBits [0xb0#8] = [true, false, true, true] ++ [false, false, false, false] := by decide +kernel
    intro c hc
    simp only [exLists, Schema.fields, fieldsAll, if_true, reduceCtorEq, if_false, List.append_nil, List.mem_cons, List.not_mem_nil, or_false] at hc
    subst hc
    refine .list _ _ _ [some [.value (.u8 1#8), .value (.u8 2#8)], none, some [.value (.u8 3#8)], some [.value (.u8 4#8), .value (.u8 5#8)]] _ rfl ?_ ?_ rfl
    · refine ⟨_, some [true, false, true, true], [.direct 1 [2, 1, 2]], fun _ => rfl, plain_laid _ _ (by decide) _ _ _ [.length] _ hfits (by decide +kernel) ?_ ?_,
        by decide +kernel, by decide +kernel, hl, by simp [RleBlock.Handled], by decide +kernel, ?_⟩
      · intro k; cases k <;> decide +kernel
      · intro bs hb; cases hb
        exact ⟨[0xb0#8], _, hp, hbits⟩
      · intro g entry hg
        match g, hg with
        | 0, hg =>
          cases hg
          exact ⟨by decide, [0, 0, 0], [0, 0], rfl,
            ⟨_, _, 0, [0, 0], 0, hbits, ⟨[], _, [], _, 0, [0], rfl, rfl, he, hp, by decide, rfl, ⟨⟨.present, 5, [0xff#8, 0xb0#8]⟩, by decide +kernel, rfl, by decide +kernel⟩, rfl⟩, rfl, rfl⟩,
            ⟨[], _, [], _, 0, [0], rfl, rfl, hi, hl, by decide, rfl, ⟨⟨.length, 7, [0x42#8, 0x02#8, 0x98#8]⟩, by decide +kernel, rfl, by decide +kernel⟩, rfl⟩⟩
        | 1, hg =>
          cases hg
          exact ⟨by decide, [0, 0, 2], [0, 1], rfl,
            ⟨_, _, 0, [0, 0], 2, hbits, ⟨[], _, [], _, 0, [0], rfl, rfl, he, hp, by decide, rfl, ⟨⟨.present, 5, [0xff#8, 0xb0#8]⟩, by decide +kernel, rfl, by decide +kernel⟩, rfl⟩, rfl, rfl⟩,
            ⟨[], _, [], _, 1, [0], rfl, rfl, hi, hl, by decide, by decide +kernel, ⟨⟨.length, 7, [0x42#8, 0x02#8, 0x98#8]⟩, by decide +kernel, rfl, by decide +kernel⟩, rfl⟩⟩
        | g + 2, hg => simp [exListsEntries] at hg
    · refine .value _ _ .direct [some (.u8 1#8), some (.u8 2#8), some (.u8 3#8), some (.u8 4#8), some (.u8 5#8)] _ rfl (.inl ⟨_, none, .byte, _, by simp, by simp, .tinyint,
        plain_laid _ _ (by decide) _ _ _ [.data] _ hfits (by decide +kernel) ?_ (by simp), by unfold Flagged; decide +kernel, ⟨[1#8, 2#8, 3#8, 4#8, 5#8], ?_, ?_, rfl⟩, ?_⟩) rfl
      · intro k; cases k <;> decide +kernel
      · exact hx
      · decide +kernel
      · intro g entry hg
        match g, hg with
        | 0, hg =>
          cases hg
          exact ⟨by decide, [], [0, 0], rfl, rfl,
            ⟨[], _, [], _, 0, [0], rfl, rfl, he, hx, by decide, rfl, ⟨⟨.data, 10, [0xfb#8, 0x01#8, 0x02#8, 0x03#8, 0x04#8, 0x05#8]⟩, by decide +kernel, rfl, by decide +kernel⟩, rfl⟩⟩
        | 1, hg =>
          cases hg
          exact ⟨by decide +kernel, [], [0, 2], rfl, rfl,
            ⟨[], _, [], _, 2, [0], rfl, rfl, he, hx, by decide, by decide +kernel, ⟨⟨.data, 10, [0xfb#8, 0x01#8, 0x02#8, 0x03#8, 0x04#8, 0x05#8]⟩, by decide +kernel, rfl, by decide +kernel⟩, rfl⟩⟩
        | g + 2, hg => simp [exListsEntries] at hg

theorem exLists_stripe : StripeDeep exListsEnv .none (256 * 1024) 2 exLists exListsFile ⟨3, 2, 11, 1, 4⟩ exListsRows exListsFooter
    [⟨.rowIndex, 1, 1⟩, ⟨.rowIndex, 2, 1⟩] exListsData where
  count := rfl
  inFile := by decide +kernel
  footerAt := ⟨[0#8], ⟨by decide, by decide +kernel⟩, rfl⟩
  listed := rfl
  existing := by decide
  indexes := by decide
  indexLength := rfl
  indexAt := by
    intro p hp
    simp only [startsFrom, List.mem_cons, List.not_mem_nil, or_false] at hp
    rcases hp with rfl | rfl
    · exact ⟨by decide +kernel, [0xe1#8], _, ⟨by decide, by decide +kernel⟩, rfl⟩
    · exact ⟨by decide +kernel, [0xe2#8], _, ⟨by decide, by decide +kernel⟩, rfl⟩
  noIndex := by decide +kernel
  dataLength := rfl
  structs := by decide +kernel
  flags := by decide +kernel
  fields := fun c hc => (exLists_groups.fields c hc).stored

/-- The file is as the format wants it. -/
theorem exLists_file : FileDeep exListsEnv 2 exLists exListsFile [(exListsRows, exListsFooter)] tinyScript (tinyFooter exLists [⟨3, 2, 11, 1, 4⟩])
    ([0x4f#8, 0x52#8, 0x43#8] ++ exListsBody) [] [0xf0#8] [0xf1#8] where
  toFileFrame := { tiny_frame exLists [exListsFooter] [⟨3, 2, 11, 1, 4⟩] exListsBody (by simp) (by simp) with }
  stripes := .cons ⟨_, _, exLists_stripe⟩ .nil

theorem exLists_record : exLists.Record := by
  refine .struct _ _ rfl rfl fun c hc => ?_
  simp only [List.mem_singleton] at hc
  subst hc
  exact .field _ (.list _ _ rfl (.value _ rfl) (by unfold Schema.Solid; decide +kernel))

theorem exLists_reach : StripeInfo.Reachable ⟨3, 2, 11, 1, 4⟩ .none (256 * 1024) exLists exListsFile exListsData :=
  fun c hc => .inr ⟨rfl, by revert c; decide +kernel⟩

/-- The second row group, and back: the lists come with the elements that are theirs. -/
example : ∃ types, TypesOf exLists types ∧ wanderStripe exListsEnv 10 ⟨.none, 256 * 1024, 2⟩ exLists ⟨[], 1, false⟩ true exListsFile types ⟨3, 2, 11, 1, 4⟩
      [.batch 1, .seek 2, .batch 1, .batch 1, .seek 1, .skip 2, .batch 1, .seek 0, .batch 1] =
    .ok [[[(1, .list [some (.u8 1#8), some (.u8 2#8)])]], [[(1, .list [some (.u8 3#8)])]], [[(1, .list [some (.u8 4#8), some (.u8 5#8)])]], [[(1, .list [some (.u8 3#8)])]],
      [[(1, .list [some (.u8 1#8), some (.u8 2#8)])]]] := by
  have num : exLists.Numbered := by unfold Schema.Numbered; decide +kernel
  obtain ⟨heap, types, -, -, ht⟩ := types_found (stats := exLists.columns.map fun c => tinyStats c.node.hasNulls) num (by unfold Schema.Named; decide +kernel) (by simp only [List.map_map]; rfl)
  refine ⟨types, ht, ?_⟩
  rw [deep_groups_exact true (ro := ⟨.none, 256 * 1024, 2⟩) exLists_stripe exLists_groups num exLists_record exLists_reach ht ⟨[], 1, false⟩
    (by unfold BatchOption.Chooses; decide +kernel) (by decide) rfl (fun _ => rfl) 10 (by decide) _ ?_]
  · rfl
  · have hdate : ∀ c ∈ exLists.columns, c.node.kind ≠ .date := by decide +kernel
    have hmap : ∀ c ∈ exLists.columns, c.node.kind ≠ .map := by decide +kernel
    refine ⟨by decide, by decide, ⟨by decide, fun _ c hc _ => hdate c hc⟩, by decide, by decide, by decide, by decide, ⟨by decide, fun _ c hc _ => hdate c hc⟩,
      fun c hc _ => hmap c hc, by decide, by decide, by decide, ⟨by decide, fun _ c hc _ => hdate c hc⟩, by decide, by decide, trivial⟩

/-- `Seek(2)` goes to the list `[3]`. -/
example : seekRecords exListsEnv 10 exLists ⟨[], 1, false⟩ true 2 exListsFile = .ok [[(1, .list [some (.u8 3#8)])]] := by
  have hdate : ∀ c ∈ exLists.columns, c.node.kind ≠ .date ∧ c.node.kind ≠ .map := by decide +kernel
  exact (deep_seek_exact true exLists_file (by unfold Schema.Numbered; decide +kernel) (by unfold Schema.Named; decide +kernel) exLists_record (by decide)
    (.cons ⟨_, _, exLists_stripe, exLists_reach⟩ .nil) ⟨[], 1, false⟩ (by unfold BatchOption.Chooses; decide +kernel) (by decide) rfl (fun _ => rfl)
    (fun c hc _ => hdate c hc) 10 (by decide) 2).2.2 exListsRows [] rfl (by decide) (by decide) (by decide) 2 (by decide) (by decide)

/-- **C93, refuted for the row group asked for** The second row group starts with row 2; the reader takes it to be row group 2, and for row group 1 it goes to row 0. -/
theorem deep_group_off_by_one : ∃ types, TypesOf exLists types ∧
    wanderStripe exListsEnv 10 ⟨.none, 256 * 1024, 2⟩ exLists ⟨[], 1, false⟩ true exListsFile types ⟨3, 2, 11, 1, 4⟩ [.seek 1, .batch 1] =
      .ok [[[(1, .list [some (.u8 1#8), some (.u8 2#8)])]]] ∧
    (exListsRows.drop 2).head?.map (DeepRow.shown true (exLists.chosen ⟨[], 1, false⟩)) = some [(1, .list [some (.u8 3#8)])] := by
  have num : exLists.Numbered := by unfold Schema.Numbered; decide +kernel
  have hdate : ∀ c ∈ exLists.columns, c.node.kind ≠ .date := by decide +kernel
  obtain ⟨heap, types, -, -, ht⟩ := types_found (stats := exLists.columns.map fun c => tinyStats c.node.hasNulls) num (by unfold Schema.Named; decide +kernel) (by simp only [List.map_map]; rfl)
  refine ⟨types, ht, ?_, rfl⟩
  rw [deep_groups_exact true (ro := ⟨.none, 256 * 1024, 2⟩) exLists_stripe exLists_groups num exLists_record exLists_reach ht ⟨[], 1, false⟩
    (by unfold BatchOption.Chooses; decide +kernel) (by decide) rfl (fun _ => rfl) 10 (by decide) [.seek 1, .batch 1] ⟨⟨by decide, fun _ c hc _ => hdate c hc⟩, by decide, by decide, trivial⟩]
  rfl

/-! ### Seeking in maps -/

/-- A table with a map. -/
def exMaps : Schema :=
  .mk ⟨0, .struct, .direct, false, ["m"]⟩ [.mk ⟨1, .map, .directV2, false, []⟩ [.mk ⟨2, .byte, .direct, false, []⟩ [], .mk ⟨3, .byte, .direct, false, []⟩ []]]

/-- Its only stripe. -/
def exMapsFooter : StripeFooter := ⟨[⟨.length, 1, 3⟩, ⟨.data, 2, 7⟩, ⟨.data, 3, 7⟩], [.direct, .directV2, .direct, .direct]⟩

/-- The stripe: maps with two, one and three entries. -/
def exMapsBody : Bytes :=
  [0x42#8, 0x02#8, 0x9c#8, 0xfa#8, 0x01#8, 0x02#8, 0x03#8, 0x04#8, 0x05#8, 0x06#8, 0xfa#8, 0x11#8, 0x12#8, 0x13#8, 0x14#8, 0x15#8, 0x16#8, 0x00#8]

/-- The file. -/
def exMapsFile : Bytes := tinyFile exMapsBody

/-- The environment of the file. -/
def exMapsEnv : Env := tinyEnv [exMapsFooter] (tinyFooter exMaps [⟨3, 0, 17, 1, 3⟩]) tinyScript

/-- Its rows. -/
def exMapsRows : List DeepRow :=
  [[(1, .map [(.value (.u8 1#8), .value (.u8 0x11#8)), (.value (.u8 2#8), .value (.u8 0x12#8))])], [(1, .map [(.value (.u8 3#8), .value (.u8 0x13#8))])],
    [(1, .map [(.value (.u8 4#8), .value (.u8 0x14#8)), (.value (.u8 5#8), .value (.u8 0x15#8)), (.value (.u8 6#8), .value (.u8 0x16#8))])]]

theorem exMaps_stripe : StripeDeep exMapsEnv .none (256 * 1024) 2 exMaps exMapsFile ⟨3, 0, 17, 1, 3⟩ exMapsRows exMapsFooter [] exMapsFooter.streams where
  count := rfl
  inFile := by decide +kernel
  footerAt := ⟨[0#8], ⟨by decide, by decide +kernel⟩, rfl⟩
  listed := rfl
  existing := by decide
  indexes := by simp
  indexLength := rfl
  indexAt := by simp [startsFrom]
  noIndex := by decide +kernel
  dataLength := rfl
  structs := by decide +kernel
  flags := by decide +kernel
  fields := by
    have hfits : ∀ p ∈ startsFrom (3 + 0) exMapsFooter.streams, p.2 + p.1.length ≤ exMapsFile.length := by decide +kernel
    intro c hc
    simp only [exMaps, Schema.fields, fieldsAll, if_true, reduceCtorEq, if_false, List.append_nil, List.mem_cons, List.not_mem_nil, or_false] at hc
    subst hc
    refine .map _ _ _ [some [(.value (.u8 1#8), .value (.u8 0x11#8)), (.value (.u8 2#8), .value (.u8 0x12#8))], some [(.value (.u8 3#8), .value (.u8 0x13#8))],
      some [(.value (.u8 4#8), .value (.u8 0x14#8)), (.value (.u8 5#8), .value (.u8 0x15#8)), (.value (.u8 6#8), .value (.u8 0x16#8))]] _ rfl ?_ ?_ ?_ rfl
    · refine ⟨_, none, [.direct 1 [2, 1, 3]], by simp, plain_laid _ _ (by decide) _ _ _ [.length] _ hfits (by decide +kernel) ?_ (by simp),
          by decide +kernel, by decide +kernel, ⟨by simp [RleBlock.WF]; decide +kernel, by decide +kernel⟩, by simp [RleBlock.Handled], by decide +kernel⟩
      intro k; cases k <;> decide +kernel
    · refine .value _ .direct [some (.u8 1#8), some (.u8 2#8), some (.u8 3#8), some (.u8 4#8), some (.u8 5#8), some (.u8 6#8)] _ rfl (.inl ⟨_, none, by simp, .inr ⟨.byte, .tinyint,
        plain_laid _ _ (by decide) _ _ _ [.data] _ hfits (by decide +kernel) ?_ (by simp), by unfold Flagged; decide +kernel, ?_⟩⟩) rfl
      · intro k; cases k <;> decide +kernel
      · exact ⟨[1#8, 2#8, 3#8, 4#8, 5#8, 6#8], ⟨[.literal [1#8, 2#8, 3#8, 4#8, 5#8, 6#8]], by simp [ByteRun.WF], by decide +kernel, rfl⟩, by decide +kernel⟩
    · refine .value _ .direct [some (.u8 0x11#8), some (.u8 0x12#8), some (.u8 0x13#8), some (.u8 0x14#8), some (.u8 0x15#8), some (.u8 0x16#8)] _ rfl (.inl ⟨_, none, by simp, .inr ⟨.byte, .tinyint,
        plain_laid _ _ (by decide) _ _ _ [.data] _ hfits (by decide +kernel) ?_ (by simp), by unfold Flagged; decide +kernel, ?_⟩⟩) rfl
      · intro k; cases k <;> decide +kernel
      · exact ⟨[0x11#8, 0x12#8, 0x13#8, 0x14#8, 0x15#8, 0x16#8], ⟨[.literal [0x11#8, 0x12#8, 0x13#8, 0x14#8, 0x15#8, 0x16#8]], by simp [ByteRun.WF], by decide +kernel, rfl⟩, by decide +kernel⟩

/-- **C93, refuted for maps** A file as the format wants it with the maps `{1: 17, 2: 18}`, `{3: 19}` and `{4: 20, 5: 21, 6: 22}`: after `Seek(1)` the client finds
`{5: 21}`, which is no row of the table. -/
theorem map_seek_wrong :
    FileDeep exMapsEnv 2 exMaps exMapsFile [(exMapsRows, exMapsFooter)] tinyScript (tinyFooter exMaps [⟨3, 0, 17, 1, 3⟩]) ([0x4f#8, 0x52#8, 0x43#8] ++ exMapsBody) [] [0xf0#8] [0xf1#8] ∧
    seekRecords exMapsEnv 10 exMaps ⟨[], 1, false⟩ true 0 exMapsFile = .ok [[(1, .map [(some (.u8 1#8), some (.u8 0x11#8)), (some (.u8 2#8), some (.u8 0x12#8))])]] ∧
    seekRecords exMapsEnv 10 exMaps ⟨[], 1, false⟩ true 1 exMapsFile = .ok [[(1, .map [(some (.u8 5#8), some (.u8 0x15#8))])]] :=
  ⟨{ tiny_frame exMaps _ [⟨3, 0, 17, 1, 3⟩] _ (by simp) (by simp) with stripes := .cons ⟨_, _, exMaps_stripe⟩ .nil }, by decide +kernel, by decide +kernel⟩

end Goorc
