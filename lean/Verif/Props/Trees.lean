import Verif.Proofs.Trees
import Verif.Props.ForeignFile
/-
C91: tables with lists and maps to any depth, in structs, and with dictionaries.
-/
namespace Goorc

variable {E : Env} {most : Nat} {s : Schema} {file : Bytes} {parts : List (List DeepRow × StripeFooter)} {ps : PostScript} {ft : FileFooter} {content metadata fb pb : Bytes}

/-- What is seen of a table: `full` is the view of a client that looks at the elements. -/
theorem record_table_reads (full : Bool) (init : List (List DeepRow)) (last : List DeepRow)
    (h : FileDeep E most s file parts ps ft content metadata fb pb) (hparts : parts.map (·.1) = init ++ [last])
    (num : s.Numbered) (named : s.Named) (hs : s.Record) (hlen : fb.length + pb.length + 1 ≤ 16384)
    (bo : BatchOption) (hsel : bo.Chooses s) (hrow : bo.rowSize ≠ 0) (hmake : bo.notCreateVector = false) (hfull : full = true → bo.rowSize = 1)
    (fuel : Nat) (hfuel : most ≤ fuel) :
    (∀ k, ∃ rows stop, readRecords E fuel s bo full k file = .ok (rows, stop)) ∧
    ((∃ k rows, readRecords E fuel s bo full k file = .ok (rows, true)) ↔ lostRows bo.rowSize init ≤ 1) ∧
    ∀ k rows, readRecords E fuel s bo full k file = .ok (rows, true) → rows = (delivered bo.rowSize init last).map (DeepRow.shown full (s.chosen bo)) := by
  obtain ⟨types, e1, e2, k4⟩ := fileFrame_created h.toFileFrame num named hlen
  obtain ⟨rs, e4, m2⟩ := k4 bo hrow (StripeReader.Fresh (types.map (·.hasNulls)) (RecLeft E.c fuel bo s full types.length))
    (parts.map fun p => p.1.map (DeepRow.shown full (s.chosen bo))) (by
      have hall := h.stripes
      rw [List.forall₂_iff_get] at hall ⊢
      refine ⟨by rw [List.length_map, hall.1], fun k hk hk' => ?_⟩
      rw [List.length_map] at hk'
      obtain ⟨index, data, a⟩ := hall.2 k hk hk'
      simp only [List.get_eq_getElem] at a ⊢
      obtain ⟨x, b1, b2⟩ := stripeDeep_opens (ro := ⟨ps.compression, ps.chunkSize, ft.rowIndexStride⟩) a num hs hsel e2 hfuel
      refine ⟨?_, _, b1, rfl, rfl, by simp, x, rfl, _, by rw [List.getElem_map], b2⟩
      rw [a.count]
      exact h.filled _ (List.mem_map_of_mem (List.getElem_mem hk')))
  have hcount : (parts.map (·.1.length)).sum = (parts.map fun p => p.1.map (DeepRow.shown full (s.chosen bo))).flatten.length := by
    simp only [List.length_flatten, List.map_map, Function.comp_def, List.length_map]
  have hmap : (parts.map fun p => p.1.map (DeepRow.shown full (s.chosen bo))) =
      (init.map fun rows => rows.map (DeepRow.shown full (s.chosen bo))) ++ [last.map (DeepRow.shown full (s.chosen bo))] := by
    have := congrArg (List.map fun rows : List DeepRow => rows.map (DeepRow.shown full (s.chosen bo))) hparts
    simpa [List.map_map, Function.comp_def] using this
  have e5 : BatchReader.Fresh (types.map (·.hasNulls)) (RecLeft E.c fuel bo s full types.length) ⟨ft.rowIndexStride, 0, rs, (parts.map (·.1.length)).sum, 0⟩
      (parts.map fun p => p.1.map (DeepRow.shown full (s.chosen bo))) := ⟨rfl, rfl, hcount, m2⟩
  rw [hmap] at e5
  obtain ⟨v, e6, -, e7⟩ := rec_vector hsel hmake hrow types.length s hs (self_mem_columns s) hsel.1 (Nat.le_of_eq e2.1.symm)
  have hroot : s.StructsSolid (types.map (·.hasNulls)) := by
    intro c hc hk
    rw [e2.hasNulls c hc]
    rcases record_columns_kinds hs c hc with hk' | ⟨h1, h2⟩
    · exact absurd hk hk'
    · rw [h2]
  have D := rec_delivers E.c fuel bo s hs (chooses_closed hsel) hsel.1 types.length (types.map (·.hasNulls)) hroot bo.rowSize full hfull
  have hread : ∀ k, readRecords E fuel s bo full k file = (readBatches (rdOps E.c fuel types.length) (fuel + 1) k
      ⟨ft.rowIndexStride, 0, rs, (parts.map (·.1.length)).sum, 0⟩ v >>= fun x => pure (x.1.flatMap (Vec.fieldRows full), x.2)) := by
    intro k
    simp only [readRecords, e1, e4, createVector, hrow, if_false, record_verify hs, e6, Res.ok_bind]
  have hB : 1 ≤ bo.rowSize := Nat.one_le_iff_ne_zero.2 hrow
  have hne' : ∀ l ∈ (init.map fun rows => rows.map (DeepRow.shown full (s.chosen bo))) ++ [last.map (DeepRow.shown full (s.chosen bo))], l ≠ [] := by
    rw [← hmap]
    intro l hl
    obtain ⟨p, hp, rfl⟩ := List.mem_map.1 hl
    have := h.filled _ (List.mem_map_of_mem hp)
    intro hz
    exact this (by simpa using congrArg List.length hz)
  obtain ⟨f1, f2⟩ := batch_loop_ends_iff D hB fuel _ _ _ e5 hne' v ⟨_, e7⟩
  have hlost : ∀ l : List (List DeepRow), lostRows bo.rowSize (l.map fun rows => rows.map (DeepRow.shown full (s.chosen bo))) = lostRows bo.rowSize l := by
    intro l
    simp only [lostRows, List.filter_map, List.length_map, Function.comp_def]
  refine ⟨fun k => ?_, ?_, fun k rows hk => ?_⟩
  · obtain ⟨bs, stop, g⟩ := f1 k
    exact ⟨_, stop, by rw [hread, g]; rfl⟩
  · rw [← hlost, ← f2]
    constructor
    · rintro ⟨k, rows, hk⟩
      rw [hread] at hk
      obtain ⟨⟨bs, stop⟩, g, hk⟩ := Res.bind_ok_inv hk
      obtain ⟨-, rfl⟩ := Prod.mk.inj (Res.ok.inj hk)
      exact ⟨k, bs, g⟩
    · rintro ⟨k, bs, g⟩
      exact ⟨k, _, by rw [hread, g]; rfl⟩
  · rw [hread] at hk
    obtain ⟨⟨bs, stop⟩, g, hk⟩ := Res.bind_ok_inv hk
    obtain ⟨rfl, rfl⟩ := Prod.mk.inj (Res.ok.inj hk)
    rw [batch_loop_delivers D hB fuel _ _ _ e5 hne' v ⟨_, e7⟩ k bs g]
    simp only [delivered, hlost, List.length_map]
    have hkept : ∀ l : List (List DeepRow), (l.map fun rows => rows.map (DeepRow.shown full (s.chosen bo))).flatMap (kept bo.rowSize) =
        (l.flatMap (kept bo.rowSize)).map (DeepRow.shown full (s.chosen bo)) := by
      intro l
      rw [List.flatMap_map, List.map_flatMap]
      congr 1
      funext rows
      simp only [kept, List.length_map]
      split <;> simp
    split
    · rw [List.map_append, List.map_flatten]
      congr 1
      split <;> simp
    · rw [hkept, List.map_append]

/-- **C91** (partial: no structs in lists or maps, no structs with nulls; where lists or maps may be null what is in them may not; the restrictions of C85)
A client that reads a table with lists of lists, maps of lists and so on to any depth, in structs of structs, and with string columns that have a dictionary, in
batches of any size, and looks at the rows of the columns only: no call fails, the loop ends exactly if at most one stripe before the last loses its last row,
and what the client has then are the rows of the table, restricted to the columns that were chosen, but for the lost rows; in place of a list or a map it finds
the number of its elements. `fuel` is a bound of the loop that loads dictionaries. -/
theorem records_counted_partial (init : List (List DeepRow)) (last : List DeepRow)
    (h : FileDeep E most s file parts ps ft content metadata fb pb) (hparts : parts.map (·.1) = init ++ [last])
    (num : s.Numbered) (named : s.Named) (hs : s.Record) (hlen : fb.length + pb.length + 1 ≤ 16384)
    (bo : BatchOption) (hsel : bo.Chooses s) (hrow : bo.rowSize ≠ 0) (hmake : bo.notCreateVector = false) (fuel : Nat) (hfuel : most ≤ fuel) :
    (∀ k, ∃ rows stop, readRecords E fuel s bo false k file = .ok (rows, stop)) ∧
    ((∃ k rows, readRecords E fuel s bo false k file = .ok (rows, true)) ↔ lostRows bo.rowSize init ≤ 1) ∧
    ∀ k rows, readRecords E fuel s bo false k file = .ok (rows, true) → rows = (delivered bo.rowSize init last).map (DeepRow.shown false (s.chosen bo)) :=
  record_table_reads false init last h hparts num named hs hlen bo hsel hrow hmake (by simp) fuel hfuel

/-- **C91** (partial, likewise) A client that reads such a table row by row finds the elements of the lists and maps, too; of elements that are lists or maps
themselves it finds the numbers of their elements. -/
theorem records_complete_partial (init : List (List DeepRow)) (last : List DeepRow)
    (h : FileDeep E most s file parts ps ft content metadata fb pb) (hparts : parts.map (·.1) = init ++ [last])
    (num : s.Numbered) (named : s.Named) (hs : s.Record) (hlen : fb.length + pb.length + 1 ≤ 16384)
    (bo : BatchOption) (hsel : bo.Chooses s) (hrow : bo.rowSize = 1) (hmake : bo.notCreateVector = false) (fuel : Nat) (hfuel : most ≤ fuel) :
    (∀ k, ∃ rows stop, readRecords E fuel s bo true k file = .ok (rows, stop)) ∧
    ((∃ k rows, readRecords E fuel s bo true k file = .ok (rows, true)) ↔ lostRows 1 init ≤ 1) ∧
    ∀ k rows, readRecords E fuel s bo true k file = .ok (rows, true) → rows = (delivered 1 init last).map (DeepRow.shown true (s.chosen bo)) := by
  have := record_table_reads true init last h hparts num named hs hlen bo hsel (by omega) hmake (fun _ => hrow) fuel hfuel
  rw [hrow] at this
  exact this

/-! ### A small file -/

/-- A table with lists of lists of numbers, in a struct, and strings with a dictionary, which may be null. -/
def exTree : Schema :=
  .mk ⟨0, .struct, .direct, false, ["a", "d"]⟩
    [.mk ⟨1, .struct, .direct, false, ["l"]⟩ [.mk ⟨2, .list, .directV2, false, []⟩ [.mk ⟨3, .list, .directV2, false, []⟩ [.mk ⟨4, .byte, .direct, false, []⟩ []]]],
     .mk ⟨5, .string, .dictionaryV2, true, []⟩ []]

/-- Its only stripe. -/
def exTreeFooter : StripeFooter :=
  ⟨[⟨.length, 2, 3⟩, ⟨.length, 3, 3⟩, ⟨.data, 4, 4⟩, ⟨.present, 5, 2⟩, ⟨.data, 5, 3⟩, ⟨.dictionaryData, 5, 3⟩, ⟨.length, 5, 3⟩],
    [.direct, .direct, .directV2, .directV2, .direct, .dictionaryV2]⟩

/-- The stripe. -/
def exTreeBody : Bytes :=
  [0x42#8, 0x02#8, 0x84#8, 0x42#8, 0x02#8, 0x90#8, 0xfd#8, 0x01#8, 0x02#8, 0x03#8, 0xff#8, 0xa0#8, 0x42#8, 0x01#8, 0x10#8, 0x61#8, 0x62#8, 0x63#8,
    0x42#8, 0x01#8, 0x90#8, 0x00#8]

/-- The file. -/
def exTreeFile : Bytes := tinyFile exTreeBody

/-- The environment of the file. -/
def exTreeEnv : Env := tinyEnv [exTreeFooter] (tinyFooter exTree [⟨3, 0, 21, 1, 3⟩]) tinyScript

/-- Its rows. -/
def exTreeRows : List DeepRow :=
  [[(2, .list [.list [.value (.u8 1#8), .value (.u8 2#8)], .list [.value (.u8 3#8)]]), (5, .value (.str [0x61#8, 0x62#8]))],
    [(2, .list []), (5, .null)],
    [(2, .list [.list []]), (5, .value (.str [0x63#8]))]]

theorem exTree_stripe : StripeDeep exTreeEnv .none (256 * 1024) 2 exTree exTreeFile ⟨3, 0, 21, 1, 3⟩ exTreeRows exTreeFooter [] exTreeFooter.streams where
  count := rfl
  inFile := by decide +kernel
  footerAt := ⟨[0#8], ⟨by decide, by decide +kernel⟩, rfl⟩
  listed := rfl
  existing := by decide
  indexes := by simp
  indexLength := rfl
  indexAt := by simp [startsFrom]
  noIndex := by decide +kernel
  dataLength := rfl
  structs := by decide +kernel
  flags := by decide +kernel
  fields := by
    have hfits : ∀ p ∈ startsFrom (3 + 0) exTreeFooter.streams, p.2 + p.1.length ≤ exTreeFile.length := by decide +kernel
    intro c hc
    simp only [exTree, Schema.fields, fieldsAll, if_true, reduceCtorEq, if_false, List.append_nil, List.cons_append, List.nil_append, List.mem_cons, List.not_mem_nil, or_false] at hc
    rcases hc with rfl | rfl
    · refine .list _ _ [some [.list [.value (.u8 1#8), .value (.u8 2#8)], .list [.value (.u8 3#8)]], some [], some [.list []]] _ rfl ?_ ?_ rfl
      · refine ⟨_, none, [.direct 1 [2, 0, 1]], by simp, plain_laid _ _ (by decide) _ _ _ [.length] _ hfits (by decide +kernel) ?_ (by simp),
          by decide +kernel, by decide +kernel, ⟨by simp [RleBlock.WF]; decide +kernel, by decide +kernel⟩, by simp [RleBlock.Handled], by decide +kernel⟩
        intro k; cases k <;> decide +kernel
      · refine .list _ _ [some [.value (.u8 1#8), .value (.u8 2#8)], some [.value (.u8 3#8)], some []] _ rfl ?_ ?_ rfl
        · refine ⟨_, none, [.direct 1 [2, 1, 0]], by simp, plain_laid _ _ (by decide) _ _ _ [.length] _ hfits (by decide +kernel) ?_ (by simp),
            by decide +kernel, by decide +kernel, ⟨by simp [RleBlock.WF]; decide +kernel, by decide +kernel⟩, by simp [RleBlock.Handled], by decide +kernel⟩
          intro k; cases k <;> decide +kernel
        · refine .value _ .direct [some (.u8 1#8), some (.u8 2#8), some (.u8 3#8)] _ rfl (.inl ⟨_, none, by simp, .inr ⟨.byte, .tinyint,
            plain_laid _ _ (by decide) _ _ _ [.data] _ hfits (by decide +kernel) ?_ (by simp), by unfold Flagged; decide +kernel, ?_⟩⟩) rfl
          · intro k; cases k <;> decide +kernel
          · exact ⟨[1#8, 2#8, 3#8], ⟨[.literal [1#8, 2#8, 3#8]], by simp [ByteRun.WF], by decide +kernel, rfl⟩, by decide +kernel⟩
    · refine .value _ .dictionaryV2 [some (.str [0x61#8, 0x62#8]), none, some (.str [0x63#8])] _ rfl (.inr ⟨rfl, rfl, _, some [true, false, true], [[0x61#8, 0x62#8], [0x63#8]], [0, 1], by simp,
        ⟨plain_laid _ _ (by decide) _ _ _ [.data, .dictionaryData, .length] _ hfits (by decide +kernel) ?_ ?_, by decide +kernel, by decide +kernel, ?_, ?_⟩, by decide, by decide,
        by unfold Flagged; decide +kernel, by decide +kernel⟩) rfl
      · intro k; cases k <;> decide +kernel
      · intro bs hb; cases hb
        exact ⟨[0xa0#8], [false, false, false, false, false], ⟨[.literal [0xa0#8]], by simp [ByteRun.WF], by decide +kernel, rfl⟩, by decide +kernel⟩
      · exact ⟨[.direct 1 [2, 1]], ⟨by simp [RleBlock.WF]; decide +kernel, by decide +kernel⟩, by simp [RleBlock.Handled], by decide +kernel⟩
      · exact ⟨[.direct 1 [0, 1]], ⟨by simp [RleBlock.WF]; decide +kernel, by decide +kernel⟩, by simp [RleBlock.Handled], by decide +kernel⟩

/-- The file is as the format wants it. -/
theorem exTree_file : FileDeep exTreeEnv 2 exTree exTreeFile [(exTreeRows, exTreeFooter)] tinyScript (tinyFooter exTree [⟨3, 0, 21, 1, 3⟩])
    ([0x4f#8, 0x52#8, 0x43#8] ++ exTreeBody) [] [0xf0#8] [0xf1#8] where
  toFileFrame := tiny_frame exTree _ [⟨3, 0, 21, 1, 3⟩] _ (by simp) (by simp)
  stripes := .cons ⟨_, _, exTree_stripe⟩ .nil

theorem exTree_record : exTree.Record := by
  refine .struct _ _ rfl rfl fun c hc => ?_
  simp only [List.mem_cons, List.not_mem_nil, or_false] at hc
  rcases hc with rfl | rfl
  · refine .struct _ _ rfl rfl fun c hc => ?_
    simp only [List.mem_singleton] at hc
    subst hc
    exact .field _ (.list _ _ rfl (.list _ _ rfl (.value _ rfl) (by simp)) (by simp))
  · exact .field _ (.value _ rfl)

/-- Row by row, the lists of the file are read with their elements; the last row of the file is lost. -/
example : ∃ k, readRecords exTreeEnv 10 exTree ⟨[], 1, false⟩ true k exTreeFile =
    .ok ([[(2, .list [some (.u64 2#64), some (.u64 1#64)]), (5, .value (.str [0x61#8, 0x62#8]))], [(2, .list []), (5, .null)]], true) := by
  obtain ⟨_, h2, h3⟩ := records_complete_partial [] exTreeRows exTree_file rfl (by unfold Schema.Numbered; decide +kernel)
    (by unfold Schema.Named; decide +kernel) exTree_record (by decide) ⟨[], 1, false⟩ (by unfold BatchOption.Chooses; decide +kernel) rfl rfl 10 (by decide)
  obtain ⟨k, rows, e⟩ := h2.mpr (by decide +kernel)
  exact ⟨k, by rw [e, h3 k rows e]; rfl⟩

/-- With larger batches nothing is lost of the numbers of elements; and a choice of columns. -/
example : ∃ k, readRecords exTreeEnv 10 exTree ⟨[0, 1, 2, 3, 4], 10, false⟩ false k exTreeFile =
    .ok ([[(2, .value (.u64 2#64))], [(2, .value (.u64 0#64))], [(2, .value (.u64 1#64))]], true) := by
  obtain ⟨_, h2, h3⟩ := records_counted_partial [] exTreeRows exTree_file rfl (by unfold Schema.Numbered; decide +kernel)
    (by unfold Schema.Named; decide +kernel) exTree_record (by decide) ⟨[0, 1, 2, 3, 4], 10, false⟩ (by unfold BatchOption.Chooses; decide +kernel) (by decide) rfl 10 (by decide)
  obtain ⟨k, rows, e⟩ := h2.mpr (by decide +kernel)
  exact ⟨k, by rw [e, h3 k rows e]; rfl⟩

/-! ### Structs in lists -/

/-- A table with lists of structs. -/
def exPairs : Schema :=
  .mk ⟨0, .struct, .direct, false, ["l"]⟩
    [.mk ⟨1, .list, .directV2, false, []⟩ [.mk ⟨2, .struct, .direct, false, ["b"]⟩ [.mk ⟨3, .byte, .direct, false, []⟩ []]]]

/-- Its only stripe. -/
def exPairsFooter : StripeFooter := ⟨[⟨.length, 1, 3⟩, ⟨.data, 3, 4⟩], [.direct, .directV2, .direct, .direct]⟩

/-- A file with three rows: a list of two structs, with the numbers 1 and 2, a list of one, with the number 3, and an empty list. -/
def exPairsFile : Bytes := tinyFile [0x42#8, 0x02#8, 0x90#8, 0xfd#8, 0x01#8, 0x02#8, 0x03#8, 0x00#8]

/-- The environment of the file. -/
def exPairsEnv : Env := tinyEnv [exPairsFooter] (tinyFooter exPairs [⟨3, 0, 7, 1, 3⟩]) tinyScript

/-- The rows of the vector of a column of a table. -/
def Vec.rowsAt : List Nat → Vec → List Value
  | [], v => v.rows
  | i :: is, .mk _ _ _ cs => (cs[i]?.map (rowsAt is)).getD []
  | _ :: _, .nil => []

/-- A client that looks at the vectors `path` leads to, after every batch. -/
def readVectors (E : Env) (fuel : Nat) (s : Schema) (bo : BatchOption) (path : List Nat) (k : Nat) (file : Bytes) : Res (List (List (Option GoVal)) × Bool) := do
  let r ← newReader E file
  let br ← r.createBatchReader E bo
  let v ← createVector s bo
  let (bs, stop) ← readBatches (rdOps E.c fuel r.schemas.length) (fuel + 1) k br v
  pure (bs.map fun b => (b.rowsAt path).map Value.row, stop)

/-- **C91, refuted for lists of structs** Reading row by row, the client finds two and then one element in the lists and two and then one struct, but what is in
the structs it never finds: the vector of the numbers is empty all the time. -/
theorem structs_in_lists_lost :
    readVectors exPairsEnv 10 exPairs ⟨[], 1, false⟩ [0] 5 exPairsFile = .ok ([[some (.u64 2#64)], [some (.u64 1#64)]], true) ∧
    readVectors exPairsEnv 10 exPairs ⟨[], 1, false⟩ [0, 0] 5 exPairsFile = .ok ([[some .nil, some .nil], [some .nil]], true) ∧
    readVectors exPairsEnv 10 exPairs ⟨[], 1, false⟩ [0, 0, 0] 5 exPairsFile = .ok ([[], []], true) ∧
    readVectors exPairsEnv 10 exPairs ⟨[], 10, false⟩ [0, 0, 0] 5 exPairsFile = .ok ([[]], true) :=
  ⟨by decide +kernel, by decide +kernel, by decide +kernel, by decide +kernel⟩

/-- The numbers are in the file: read as a list of numbers, the same stripe has them. -/
example :
    let s : Schema := .mk ⟨0, .struct, .direct, false, ["l"]⟩ [.mk ⟨1, .list, .directV2, false, []⟩ [.mk ⟨2, .byte, .direct, false, []⟩ []]]
    readVectors (tinyEnv [⟨[⟨.length, 1, 3⟩, ⟨.data, 2, 4⟩], [.direct, .directV2, .direct]⟩] (tinyFooter s [⟨3, 0, 7, 1, 3⟩]) tinyScript) 10 s ⟨[], 1, false⟩ [0, 0] 5 exPairsFile =
      .ok ([[some (.u8 1#8), some (.u8 2#8)], [some (.u8 3#8)]], true) := by
  decide +kernel

/-- A list column of numbers. -/
def exTwice : Schema := .mk ⟨0, .struct, .direct, false, ["l"]⟩ [.mk ⟨1, .list, .directV2, false, []⟩ [.mk ⟨2, .byte, .direct, false, []⟩ []]]

/-- **C91, streams listed twice** If the footer of a stripe lists a stream of a column twice, the later one counts, for the lengths of lists (2, 1, 0 and 0, 1, 2) as for values
(1, 2, 3 and 4, 5, 6). -/
theorem later_stream_counts :
    (readRecords (tinyEnv [⟨[⟨.length, 1, 3⟩, ⟨.length, 1, 3⟩, ⟨.data, 2, 4⟩, ⟨.data, 2, 4⟩], [.direct, .directV2, .direct]⟩] (tinyFooter exTwice [⟨3, 0, 14, 1, 3⟩]) tinyScript) 10 exTwice
      ⟨[], 1, false⟩ true 5 (tinyFile [0x42#8, 0x02#8, 0x90#8, 0x42#8, 0x02#8, 0x18#8, 0xfd#8, 0x01#8, 0x02#8, 0x03#8, 0xfd#8, 0x04#8, 0x05#8, 0x06#8, 0x00#8]) =
    .ok ([[(1, .list [])], [(1, .list [some (.u8 4#8)])]], true)) := by
  decide +kernel
end Goorc
