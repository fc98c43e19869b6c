import Verif.Proofs.Collections
import Verif.Props.ForeignFile
/-
C90: tables with list and map columns.
-/
namespace Goorc

variable {E : Env} {s : Schema} {file : Bytes} {parts : List (List ItemRow × StripeFooter)} {ps : PostScript} {ft : FileFooter} {content metadata fb pb : Bytes}

/-- What is seen of a table: `full` is the view of a client that looks at the elements. -/
theorem collection_table_reads (full : Bool) (init : List (List ItemRow)) (last : List ItemRow)
    (h : FileItems E s file parts ps ft content metadata fb pb) (hparts : parts.map (·.1) = init ++ [last])
    (num : s.Numbered) (named : s.Named) (hs : s.Flat) (hlen : fb.length + pb.length + 1 ≤ 16384)
    (bo : BatchOption) (hsel : bo.Picks s) (hrow : bo.rowSize ≠ 0) (hmake : bo.notCreateVector = false) (hfull : full = true → bo.rowSize = 1) (fuel : Nat) :
    (∀ k, ∃ rows stop, readItems E fuel s bo full k file = .ok (rows, stop)) ∧
    ((∃ k rows, readItems E fuel s bo full k file = .ok (rows, true)) ↔ lostRows bo.rowSize init ≤ 1) ∧
    ∀ k rows, readItems E fuel s bo full k file = .ok (rows, true) → rows = (delivered bo.rowSize init last).map (ItemRow.shown full (s.picked bo)) := by
  obtain ⟨types, e1, e2, k4⟩ := fileFrame_created h.toFileFrame num named hlen
  obtain ⟨rs, e4, m2⟩ := k4 bo hrow (StripeReader.Fresh (types.map (·.hasNulls)) (TableLeft E.c fuel bo s full types.length))
    (parts.map fun p => p.1.map (ItemRow.shown full (s.picked bo))) (by
      have hall := h.stripes
      rw [List.forall₂_iff_get] at hall ⊢
      refine ⟨by rw [List.length_map, hall.1], fun k hk hk' => ?_⟩
      rw [List.length_map] at hk'
      obtain ⟨index, data, a⟩ := hall.2 k hk hk'
      simp only [List.get_eq_getElem] at a ⊢
      obtain ⟨x, b1, b2⟩ := stripeItems_opens (ro := ⟨ps.compression, ps.chunkSize, ft.rowIndexStride⟩) a num hs hsel e2 fuel
      refine ⟨?_, _, b1, rfl, rfl, by simp, x, rfl, _, by rw [List.getElem_map], b2⟩
      rw [a.count]
      exact h.filled _ (List.mem_map_of_mem (List.getElem_mem hk')))
  have hcount : (parts.map (·.1.length)).sum = (parts.map fun p => p.1.map (ItemRow.shown full (s.picked bo))).flatten.length := by
    simp only [List.length_flatten, List.map_map, Function.comp_def, List.length_map]
  have hmap : (parts.map fun p => p.1.map (ItemRow.shown full (s.picked bo))) =
      (init.map fun rows => rows.map (ItemRow.shown full (s.picked bo))) ++ [last.map (ItemRow.shown full (s.picked bo))] := by
    have := congrArg (List.map fun rows : List ItemRow => rows.map (ItemRow.shown full (s.picked bo))) hparts
    simpa [List.map_map, Function.comp_def] using this
  have e5 : BatchReader.Fresh (types.map (·.hasNulls)) (TableLeft E.c fuel bo s full types.length) ⟨ft.rowIndexStride, 0, rs, (parts.map (·.1.length)).sum, 0⟩
      (parts.map fun p => p.1.map (ItemRow.shown full (s.picked bo))) := ⟨rfl, rfl, hcount, m2⟩
  rw [hmap] at e5
  obtain ⟨v, e6, e7⟩ := table_vector hs hsel hrow hmake
  have hroot : (types.map (·.hasNulls))[s.node.id]? = some false := by
    rw [e2.hasNulls s (self_mem_columns s), hs.2.1]
  have D := table_delivers E.c fuel bo s hs types.length (types.map (·.hasNulls)) hroot bo.rowSize full hfull
  have hread : ∀ k, readItems E fuel s bo full k file = (readBatches (rdOps E.c fuel types.length) (fuel + 1) k
      ⟨ft.rowIndexStride, 0, rs, (parts.map (·.1.length)).sum, 0⟩ v >>= fun x => pure (x.1.flatMap (Vec.itemRows full), x.2)) := by
    intro k
    simp only [readItems, e1, e4, e6, Res.ok_bind]
  have hB : 1 ≤ bo.rowSize := Nat.one_le_iff_ne_zero.2 hrow
  have hne' : ∀ l ∈ (init.map fun rows => rows.map (ItemRow.shown full (s.picked bo))) ++ [last.map (ItemRow.shown full (s.picked bo))], l ≠ [] := by
    rw [← hmap]
    intro l hl
    obtain ⟨p, hp, rfl⟩ := List.mem_map.1 hl
    have := h.filled _ (List.mem_map_of_mem hp)
    intro hz
    exact this (by simpa using congrArg List.length hz)
  obtain ⟨f1, f2⟩ := batch_loop_ends_iff D hB fuel _ _ _ e5 hne' v ⟨_, e7⟩
  have hlost : ∀ l : List (List ItemRow), lostRows bo.rowSize (l.map fun rows => rows.map (ItemRow.shown full (s.picked bo))) = lostRows bo.rowSize l := by
    intro l
    simp only [lostRows, List.filter_map, List.length_map, Function.comp_def]
  refine ⟨fun k => ?_, ?_, fun k rows hk => ?_⟩
  · obtain ⟨bs, stop, g⟩ := f1 k
    exact ⟨_, stop, by rw [hread, g]; rfl⟩
  · rw [← hlost, ← f2]
    constructor
    · rintro ⟨k, rows, hk⟩
      rw [hread] at hk
      obtain ⟨⟨bs, stop⟩, g, hk⟩ := Res.bind_ok_inv hk
      obtain ⟨-, rfl⟩ := Prod.mk.inj (Res.ok.inj hk)
      exact ⟨k, bs, g⟩
    · rintro ⟨k, bs, g⟩
      exact ⟨k, _, by rw [hread, g]; rfl⟩
  · rw [hread] at hk
    obtain ⟨⟨bs, stop⟩, g, hk⟩ := Res.bind_ok_inv hk
    obtain ⟨rfl, rfl⟩ := Prod.mk.inj (Res.ok.inj hk)
    rw [batch_loop_delivers D hB fuel _ _ _ e5 hne' v ⟨_, e7⟩ k bs g]
    simp only [delivered, hlost, List.length_map]
    have hkept : ∀ l : List (List ItemRow), (l.map fun rows => rows.map (ItemRow.shown full (s.picked bo))).flatMap (kept bo.rowSize) =
        (l.flatMap (kept bo.rowSize)).map (ItemRow.shown full (s.picked bo)) := by
      intro l
      rw [List.flatMap_map, List.map_flatMap]
      congr 1
      funext rows
      simp only [kept, List.length_map]
      split <;> simp
    split
    · rw [List.map_append, List.map_flatten]
      congr 1
      split <;> simp
    · rw [hkept, List.map_append]

/-- **C90** (partial: no lists or maps in lists, maps or structs; where lists or maps may be null their elements may not; the restrictions of C85) A client that
reads a table with list and map columns in batches of any size, and looks at the rows of the columns only: no call fails, the loop ends exactly if at most
one stripe before the last loses its last row, and what the client has then are the rows of the table, restricted to the columns that were chosen, but for
the lost rows; in place of a list or a map it finds the number of its elements. -/
theorem collections_counted_partial (init : List (List ItemRow)) (last : List ItemRow)
    (h : FileItems E s file parts ps ft content metadata fb pb) (hparts : parts.map (·.1) = init ++ [last])
    (num : s.Numbered) (named : s.Named) (hs : s.Flat) (hlen : fb.length + pb.length + 1 ≤ 16384)
    (bo : BatchOption) (hsel : bo.Picks s) (hrow : bo.rowSize ≠ 0) (hmake : bo.notCreateVector = false) (fuel : Nat) :
    (∀ k, ∃ rows stop, readItems E fuel s bo false k file = .ok (rows, stop)) ∧
    ((∃ k rows, readItems E fuel s bo false k file = .ok (rows, true)) ↔ lostRows bo.rowSize init ≤ 1) ∧
    ∀ k rows, readItems E fuel s bo false k file = .ok (rows, true) → rows = (delivered bo.rowSize init last).map fun r => (r.only (s.picked bo)).counted :=
  collection_table_reads false init last h hparts num named hs hlen bo hsel hrow hmake (by simp) fuel

/-- **C90** (partial, likewise) A client that reads such a table row by row finds the lists and maps complete, with all their elements. -/
theorem collections_complete_partial (init : List (List ItemRow)) (last : List ItemRow)
    (h : FileItems E s file parts ps ft content metadata fb pb) (hparts : parts.map (·.1) = init ++ [last])
    (num : s.Numbered) (named : s.Named) (hs : s.Flat) (hlen : fb.length + pb.length + 1 ≤ 16384)
    (bo : BatchOption) (hsel : bo.Picks s) (hrow : bo.rowSize = 1) (hmake : bo.notCreateVector = false) (fuel : Nat) :
    (∀ k, ∃ rows stop, readItems E fuel s bo true k file = .ok (rows, stop)) ∧
    ((∃ k rows, readItems E fuel s bo true k file = .ok (rows, true)) ↔ lostRows 1 init ≤ 1) ∧
    ∀ k rows, readItems E fuel s bo true k file = .ok (rows, true) → rows = (delivered 1 init last).map (ItemRow.only (s.picked bo)) := by
  have := collection_table_reads true init last h hparts num named hs hlen bo hsel (by omega) hmake (fun _ => hrow) fuel
  rw [hrow] at this
  exact this

/-! ### A small file -/

/-- A table with lists of numbers, which may be null, and maps from numbers to numbers, of which the values may be null. -/
def exSets : Schema :=
  .mk ⟨0, .struct, .direct, false, ["l", "m"]⟩
    [.mk ⟨1, .list, .directV2, true, []⟩ [.mk ⟨2, .byte, .direct, false, []⟩ []],
     .mk ⟨3, .map, .directV2, false, []⟩ [.mk ⟨4, .byte, .direct, false, []⟩ [], .mk ⟨5, .byte, .direct, true, []⟩ []]]

/-- Its only stripe. -/
def exSetsFooter : StripeFooter :=
  ⟨[⟨.present, 1, 2⟩, ⟨.length, 1, 3⟩, ⟨.data, 2, 4⟩, ⟨.length, 3, 3⟩, ⟨.data, 4, 4⟩, ⟨.present, 5, 2⟩, ⟨.data, 5, 3⟩],
    [.direct, .directV2, .direct, .directV2, .direct, .direct]⟩

/-- The stripe. -/
def exSetsBody : Bytes :=
  [0xff#8, 0xa0#8, 0x42#8, 0x01#8, 0x90#8, 0xfd#8, 0x01#8, 0x02#8, 0x03#8, 0x42#8, 0x02#8, 0x84#8, 0xfd#8, 0x0a#8, 0x0b#8, 0x0c#8,
    0xff#8, 0x60#8, 0xfe#8, 0x14#8, 0x15#8, 0x00#8]

/-- The file. -/
def exSetsFile : Bytes := tinyFile exSetsBody

/-- The environment of the file. -/
def exSetsEnv : Env := tinyEnv [exSetsFooter] (tinyFooter exSets [⟨3, 0, 21, 1, 3⟩]) tinyScript

/-- Its rows. -/
def exSetsRows : List ItemRow :=
  [[(1, .list [some (.u8 1#8), some (.u8 2#8)]), (3, .map [(some (.u8 10#8), none), (some (.u8 11#8), some (.u8 20#8))])],
    [(1, .null), (3, .map [])],
    [(1, .list [some (.u8 3#8)]), (3, .map [(some (.u8 12#8), some (.u8 21#8))])]]

theorem exSets_stripe : StripeItems exSetsEnv .none (256 * 1024) exSets exSetsFile ⟨3, 0, 21, 1, 3⟩ exSetsRows exSetsFooter [] exSetsFooter.streams where
  count := rfl
  inFile := by decide +kernel
  footerAt := ⟨[0#8], ⟨by decide, by decide +kernel⟩, rfl⟩
  listed := rfl
  existing := by decide
  indexes := by simp
  indexLength := rfl
  indexAt := by simp [startsFrom]
  noIndex := by decide +kernel
  dataLength := rfl
  root := ⟨rfl, by decide +kernel⟩
  flags := by decide +kernel
  cells := by
    have hfits : ∀ p ∈ startsFrom (3 + 0) exSetsFooter.streams, p.2 + p.1.length ≤ exSetsFile.length := by decide +kernel
    intro c hc
    simp only [exSets, Schema.children, List.mem_cons, List.not_mem_nil, or_false] at hc
    rcases hc with rfl | rfl
    · refine ⟨.direct, [some [some (.u8 1#8), some (.u8 2#8)], none, some [some (.u8 3#8)]], rfl, rfl, by decide +kernel, ?_, ?_⟩
      · refine ⟨_, some [true, false, true], [.direct 1 [2, 1]], by simp, plain_laid _ _ (by decide) _ _ _ [.length] _ hfits (by decide +kernel) ?_ ?_,
          by decide +kernel, by decide +kernel, ⟨by simp [RleBlock.WF]; decide +kernel, by decide +kernel⟩, by simp [RleBlock.Handled], by decide +kernel⟩
        · intro k; cases k <;> decide +kernel
        · intro bs hb; cases hb
          exact ⟨[0xa0#8], [false, false, false, false, false], ⟨[.literal [0xa0#8]], by simp [ByteRun.WF], by decide +kernel, rfl⟩, by decide +kernel⟩
      · refine ⟨_, none, by simp, .inr ⟨.byte, .tinyint,
          plain_laid _ _ (by decide) _ _ _ [.data] _ hfits (by decide +kernel) ?_ (by simp), by unfold Flagged; decide +kernel, ?_⟩⟩
        · intro k; cases k <;> decide +kernel
        · exact ⟨[1#8, 2#8, 3#8], ⟨[.literal [1#8, 2#8, 3#8]], by simp [ByteRun.WF], by decide +kernel, rfl⟩, by decide +kernel⟩
    · refine ⟨.direct, .direct, [some [(some (.u8 10#8), none), (some (.u8 11#8), some (.u8 20#8))], some [], some [(some (.u8 12#8), some (.u8 21#8))]],
        rfl, rfl, rfl, by decide +kernel, ?_, ?_, ?_⟩
      · refine ⟨_, none, [.direct 1 [2, 0, 1]], by simp, plain_laid _ _ (by decide) _ _ _ [.length] _ hfits (by decide +kernel) ?_ (by simp),
          by decide +kernel, by decide +kernel, ⟨by simp [RleBlock.WF]; decide +kernel, by decide +kernel⟩, by simp [RleBlock.Handled], by decide +kernel⟩
        intro k; cases k <;> decide +kernel
      · refine ⟨_, none, by simp, .inr ⟨.byte, .tinyint,
          plain_laid _ _ (by decide) _ _ _ [.data] _ hfits (by decide +kernel) ?_ (by simp), by unfold Flagged; decide +kernel, ?_⟩⟩
        · intro k; cases k <;> decide +kernel
        · exact ⟨[10#8, 11#8, 12#8], ⟨[.literal [10#8, 11#8, 12#8]], by simp [ByteRun.WF], by decide +kernel, rfl⟩, by decide +kernel⟩
      · refine ⟨_, some [false, true, true], by simp, .inr ⟨.byte, .tinyint,
          plain_laid _ _ (by decide) _ _ _ [.data] _ hfits (by decide +kernel) ?_ ?_, by unfold Flagged; decide +kernel, ?_⟩⟩
        · intro k; cases k <;> decide +kernel
        · intro bs hb; cases hb
          exact ⟨[0x60#8], [false, false, false, false, false], ⟨[.literal [0x60#8]], by simp [ByteRun.WF], by decide +kernel, rfl⟩, by decide +kernel⟩
        · exact ⟨[20#8, 21#8], ⟨[.literal [20#8, 21#8]], by simp [ByteRun.WF], by decide +kernel, rfl⟩, by decide +kernel⟩

/-- The file is as the format wants it. -/
theorem exSets_items : FileItems exSetsEnv exSets exSetsFile [(exSetsRows, exSetsFooter)] tinyScript (tinyFooter exSets [⟨3, 0, 21, 1, 3⟩])
    ([0x4f#8, 0x52#8, 0x43#8] ++ exSetsBody) [] [0xf0#8] [0xf1#8] where
  toFileFrame := tiny_frame exSets _ [⟨3, 0, 21, 1, 3⟩] _ (by simp) (by simp)
  stripes := .cons ⟨_, _, exSets_stripe⟩ .nil

theorem exSets_flat : exSets.Flat := by
  refine ⟨rfl, rfl, fun c hc => ?_⟩
  simp only [exSets, Schema.children, List.mem_cons, List.not_mem_nil, or_false] at hc
  rcases hc with rfl | rfl
  · exact .list _ _ rfl rfl (fun _ => rfl)
  · exact .map _ _ _ rfl rfl rfl (by simp)

/-- Row by row, the lists and maps of the file are read with their elements; the last row of the file is lost. -/
example : ∃ k, readItems exSetsEnv 10 exSets ⟨[], 1, false⟩ true k exSetsFile = .ok (exSetsRows.take 2, true) := by
  obtain ⟨_, h2, h3⟩ := collections_complete_partial [] exSetsRows exSets_items rfl (by unfold Schema.Numbered; decide +kernel)
    (by unfold Schema.Named; decide +kernel) exSets_flat (by decide) ⟨[], 1, false⟩ (by unfold BatchOption.Picks; decide +kernel) rfl rfl 10
  obtain ⟨k, rows, e⟩ := h2.mpr (by decide +kernel)
  exact ⟨k, by rw [e, h3 k rows e]; rfl⟩

/-- With larger batches nothing is lost of the numbers of elements. -/
example : ∃ k, readItems exSetsEnv 10 exSets ⟨[], 10, false⟩ false k exSetsFile = .ok (exSetsRows.map ItemRow.counted, true) := by
  obtain ⟨_, h2, h3⟩ := collections_counted_partial [] exSetsRows exSets_items rfl (by unfold Schema.Numbered; decide +kernel)
    (by unfold Schema.Named; decide +kernel) exSets_flat (by decide) ⟨[], 10, false⟩ (by unfold BatchOption.Picks; decide +kernel) (by decide) rfl 10
  obtain ⟨k, rows, e⟩ := h2.mpr (by decide +kernel)
  exact ⟨k, by rw [e, h3 k rows e]; rfl⟩

/-- A selection: the maps only. -/
example : ∃ k, readItems exSetsEnv 10 exSets ⟨[0, 3, 4, 5], 1, false⟩ true k exSetsFile = .ok ((exSetsRows.take 2).map (ItemRow.only [3]), true) := by
  obtain ⟨_, h2, h3⟩ := collections_complete_partial [] exSetsRows exSets_items rfl (by unfold Schema.Numbered; decide +kernel)
    (by unfold Schema.Named; decide +kernel) exSets_flat (by decide) ⟨[0, 3, 4, 5], 1, false⟩ (by unfold BatchOption.Picks; decide +kernel) rfl rfl 10
  obtain ⟨k, rows, e⟩ := h2.mpr (by decide +kernel)
  exact ⟨k, by rw [e, h3 k rows e]; rfl⟩

/-- **C90, refuted** With batches of several rows the child vectors have the elements of the last row of the batch only: of the first list of this file,
and of the first map, only the number of elements is there. -/
theorem collections_lost_elements :
    FileItems exSetsEnv exSets exSetsFile [(exSetsRows, exSetsFooter)] tinyScript (tinyFooter exSets [⟨3, 0, 21, 1, 3⟩])
      ([0x4f#8, 0x52#8, 0x43#8] ++ exSetsBody) [] [0xf0#8] [0xf1#8] ∧
    exSets.Numbered ∧ exSets.Named ∧ exSets.Flat ∧
    readItems exSetsEnv 10 exSets ⟨[], 10, false⟩ true 5 exSetsFile =
      .ok ([[(1, .value (.u64 2#64)), (3, .value (.int 2))], [(1, .null), (3, .value (.int 0))],
        [(1, .list [some (.u8 3#8)]), (3, .map [(some (.u8 12#8), some (.u8 21#8))])]], true) :=
  ⟨exSets_items, by unfold Schema.Numbered; decide +kernel, by unfold Schema.Named; decide +kernel, exSets_flat, by decide +kernel⟩

end Goorc
