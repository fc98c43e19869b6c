import Verif.Proofs.AbsentColumn
import Verif.Props.BatchShape
import Verif.Props.WriteLocal
/-
C100: what a file has for a column that batches leave out.
-/
namespace Goorc

mutual
theorem Vec.cells_absent (i id : Nat) : ∀ v : Vec, v.covers id = false → ∀ x ∈ v.cells i, x.1 ≠ id
  | .nil, _, x, hx => by simp [Vec.cells] at hx
  | .mk id' k a cs, hc, x, hx => by
    rw [Vec.covers, Bool.or_eq_false_iff] at hc
    rw [Vec.cells, List.mem_append] at hx
    rcases hx with hx | hx
    · cases a with
      | none => simp [visibleRows] at hx
      | some a =>
        simp only [Option.isSome_some, Bool.true_and, beq_eq_false_iff_ne] at hc
        simp only [Option.mem_toList, Option.map_eq_some_iff] at hx
        obtain ⟨v, -, rfl⟩ := hx
        exact hc.1
    · exact cellsAll_absent i id cs hc.2 x hx

theorem cellsAll_absent (i id : Nat) : ∀ vs : List Vec, coversAny id vs = false → ∀ x ∈ cellsAll i vs, x.1 ≠ id
  | [], _, x, hx => by simp [cellsAll] at hx
  | v :: vs, hc, x, hx => by
    rw [coversAny, Bool.or_eq_false_iff] at hc
    rw [cellsAll, List.mem_append] at hx
    rcases hx with hx | hx
    · exact Vec.cells_absent i id v hc.1 x hx
    · exact cellsAll_absent i id vs hc.2 x hx
end

theorem columnWritten_absent {j : Nat} {batches : List Vec} (h : ∀ v ∈ batches, v.covers j = false) : ∀ r ∈ columnWritten j batches, r = [] := by
  intro r hr
  simp only [columnWritten, List.mem_map, List.mem_flatMap, Vec.tableRows, List.mem_map] at hr
  obtain ⟨_, ⟨v, hv, i, -, rfl⟩, rfl⟩ := hr
  rw [List.filter_eq_nil_iff]
  intro x hx
  simpa using Vec.cells_absent i j v (h v hv) x hx

/-- **C100, refuted, exact** What a file has for column `j` in the rows of stripes where no batch had a vector for it: if none of the rows of stripe `k` has anything for
column `j`, then none of its streams in that stripe has a byte, whatever the column got in other stripes, although the stripe counts these rows. -/
theorem stripe_without_column (E : Env) (o : FOpts) (s : Schema) (batches : List Vec) (file : Bytes) (j : Nat) (n : SchemaNode)
    (hs : s.Numbered) (hn : (s.columns.map (·.node))[j]? = some n) (h : writeFile E o s batches = .ok file) :
    ∃ parts ft ps, FileLayout E o s.columns file parts ft ps ∧ ft.cuts.sum = (batches.map Vec.len).sum ∧
      ∀ (k : Nat) (p : StripeParts), parts[k]? = some p →
        (∀ r ∈ ((columnWritten j batches).drop (ft.cuts.take k).sum).take p.rows, r = []) →
        ∀ x ∈ p.streamsOf j, x.2 = [] ∧ x.1.length = 0 := by
  obtain ⟨a0, c1, runs, last, ft, ps, x1, x2, x3, x4, x5, x6, x7⟩ := file_runs h
  have ids : (s.columns.map (·.node)).map (·.id) = List.range (s.columns.map (·.node)).length := by
    rw [List.map_map, List.length_map]; exact hs
  have lens : ∀ x ∈ runs ++ [last], ∀ s ∈ x.part.streams, s.1.length = s.2.length := fun x hx => (x4.sound _ (List.mem_map_of_mem hx)).lengths
  have cuts : ft.cuts = ((runs ++ [last]).map fun x => x.rows.map (onlyAt j)).map List.length := by
    rw [FileFooter.cuts, x4.stripes, stripeTable_rows, List.map_map, List.map_map]
    exact List.map_congr_left fun x m => by simp [x6 x m]
  have vals : columnWritten j batches = ((runs ++ [last]).map fun x => x.rows.map (onlyAt j)).flatten := by
    rw [columnWritten_raw, ← x5, List.map_flatMap, List.flatten_eq_flatMap, List.flatMap_map]
    simp [List.flatMap]
  have h0 : ∀ w, a0[j]? = some w → w.Rested := by
    intro w hw
    obtain ⟨u, m1, m2⟩ := (newWriters_at x1).2 j n hn
    rw [m1] at hw; injection hw with hw; subst hw
    exact AnyWriter.new_rested m2
  refine ⟨_, ft, ps, x4, ?_, fun k p hk hr => ?_⟩
  · have : (columnWritten j batches).length = (batches.map Vec.len).sum := by
      rw [columnWritten, List.length_map]
      induction batches with
      | nil => rfl
      | cons v vs ih => simp [Vec.tableRows, List.length_flatMap]
    rw [← this, cuts, vals, List.length_flatten]
  · rw [List.getElem?_map] at hk
    obtain ⟨x, hx, rfl⟩ := Option.map_eq_some_iff.1 hk
    refine x2.empty (newWriters_at x1).1 ids lens hn h0 hx ?_
    have piece : ∀ (L : List (List Row)) (k : Nat) (l : List Row), L[k]? = some l → (L.flatten.drop ((L.map List.length).take k).sum).take l.length = l := by
      intro L
      induction L with
      | nil => intro k l hl; simp at hl
      | cons a L ih =>
        intro k l hl
        cases k with
        | zero => simp at hl; subst hl; simp
        | succ k =>
          simp only [List.getElem?_cons_succ] at hl
          simp only [List.flatten_cons, List.map_cons, List.take_succ_cons, List.sum_cons]
          rw [List.drop_append, List.drop_of_length_le (by omega), List.nil_append, Nat.add_sub_cancel_left]
          exact ih k l hl
    have hl := piece ((runs ++ [last]).map fun x => x.rows.map (onlyAt j)) k (x.rows.map (onlyAt j)) (by rw [List.getElem?_map, hx]; rfl)
    rw [vals, cuts, x6 x (List.mem_of_getElem? hx)] at hr
    rw [List.length_map] at hl
    rw [hl] at hr
    have hmap : ∀ rows : Raws, (∀ r ∈ rows.map (onlyAt j), r = []) → columnOf j rows.flatten = [] := by
      intro rows
      induction rows with
      | nil => intro _; rfl
      | cons r rs ih =>
        intro hr
        simp only [List.map_cons, List.mem_cons, forall_eq_or_imp] at hr
        rw [List.flatten_cons, columnOf_append, ih hr.2, List.append_nil]
        have := onlyAt_column j r
        rw [hr.1] at this
        simpa using this.symm
    exact hmap _ hr

/-- **C100, refuted** If no batch has a vector for column `j`, the file is closed all the same, counts all the rows, and has not a byte for this column: not for its values, and not even
for which of them are null. -/
theorem absent_column_empty (E : Env) (o : FOpts) (s : Schema) (batches : List Vec) (file : Bytes) (j : Nat) (n : SchemaNode)
    (hs : s.Numbered) (hn : (s.columns.map (·.node))[j]? = some n) (habs : ∀ v ∈ batches, v.covers j = false) (h : writeFile E o s batches = .ok file) :
    ∃ parts ft ps, FileLayout E o s.columns file parts ft ps ∧ ft.numberOfRows = (batches.map Vec.len).sum ∧
      ∀ p ∈ parts, ∀ x ∈ p.streamsOf j, x.2 = [] ∧ x.1.length = 0 := by
  obtain ⟨parts, ft, ps, h1, h2, h3⟩ := stripe_without_column E o s batches file j n hs hn h
  refine ⟨parts, ft, ps, h1, ?_, fun p hp => ?_⟩
  · rw [← h2, h1.rows, FileFooter.cuts, h1.stripes, stripeTable_rows]
  · obtain ⟨k, hk⟩ := List.getElem?_of_mem hp
    exact h3 k p hk fun r hr => columnWritten_absent habs r (List.mem_of_mem_drop (List.mem_of_mem_take hr))

/-! ### Two columns of doubles, the second one left out by one batch of three, or by all -/

/-- Three rows of the first column, and nothing for the second one. -/
def exAbsentBatch : Vec := .mk 0 .struct none [exLocalDoubles]

/-- Stripes of two rows, then the batch without the second column, that makes stripes of three rows. -/
def exAbsentOpts : FOpts := ⟨⟨⟨.zlib, 100, false⟩, 2⟩, 20⟩

example : (writeFile exEnv exAbsentOpts exLocalA [exAbsentBatch, exAbsentBatch]).isOk = true ∧ exLocalA.Numbered ∧
    (∀ v ∈ [exAbsentBatch, exAbsentBatch], v.covers 2 = false) ∧ exLocalBatchA.covers 2 = true ∧ exAbsentBatch.covers 1 = true := by
  refine ⟨by decide +kernel, rfl, ?_, by decide, by decide⟩
  intro v hv
  simp only [List.mem_cons, List.not_mem_nil, or_false, or_self] at hv
  subst hv; decide

/-- How the stripes are cut: the second one has the third row of the first batch, which has both columns, and rows of the second batch. -/
example : (match newWriter exEnv exAbsentOpts exLocalA >>= fun w => w.writes exEnv exAbsentOpts [exLocalBatchA, exAbsentBatch, exAbsentBatch] >>= fun w => w.finish exEnv exAbsentOpts with
    | .ok w => w.footer.cuts | _ => []) = [2, 2, 3, 2] := by decide +kernel

end Goorc
