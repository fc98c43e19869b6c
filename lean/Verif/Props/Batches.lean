import Verif.Proofs.Batches
/-
C56, C57, C58: reading a file batch by batch, and seeking.
-/
namespace Goorc

variable {ρ χ : Type}

theorem Stand.run_mono (B N k : Nat) : ∀ (s : Stand ρ) (bs : List (List ρ)), s.run B N k = (bs, true) → ∀ j, s.run B N (k + j) = (bs, true) := by
  induction k with
  | zero => intro s bs h; simp [run] at h
  | succ k ih =>
    intro s bs h j
    rw [Nat.succ_add]
    simp only [run] at h ⊢
    by_cases h1 : s.done ≥ N - 1
    · rw [if_pos h1] at h ⊢; exact h
    · rw [if_neg h1] at h ⊢
      by_cases h2 : (s.step B).done ≥ N - 1
      · rw [if_pos h2] at h ⊢; exact h
      · rw [if_neg h2] at h ⊢
        obtain ⟨e1, e2⟩ := Prod.mk.inj h
        have := ih (s.step B) _ (Prod.ext rfl e2) j
        rw [this]
        exact Prod.ext e1 rfl

theorem Stand.run_unique (B N k k' : Nat) (s : Stand ρ) (bs bs' : List (List ρ)) (h : s.run B N k = (bs, true)) (h' : s.run B N k' = (bs', true)) :
    bs = bs' := by
  have e1 := Stand.run_mono B N k s bs h k'
  have e2 := Stand.run_mono B N k' s bs' h' k
  rw [Nat.add_comm] at e2
  rw [e1] at e2
  exact (Prod.mk.inj e2).1

/-- What the loop delivers of the stripes `init` and the last stripe `last`, if it ends. -/
def delivered (B : Nat) (init : List (List ρ)) (last : List ρ) : List ρ :=
  if lostRows B init = 0 then init.flatten ++ (if last.length ≤ 1 ∨ losesLast B last.length then last.dropLast else last)
  else init.flatMap (kept B) ++ last

theorem Stand.losses_eq (B : Nat) (last : List ρ) : ∀ (init : List (List ρ)) (lost : Nat) (cur : List ρ) (later : List (List ρ)),
    cur :: later = init ++ [last] → Stand.losses B lost cur later = lost + lostRows B init := by
  intro init
  induction init with
  | nil =>
    intro lost cur later h
    simp only [List.nil_append, List.cons.injEq] at h
    rw [h.2]; simp [losses, lostRows]
  | cons i init ih =>
    intro lost cur later h
    simp only [List.cons_append, List.cons.injEq] at h
    obtain ⟨rfl, h⟩ := h
    cases later with
    | nil => simp at h
    | cons c cs =>
      simp only [losses]
      rw [ih _ c cs h]
      simp only [lostRows, List.filter_cons]
      split <;> simp; omega

theorem Stand.result_eq (B : Nat) (last : List ρ) : ∀ (init : List (List ρ)) (lost : Nat) (cur : List ρ) (later : List (List ρ)),
    cur :: later = init ++ [last] → Stand.result B lost cur later = init.flatMap (kept B) ++
      (if lost + lostRows B init = 0 then (if last.length ≤ 1 then [] else kept B last) else last) := by
  intro init
  induction init with
  | nil =>
    intro lost cur later h
    simp only [List.nil_append, List.cons.injEq] at h
    obtain ⟨rfl, rfl⟩ := h
    by_cases h0 : lost = 0 <;> simp [result, lostRows, h0]
  | cons i init ih =>
    intro lost cur later h
    simp only [List.cons_append, List.cons.injEq] at h
    obtain ⟨rfl, h⟩ := h
    cases later with
    | nil => simp at h
    | cons c cs =>
      simp only [result]
      rw [ih _ c cs h]
      simp only [List.flatMap_cons, List.append_assoc]
      have : (lost + if losesLast B cur.length = true then 1 else 0) + lostRows B init = lost + lostRows B (cur :: init) := by
        simp only [lostRows, List.filter_cons]
        split <;> simp; omega
      rw [this]

theorem kept_none {B : Nat} {init : List (List ρ)} (h : lostRows B init = 0) : init.flatMap (kept B) = init.flatten := by
  induction init with
  | nil => rfl
  | cons i init ih =>
    simp only [lostRows, List.filter_cons] at h ih
    split at h
    · simp at h
    · rename_i hl
      simp only [List.flatMap_cons, List.flatten_cons, ih h]
      rw [kept, if_neg hl]

theorem result_delivered (B : Nat) (init : List (List ρ)) (last cur : List ρ) (later : List (List ρ)) (h : cur :: later = init ++ [last]) :
    Stand.result B 0 cur later = delivered B init last := by
  rw [Stand.result_eq B last init 0 cur later h, delivered]
  by_cases h0 : lostRows B init = 0
  · rw [if_pos h0, if_pos (by omega), kept_none h0]
    congr 1
    by_cases h1 : last.length ≤ 1
    · rw [if_pos h1, if_pos (.inl h1)]
      match last, h1 with
      | [], _ => rfl
      | [x], _ => rfl
    · rw [if_neg h1, kept]
      by_cases h2 : losesLast B last.length = true
      · rw [if_pos h2, if_pos (.inr h2)]
      · rw [if_neg h2, if_neg (by simp [h1, h2])]
  · rw [if_neg h0, if_neg (by omega)]

/-- A fresh batch reader stands at the beginning. -/
theorem fresh_at {hasNulls : List Bool} {P : χ → List ρ → Prop} {br : BatchReader χ} {cur : List ρ} {later : List (List ρ)}
    (hf : br.Fresh hasNulls P (cur :: later)) : br.At hasNulls P ⟨cur, later, 0⟩ := by
  have he := hf.each
  generalize hs : br.stripes = ss at he
  cases he with
  | cons h hs' =>
    rename_i a as
    obtain ⟨g1, g2, g3, y, g4, g5⟩ := h
    exact ⟨hf.cursor, [], a, as, y, by rw [hs]; rfl, by rw [hf.index]; rfl, g1, g4, g5, by rw [g2, g3]; simp, hs'⟩

section

variable {X : RdOps χ} {hasNulls : List Bool} {B : Nat} {Shape : Vec → Prop} {P : χ → List ρ → Prop} {rowsOf : Vec → List ρ}

/-- **C57, exact** A client that calls `Next` until it reports the end comes to an end exactly if at most one of the stripes
before the last loses its last row, that is, has two or more rows and `B = 1` or `rows mod B = 1`. No call fails. -/
theorem batch_loop_ends_iff (D : Delivers X hasNulls B Shape P rowsOf) (hB : 1 ≤ B) (fuel : Nat) (br : BatchReader χ)
    (init : List (List ρ)) (last : List ρ) (hf : br.Fresh hasNulls P (init ++ [last])) (hne : ∀ s ∈ init ++ [last], s ≠ [])
    (vec : Vec) (hv : Shape vec) :
    (∀ k, ∃ bs stop, readBatches X (fuel + 1) k br vec = .ok (bs, stop)) ∧
    ((∃ k bs, readBatches X (fuel + 1) k br vec = .ok (bs, true)) ↔ lostRows B init ≤ 1) := by
  obtain ⟨cur, later, hcl⟩ : ∃ cur later, init ++ [last] = cur :: later := by
    cases init with
    | nil => exact ⟨_, _, rfl⟩
    | cons i is => exact ⟨_, _, rfl⟩
  rw [hcl] at hf hne
  have ha := fresh_at hf
  have hfit : Stand.Fits br.numberOfRows 0 (⟨cur, later, 0⟩ : Stand ρ) :=
    ⟨by rw [hf.total]; simp, fun _ => hne cur (by simp), fun c hc => hne c (by simp [hc])⟩
  have hlos := Stand.losses_eq B last init 0 cur later hcl.symm
  rw [Nat.zero_add] at hlos
  refine ⟨fun k => ?_, ⟨?_, ?_⟩⟩
  · obtain ⟨bs, e1, e2⟩ := readBatches_run D fuel k br _ ha vec hv
    exact ⟨_, _, e1⟩
  · rintro ⟨k, bs, h⟩
    obtain ⟨bs', e1, e2⟩ := readBatches_run D fuel k br _ ha vec hv
    rw [h] at e1
    have e3 := (Prod.mk.inj (Res.ok.inj e1)).2
    by_cases h2 : lostRows B init ≤ 1
    · exact h2
    · have := (Stand.run_endless hB k 0 _ hfit (by rw [hlos]; omega)).1
      rw [this] at e3; simp at e3
  · intro h
    obtain ⟨k, bs, e1, -⟩ := Stand.run_ends hB _ 0 _ (Nat.le_refl _) hfit (by rw [hlos]; exact h)
    obtain ⟨bs', f1, f2⟩ := readBatches_run D fuel k br _ ha vec hv
    rw [e1] at f1
    exact ⟨k, bs', f1⟩

/-- **C56, exact** If it comes to an end, the rows delivered are: all rows but the last ones of the stripes that lose theirs;
and of the last stripe all but the last row, if no row was lost before and it has only one row or loses its last row too. -/
theorem batch_loop_delivers (D : Delivers X hasNulls B Shape P rowsOf) (hB : 1 ≤ B) (fuel : Nat) (br : BatchReader χ)
    (init : List (List ρ)) (last : List ρ) (hf : br.Fresh hasNulls P (init ++ [last])) (hne : ∀ s ∈ init ++ [last], s ≠ [])
    (vec : Vec) (hv : Shape vec) (k : Nat) (bs : List Vec) (h : readBatches X (fuel + 1) k br vec = .ok (bs, true)) :
    bs.flatMap rowsOf = delivered B init last := by
  have hlost := (batch_loop_ends_iff D hB fuel br init last hf hne vec hv).2.1 ⟨k, bs, h⟩
  obtain ⟨cur, later, hcl⟩ : ∃ cur later, init ++ [last] = cur :: later := by
    cases init with
    | nil => exact ⟨_, _, rfl⟩
    | cons i is => exact ⟨_, _, rfl⟩
  rw [hcl] at hf hne
  have ha := fresh_at hf
  have hfit : Stand.Fits br.numberOfRows 0 (⟨cur, later, 0⟩ : Stand ρ) :=
    ⟨by rw [hf.total]; simp, fun _ => hne cur (by simp), fun c hc => hne c (by simp [hc])⟩
  have hlos := Stand.losses_eq B last init 0 cur later hcl.symm
  rw [Nat.zero_add] at hlos
  obtain ⟨bs', e1, e2⟩ := readBatches_run D fuel k br _ ha vec hv
  rw [h] at e1
  obtain ⟨e3, e4⟩ := Prod.mk.inj (Res.ok.inj e1)
  subst e3
  obtain ⟨k', rs, f1, f2⟩ := Stand.run_ends hB _ 0 _ (Nat.le_refl _) hfit (by rw [hlos]; exact hlost)
  have hrun : Stand.run B br.numberOfRows k (⟨cur, later, 0⟩ : Stand ρ) = (bs.map rowsOf, true) := Prod.ext e2.symm e4.symm
  have := Stand.run_unique B _ _ _ _ _ _ hrun f1
  rw [List.flatMap_def, this, f2]
  exact result_delivered B init last cur later hcl.symm

/-- **C56, exact** Every row is delivered, once and in order, exactly if no stripe loses its last row and the last stripe has
at least two rows. -/
theorem every_row_iff (D : Delivers X hasNulls B Shape P rowsOf) (hB : 1 ≤ B) (fuel : Nat) (br : BatchReader χ)
    (init : List (List ρ)) (last : List ρ) (hf : br.Fresh hasNulls P (init ++ [last])) (hne : ∀ s ∈ init ++ [last], s ≠ [])
    (vec : Vec) (hv : Shape vec) :
    (∃ k bs, readBatches X (fuel + 1) k br vec = .ok (bs, true) ∧ bs.flatMap rowsOf = (init ++ [last]).flatten) ↔
      (∀ s ∈ init, losesLast B s.length = false) ∧ 2 ≤ last.length ∧ losesLast B last.length = false := by
  have hzero : lostRows B init = 0 ↔ ∀ s ∈ init, losesLast B s.length = false := by
    simp [lostRows, List.filter_eq_nil_iff]
  have hlast : last ≠ [] := hne last (by simp)
  constructor
  · rintro ⟨k, bs, h1, h2⟩
    have hlost := (batch_loop_ends_iff D hB fuel br init last hf hne vec hv).2.1 ⟨k, bs, h1⟩
    rw [batch_loop_delivers D hB fuel br init last hf hne vec hv k bs h1, delivered] at h2
    by_cases h0 : lostRows B init = 0
    · rw [if_pos h0] at h2
      rw [List.flatten_append, List.append_cancel_left_eq] at h2
      by_cases hl : last.length ≤ 1 ∨ losesLast B last.length = true
      · rw [if_pos hl] at h2
        have := congrArg List.length h2
        have := List.length_pos_iff.2 hlast
        simp at *
        omega
      · simp only [not_or] at hl
        exact ⟨hzero.1 h0, by omega, by simpa using hl.2⟩
    · rw [if_neg h0] at h2
      exfalso
      have hlen : ∀ (init : List (List ρ)), (init.flatMap (kept B)).length + lostRows B init = init.flatten.length := by
        intro init
        induction init with
        | nil => rfl
        | cons i init ih =>
          simp only [List.flatMap_cons, List.length_append, List.flatten_cons, lostRows, List.filter_cons, kept] at ih ⊢
          by_cases hl : losesLast B i.length = true
          · simp only [hl, if_true, List.length_dropLast, List.length_cons]
            have : 2 ≤ i.length := by simp only [losesLast, Bool.and_eq_true, decide_eq_true_eq] at hl; exact hl.1
            omega
          · simp only [hl]
            simp only [Bool.false_eq_true, if_false]
            omega
      have := congrArg List.length h2
      have := hlen init
      simp only [List.flatten_append, List.length_append, List.flatten_cons, List.flatten_nil, List.append_nil] at *
      omega
  · rintro ⟨h1, h2, h3⟩
    have h0 := hzero.2 h1
    obtain ⟨k, bs, h⟩ := (batch_loop_ends_iff D hB fuel br init last hf hne vec hv).2.2 (by omega)
    refine ⟨k, bs, h, ?_⟩
    rw [batch_loop_delivers D hB fuel br init last hf hne vec hv k bs h, delivered, if_pos h0,
      if_neg (by simp only [h3]; simp; omega)]
    simp

/-- **C57** In the other case, however many calls are made, the rows delivered are only the beginning of what can be delivered,
and the end is never reported. -/
theorem batch_loop_endless (D : Delivers X hasNulls B Shape P rowsOf) (hB : 1 ≤ B) (fuel : Nat) (br : BatchReader χ)
    (init : List (List ρ)) (last : List ρ) (hf : br.Fresh hasNulls P (init ++ [last])) (hne : ∀ s ∈ init ++ [last], s ≠ [])
    (vec : Vec) (hv : Shape vec) (hl : 2 ≤ lostRows B init) (k : Nat) :
    ∃ bs, readBatches X (fuel + 1) k br vec = .ok (bs, false) ∧ bs.flatMap rowsOf <+: init.flatMap (kept B) ++ last := by
  obtain ⟨cur, later, hcl⟩ : ∃ cur later, init ++ [last] = cur :: later := by
    cases init with
    | nil => exact ⟨_, _, rfl⟩
    | cons i is => exact ⟨_, _, rfl⟩
  rw [hcl] at hf hne
  have ha := fresh_at hf
  have hfit : Stand.Fits br.numberOfRows 0 (⟨cur, later, 0⟩ : Stand ρ) :=
    ⟨by rw [hf.total]; simp, fun _ => hne cur (by simp), fun c hc => hne c (by simp [hc])⟩
  have hlos := Stand.losses_eq B last init 0 cur later hcl.symm
  rw [Nat.zero_add] at hlos
  obtain ⟨bs, e1, e2⟩ := readBatches_run D fuel k br _ ha vec hv
  obtain ⟨f1, f2⟩ := Stand.run_endless hB k 0 _ hfit (by rw [hlos]; exact hl)
  rw [f1] at e1
  refine ⟨bs, e1, ?_⟩
  rw [List.flatMap_def, e2]
  rw [Stand.result_eq B last init 0 cur later hcl.symm, if_neg (by omega)] at f2
  exact f2

end

end Goorc
