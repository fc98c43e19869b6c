import Verif.Spec.Batches
/-
The batch loop as a machine on lists of rows, and what it delivers.
-/
namespace Goorc

variable {ρ : Type}

/-- Where the loop stands: the rows left of the current stripe, the stripes after it, and how many rows were delivered. -/
structure Stand (ρ : Type) where
  cur : List ρ
  later : List (List ρ)
  done : Nat

/-- One call of `Next` that does read. -/
def Stand.step (B : Nat) (s : Stand ρ) : Stand ρ :=
  let rest := s.cur.drop B
  let d := s.done + (s.cur.take B).length
  if rest.length ≤ 1 then
    match s.later with
    | [] => ⟨rest, [], d⟩
    | c :: cs => ⟨c, cs, d⟩
  else ⟨rest, s.later, d⟩

/-- The loop. -/
def Stand.run (B N : Nat) : Nat → Stand ρ → List (List ρ) × Bool
  | 0, _ => ([], false)
  | k + 1, s =>
    if s.done ≥ N - 1 then ([[]], true)
    else
      let s' := s.step B
      if s'.done ≥ N - 1 then ([s.cur.take B], true)
      else ((s.cur.take B) :: (run B N k s').1, (run B N k s').2)

theorem Stand.step_done (B : Nat) (s : Stand ρ) : (s.step B).done = s.done + (s.cur.take B).length := by
  simp only [step]
  split
  · split <;> rfl
  · rfl

theorem losesLast_drop (B n : Nat) (hB : 1 ≤ B) (h : 2 ≤ n - B) : losesLast B (n - B) = losesLast B n := by
  simp only [losesLast]
  have : (n - B) % B = n % B := by
    have : n = (n - B) + B := by omega
    rw [this, Nat.add_sub_cancel, Nat.add_mod_right]
  rw [this]
  have h1 : decide (2 ≤ n - B) = true := by simpa using h
  have h2 : decide (2 ≤ n) = true := by simp; omega
  rw [h1, h2]

theorem losesLast_end (B n : Nat) (hB : 1 ≤ B) (h : n - B ≤ 1) : losesLast B n = decide (n - B = 1) := by
  simp only [losesLast]
  by_cases h1 : n - B = 1
  · have hn : n = B + 1 := by omega
    subst hn
    have : decide (2 ≤ B + 1) = true := by simp; omega
    rw [this]
    by_cases hb : B = 1
    · subst hb; rfl
    · have : (B + 1) % B = 1 := by rw [Nat.add_mod_left]; exact Nat.mod_eq_of_lt (by omega)
      simp [this]
  · have hn : n ≤ B := by omega
    simp only [h1, decide_false]
    by_cases hb : B = 1
    · have : decide (2 ≤ n) = false := by simp; omega
      rw [this]; rfl
    · by_cases h2 : n = B
      · subst h2; simp [hb, Nat.mod_self]
      · have : n % B = n := Nat.mod_eq_of_lt (by omega)
        rw [this]
        by_cases h3 : n = 1
        · subst h3; rfl
        · simp [hb, h3]

theorem kept_step (B : Nat) (hB : 1 ≤ B) (l : List ρ) (h : 2 ≤ (l.drop B).length) : kept B l = l.take B ++ kept B (l.drop B) := by
  simp only [kept]
  rw [List.length_drop] at h ⊢
  rw [losesLast_drop B _ hB h]
  split
  · rw [← List.dropLast_append_of_ne_nil (by intro h'; rw [List.drop_eq_nil_iff] at h'; omega), List.take_append_drop]
  · rw [List.take_append_drop]

theorem kept_end (B : Nat) (hB : 1 ≤ B) (l : List ρ) (h : (l.drop B).length ≤ 1) : kept B l = l.take B := by
  simp only [kept]
  rw [List.length_drop] at h
  rw [losesLast_end B _ hB h]
  by_cases h1 : l.length - B = 1
  · simp only [h1, decide_true, if_true]
    rw [List.dropLast_eq_take]
    congr 1; omega
  · simp only [h1, decide_false, Bool.false_eq_true, if_false]
    rw [List.take_of_length_le (by omega)]

/-- What is delivered when `lost` rows are already lost. -/
def Stand.result (B lost : Nat) : List ρ → List (List ρ) → List ρ
  | cur, [] => if lost = 0 then (if cur.length ≤ 1 then [] else kept B cur) else cur
  | cur, c :: cs => kept B cur ++ result B (lost + if losesLast B cur.length then 1 else 0) c cs

/-- How many rows are lost before the last stripe. -/
def Stand.losses (B lost : Nat) : List ρ → List (List ρ) → Nat
  | _, [] => lost
  | cur, c :: cs => losses B (lost + if losesLast B cur.length then 1 else 0) c cs

/-- The numbers fit. -/
structure Stand.Fits (N lost : Nat) (s : Stand ρ) : Prop where
  total : N = s.done + lost + s.cur.length + s.later.flatten.length
  full : s.later ≠ [] → s.cur ≠ []
  laterFull : ∀ c ∈ s.later, c ≠ []

theorem Stand.losses_le (B lost : Nat) (cur : List ρ) (later : List (List ρ)) : lost ≤ Stand.losses B lost cur later := by
  induction later generalizing lost cur with
  | nil => exact Nat.le_refl _
  | cons c cs ih => exact Nat.le_trans (Nat.le_add_right _ _) (ih _ _)

theorem Stand.losses_bound (B lost : Nat) (cur : List ρ) (later : List (List ρ)) :
    Stand.losses B lost cur later ≤ lost + cur.length + later.flatten.length := by
  induction later generalizing lost cur with
  | nil => simp only [losses]; omega
  | cons c cs ih =>
    simp only [losses]
    refine Nat.le_trans (ih _ _) ?_
    have : (if losesLast B cur.length then 1 else 0) ≤ cur.length := by
      split
      · rename_i h; simp only [losesLast, Bool.and_eq_true, decide_eq_true_eq] at h; omega
      · omega
    simp only [List.flatten_cons, List.length_append]
    omega

/-- One step: the state after it fits, with the losses and the result that remain. -/
theorem Stand.step_spec {B N lost : Nat} (hB : 1 ≤ B) {s : Stand ρ} (hs : s.Fits N lost) :
    ∃ lost', (s.step B).Fits N lost' ∧ Stand.losses B lost' (s.step B).cur (s.step B).later = Stand.losses B lost s.cur s.later ∧
      (lost ≠ 0 ∨ s.later ≠ [] ∨ 2 ≤ s.cur.length → Stand.result B lost s.cur s.later = s.cur.take B ++ Stand.result B lost' (s.step B).cur (s.step B).later) ∧
      ((s.step B).cur.length + (s.step B).later.flatten.length + (s.step B).later.length + (s.cur.take B).length ≤ s.cur.length + s.later.flatten.length + s.later.length) := by
  have htd : (s.cur.take B).length + (s.cur.drop B).length = s.cur.length := by
    rw [← List.length_append, List.take_append_drop]
  by_cases hr : (s.cur.drop B).length ≤ 1
  · cases hl : s.later with
    | nil =>
      refine ⟨lost, ?_, ?_, ?_, ?_⟩
      · simp only [step, hr, if_true, hl]
        have := hs.total
        rw [hl] at this
        exact ⟨by simp only [List.flatten_nil, List.length_nil] at this ⊢; omega, by simp, by simp⟩
      · simp only [step, hr, if_true, hl, losses]
      · intro h
        simp only [step, hr, if_true, hl, result]
        by_cases h0 : lost = 0
        · rw [if_pos h0, if_pos h0]
          have h2 : 2 ≤ s.cur.length := by
            rcases h with h | h | h
            · exact absurd h0 h
            · simp at h
            · exact h
          rw [if_neg (by omega), kept_end B hB _ hr, List.append_nil]
        · rw [if_neg h0, if_neg h0, List.take_append_drop]
      · simp only [step, hr, if_true, hl]
        simp; omega
    | cons c cs =>
      have hcur : s.cur ≠ [] := hs.full (by rw [hl]; simp)
      have hlost : (if losesLast B s.cur.length then 1 else 0) = (s.cur.drop B).length := by
        rw [List.length_drop] at hr ⊢
        rw [losesLast_end B _ hB hr]
        by_cases h1 : s.cur.length - B = 1
        · simp [h1]
        · simp [h1]; omega
      refine ⟨lost + (s.cur.drop B).length, ?_, ?_, ?_, ?_⟩
      · simp only [step, hr, if_true, hl]
        have := hs.total
        rw [hl] at this
        refine ⟨?_, fun _ => hs.laterFull c (by rw [hl]; simp), fun d hd => hs.laterFull d (by rw [hl]; simp [hd])⟩
        simp only [List.flatten_cons, List.length_append] at this ⊢
        omega
      · simp only [step, hr, if_true, hl, losses, hlost]
      · intro _
        simp only [step, hr, if_true, hl, result, hlost]
        rw [kept_end B hB _ hr]
      · simp only [step, hr, if_true, hl]
        simp only [List.flatten_cons, List.length_append, List.length_cons]; omega
  · have hr2 : 2 ≤ (s.cur.drop B).length := by omega
    have hstep : s.step B = ⟨s.cur.drop B, s.later, s.done + (s.cur.take B).length⟩ := by simp only [step, if_neg hr]
    have hll : losesLast B (s.cur.drop B).length = losesLast B s.cur.length := by
      rw [List.length_drop] at hr2 ⊢
      exact losesLast_drop B _ hB hr2
    refine ⟨lost, ?_, ?_, ?_, ?_⟩
    · rw [hstep]
      have := hs.total
      refine ⟨by simp only; omega, fun _ h => ?_, hs.laterFull⟩
      simp only at h
      rw [h] at hr2; simp at hr2
    · rw [hstep]
      simp only
      cases hl : s.later with
      | nil => rfl
      | cons c cs => simp only [losses, hll]
    · intro _
      rw [hstep]
      simp only
      cases hl : s.later with
      | nil =>
        simp only [result]
        by_cases h0 : lost = 0
        · rw [if_pos h0, if_pos h0, if_neg (by omega), if_neg (by omega), kept_step B hB _ hr2]
        · rw [if_neg h0, if_neg h0, List.take_append_drop]
      | cons c cs =>
        simp only [result, hll]
        rw [kept_step B hB _ hr2, List.append_assoc]
    · rw [hstep]
      simp only
      omega

/-- At the end nothing is left to deliver. -/
theorem Stand.result_end {B N lost : Nat} {s : Stand ρ} (hs : s.Fits N lost) (he : s.done ≥ N - 1) :
    Stand.result B lost s.cur s.later = [] := by
  have ht := hs.total
  cases hl : s.later with
  | nil =>
    rw [hl] at ht
    simp only [List.flatten_nil, List.length_nil] at ht
    simp only [result]
    by_cases h0 : lost = 0
    · rw [if_pos h0, if_pos (by omega)]
    · rw [if_neg h0]
      exact List.eq_nil_of_length_eq_zero (by omega)
  | cons c cs =>
    have hc : s.cur ≠ [] := hs.full (by rw [hl]; simp)
    have hd : c ≠ [] := hs.laterFull c (by rw [hl]; simp)
    have := List.length_pos_iff.2 hc
    have := List.length_pos_iff.2 hd
    rw [hl] at ht
    simp only [List.flatten_cons, List.length_append] at ht
    omega

/-- The loop ends, and delivers the result, if at most one row is lost before the last stripe. -/
theorem Stand.run_ends {B N : Nat} (hB : 1 ≤ B) : ∀ (m lost : Nat) (s : Stand ρ), s.cur.length + s.later.flatten.length + s.later.length ≤ m →
    s.Fits N lost → Stand.losses B lost s.cur s.later ≤ 1 → ∃ k bs, s.run B N k = (bs, true) ∧ bs.flatten = Stand.result B lost s.cur s.later := by
  intro m
  induction m with
  | zero =>
    intro lost s hm hs hl
    have hc : s.cur = [] := List.eq_nil_of_length_eq_zero (by omega)
    have hla : s.later = [] := List.eq_nil_of_length_eq_zero (by omega)
    have ht := hs.total
    have := Stand.losses_le B lost s.cur s.later
    rw [hc, hla] at ht
    simp at ht
    refine ⟨1, [[]], ?_, ?_⟩
    · simp only [run]
      rw [if_pos (by omega)]
    · rw [hc, hla]; simp [result]
  | succ m ih =>
    intro lost s hm hs hl
    by_cases he : s.done ≥ N - 1
    · refine ⟨1, [[]], ?_, ?_⟩
      · simp only [run]; rw [if_pos he]
      · rw [Stand.result_end hs he]; rfl
    · obtain ⟨lost', e1, e2, e3, e4⟩ := Stand.step_spec hB hs
      have hb : lost ≠ 0 ∨ s.later ≠ [] ∨ 2 ≤ s.cur.length := by
        by_cases h0 : lost = 0
        · by_cases h1 : s.later = []
          · have ht := hs.total
            rw [h1] at ht; simp at ht
            right; right; omega
          · exact .inr (.inl h1)
        · exact .inl h0
      have hcur : s.cur ≠ [] := by
        intro hc
        have ht := hs.total
        have hla : s.later = [] := by
          cases h : s.later with
          | nil => rfl
          | cons c cs => exact absurd hc (hs.full (by rw [h]; simp))
        have := Stand.losses_le B lost s.cur s.later
        rw [hc, hla] at ht
        simp at ht
        omega
      have htake : 1 ≤ (s.cur.take B).length := by
        have := List.length_pos_iff.2 hcur
        rw [List.length_take]; omega
      by_cases he' : (s.step B).done ≥ N - 1
      · refine ⟨1, [s.cur.take B], ?_, ?_⟩
        · simp only [run]; rw [if_neg he, if_pos he']
        · rw [e3 hb, Stand.result_end e1 he']; simp
      · obtain ⟨k, bs, f1, f2⟩ := ih lost' (s.step B) (by omega) e1 (by rw [e2]; exact hl)
        refine ⟨k + 1, s.cur.take B :: bs, ?_, ?_⟩
        · simp only [run]; rw [if_neg he, if_neg he', f1]
        · rw [e3 hb, ← f2]; rfl

/-- The loop never ends if two or more rows are lost before the last stripe; what it delivers is the beginning of the result. -/
theorem Stand.run_endless {B N : Nat} (hB : 1 ≤ B) : ∀ (k lost : Nat) (s : Stand ρ), s.Fits N lost → 2 ≤ Stand.losses B lost s.cur s.later →
    (s.run B N k).2 = false ∧ (s.run B N k).1.flatten <+: Stand.result B lost s.cur s.later := by
  intro k
  induction k with
  | zero => intro lost s _ _; exact ⟨rfl, by simp [run]⟩
  | succ k ih =>
    intro lost s hs hl
    have key : ∀ (lost : Nat) (s : Stand ρ), s.Fits N lost → 2 ≤ Stand.losses B lost s.cur s.later → ¬ s.done ≥ N - 1 := by
      intro lost s hs hl
      have := Stand.losses_bound B lost s.cur s.later
      have := hs.total
      omega
    obtain ⟨lost', e1, e2, e3, -⟩ := Stand.step_spec hB hs
    have hb : lost ≠ 0 ∨ s.later ≠ [] ∨ 2 ≤ s.cur.length := by
      by_cases h1 : s.later = []
      · rw [h1] at hl
        simp only [losses] at hl
        left; omega
      · exact .inr (.inl h1)
    obtain ⟨f1, f2⟩ := ih lost' (s.step B) e1 (by rw [e2]; exact hl)
    simp only [run]
    rw [if_neg (key lost s hs hl), if_neg (key lost' _ e1 (by rw [e2]; exact hl))]
    refine ⟨f1, ?_⟩
    rw [e3 hb]
    simp only [List.flatten_cons]
    exact List.prefix_append_right_inj _ |>.2 f2

/-! ### The batch reader is this machine -/

variable {χ : Type}

/-- The stripes still to be read, and the current one. -/
structure BatchReader.At (hasNulls : List Bool) (P : χ → List ρ → Prop) (br : BatchReader χ) (s : Stand ρ) : Prop where
  cursor : br.cursor = s.done
  split : ∃ before here after x, br.stripes = before ++ here :: after ∧ br.stripeIndex = before.length ∧
    here.hasNulls = hasNulls ∧ here.reader = some x ∧ P x s.cur ∧ here.numberOfRows = here.cursor + s.cur.length ∧
    List.Forall₂ (StripeReader.Fresh hasNulls P) after s.later

theorem BatchReader.next_spec {X : RdOps χ} {hasNulls : List Bool} {B : Nat} {Shape : Vec → Prop} {P : χ → List ρ → Prop}
    {rowsOf : Vec → List ρ} (D : Delivers X hasNulls B Shape P rowsOf) (fuel : Nat) (br : BatchReader χ) (s : Stand ρ)
    (ha : br.At hasNulls P s) (vec : Vec) (hv : Shape vec) :
    if s.done ≥ br.numberOfRows - 1 then ∃ vec', br.next X (fuel + 1) vec = .ok (true, vec', br) ∧ Shape vec' ∧ rowsOf vec' = []
    else ∃ vec' br', br.next X (fuel + 1) vec = .ok (decide ((s.step B).done ≥ br.numberOfRows - 1), vec', br') ∧ Shape vec' ∧
      rowsOf vec' = s.cur.take B ∧ br'.At hasNulls P (s.step B) ∧ br'.numberOfRows = br.numberOfRows := by
  obtain ⟨cl, c1, c2, c3, c4, c5⟩ := D.cleared vec hv
  by_cases he : s.done ≥ br.numberOfRows - 1
  · rw [if_pos he]
    refine ⟨cl, ?_, c2, c3⟩
    simp only [next, c1, Res.ok_bind]
    rw [ha.cursor, if_pos he]
    rfl
  · rw [if_neg he]
    obtain ⟨before, here, after, x, hst, hidx, hn, hx, hP, hrows, haft⟩ := ha.split
    have hneg : ¬ br.stripeIndex < 0 := by omega
    have hget : br.stripes[br.stripeIndex.toNat]? = some here := by rw [hst, hidx]; simp
    have htd : (s.cur.take B).length + (s.cur.drop B).length = s.cur.length := by
      rw [← List.length_append, List.take_append_drop]
    obtain ⟨sized, vec', x', d1, d2, d3, d4, d5, d6, d7⟩ :=
      D.next cl c2 c4 x (s.cur.take B) (s.cur.drop B) (by rw [List.length_take]; omega) (by rw [List.take_append_drop]; exact hP)
    -- the size of the batch
    have hprep : here.prepareVector cl = .ok sized := by
      simp only [StripeReader.prepareVector, c4, c5, hn]
      rw [← d1]
      congr 1
      rw [List.length_take]
      split <;> omega
    generalize hhere : ({ here with reader := some x', cursor := here.cursor + vec'.len } : StripeReader χ) = here'
    have hnext : here.next X cl = .ok (decide (here.cursor + vec'.len + 1 ≥ here.numberOfRows), vec', here') := by
      simp only [StripeReader.next, hprep, Res.ok_bind, hx, d2, ← hhere]
      rfl
    have hset : br.stripes.set br.stripeIndex.toNat here' = before ++ here' :: after := by
      rw [hst, hidx]; simp
    have hend : (here.cursor + vec'.len + 1 ≥ here.numberOfRows) ↔ (s.cur.drop B).length ≤ 1 := by
      rw [d6, hrows]; omega
    have hd : br.cursor + vec'.len = (s.step B).done := by
      rw [ha.cursor, d6, Stand.step_done]
    simp only [next, c1, Res.ok_bind]
    rw [if_neg (by rw [ha.cursor]; exact he)]
    by_cases hr : (s.cur.drop B).length ≤ 1
    · have hloop : br.nextLoop X (fuel + 1) cl = .ok (vec', { br with stripes := before ++ here' :: after, stripeIndex := br.stripeIndex + 1 }) := by
        unfold nextLoop
        rw [if_neg hneg, hget]
        simp only [hnext, Res.ok_bind, hset]
        rw [if_pos (by simpa using hend.2 hr)]
        rfl
      rw [hloop]
      simp only [Res.ok_bind]
      cases hl : s.later with
      | nil =>
        rw [hl] at haft
        have haft' : after = [] := by cases haft; rfl
        subst haft'
        have hlen : br.stripeIndex + 1 = ((before ++ [here']).length : Nat) := by rw [hidx]; simp
        rw [if_pos hlen]
        refine ⟨vec', ⟨br.indexStride, br.stripeIndex + 1 - 1, before ++ [here'], br.numberOfRows, br.cursor + vec'.len⟩, by rw [← hd]; rfl, d4, d5, ⟨?_, ?_⟩, rfl⟩
        · exact hd
        · refine ⟨before, here', [], x', rfl, ?_, ?_, ?_, ?_, ?_, ?_⟩
          · simp only; omega
          · rw [← hhere]; exact hn
          · rw [← hhere]
          · simp only [Stand.step, hr, if_true, hl]; exact d3
          · rw [← hhere]; simp only [Stand.step, hr, if_true, hl]; rw [d6]; omega
          · simp only [Stand.step, hr, if_true, hl]; exact .nil
      | cons c cs =>
        rw [hl] at haft
        cases haft with
        | cons hf hfs =>
          rename_i a as
          rw [if_neg (by rw [hidx]; simp; omega)]
          refine ⟨vec', ⟨br.indexStride, br.stripeIndex + 1, before ++ here' :: a :: as, br.numberOfRows, br.cursor + vec'.len⟩, by rw [← hd]; rfl, d4, d5, ⟨?_, ?_⟩, rfl⟩
          · exact hd
          · obtain ⟨g1, g2, g3, y, g4, g5⟩ := hf
            refine ⟨before ++ [here'], a, as, y, by simp, ?_, g1, g4, ?_, ?_, ?_⟩
            · simp only; rw [hidx]; simp
            · simp only [Stand.step, hr, if_true, hl]; exact g5
            · simp only [Stand.step, hr, if_true, hl]; rw [g2, g3]; omega
            · simp only [Stand.step, hr, if_true, hl]; exact hfs
    · have hfull : vec'.len = B := by
        rw [d6, List.length_take]
        rw [List.length_drop] at hr
        omega
      have hloop : br.nextLoop X (fuel + 1) cl = .ok (vec', { br with stripes := before ++ here' :: after }) := by
        unfold nextLoop
        rw [if_neg hneg, hget]
        simp only [hnext, Res.ok_bind, hset]
        rw [if_neg (by simpa using fun h => hr (hend.1 h)), if_pos (by rw [hfull, d7]; exact Nat.le_refl _)]
        rfl
      rw [hloop]
      simp only [Res.ok_bind]
      rw [if_neg (by rw [hidx]; simp; omega)]
      refine ⟨vec', ⟨br.indexStride, br.stripeIndex, before ++ here' :: after, br.numberOfRows, br.cursor + vec'.len⟩, by rw [← hd]; rfl, d4, d5, ⟨?_, ?_⟩, rfl⟩
      · exact hd
      · refine ⟨before, here', after, x', rfl, hidx, ?_, ?_, ?_, ?_, ?_⟩
        · rw [← hhere]; exact hn
        · rw [← hhere]
        · simp only [Stand.step, hr, if_false]; exact d3
        · rw [← hhere]; simp only [Stand.step, hr, if_false]; rw [d6]; omega
        · simp only [Stand.step, hr, if_false]; exact haft

theorem readBatches_run {X : RdOps χ} {hasNulls : List Bool} {B : Nat} {Shape : Vec → Prop} {P : χ → List ρ → Prop}
    {rowsOf : Vec → List ρ} (D : Delivers X hasNulls B Shape P rowsOf) (fuel k : Nat) : ∀ (br : BatchReader χ) (s : Stand ρ),
    br.At hasNulls P s → ∀ vec, Shape vec → ∃ bs, readBatches X (fuel + 1) k br vec = .ok (bs, (s.run B br.numberOfRows k).2) ∧
      bs.map rowsOf = (s.run B br.numberOfRows k).1 := by
  induction k with
  | zero => intro br s _ vec _; exact ⟨[], rfl, rfl⟩
  | succ k ih =>
    intro br s ha vec hv
    have h := BatchReader.next_spec D fuel br s ha vec hv
    by_cases he : s.done ≥ br.numberOfRows - 1
    · rw [if_pos he] at h
      obtain ⟨vec', h1, h2, h3⟩ := h
      refine ⟨[vec'], ?_, ?_⟩
      · simp only [readBatches, h1, Res.ok_bind, Stand.run]
        rw [if_pos trivial, if_pos he]; rfl
      · simp only [Stand.run]
        rw [if_pos he]; simp [h3]
    · rw [if_neg he] at h
      obtain ⟨vec', br', h1, h2, h3, h4, h5⟩ := h
      by_cases he' : (s.step B).done ≥ br.numberOfRows - 1
      · refine ⟨[vec'], ?_, ?_⟩
        · simp only [readBatches, h1, Res.ok_bind, Stand.run]
          rw [if_pos (by simpa using he'), if_neg he, if_pos he']; rfl
        · simp only [Stand.run]
          rw [if_neg he, if_pos he']; simp [h3]
      · obtain ⟨bs, g1, g2⟩ := ih br' (s.step B) h4 vec' h2
        rw [h5] at g1 g2
        refine ⟨vec' :: bs, ?_, ?_⟩
        · simp only [readBatches, h1, Res.ok_bind, Stand.run]
          rw [if_neg (by simpa using he'), if_neg he, if_neg he', g1]; rfl
        · simp only [Stand.run]
          rw [if_neg he, if_neg he']; simp [h3, g2]

end Goorc
