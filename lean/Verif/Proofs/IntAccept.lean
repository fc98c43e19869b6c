import Verif.Proofs.IntHistory
namespace Goorc

/-- Difference of two stored values as the delta code computes it. -/
def rawDiff (signed : Bool) (a b : U64) : U64 := if signed then unZigzag b - unZigzag a else b - a

theorem rawDiff_toInt (signed : Bool) (a b : U64) :
    (rawDiff signed a b).toInt = (intOf signed b - intOf signed a).bmod (2 ^ 64) := by
  cases signed
  · simp only [rawDiff, intOf, Bool.false_eq_true, if_false]
    rw [BitVec.toInt_sub, BitVec.toInt_eq_toNat_bmod, BitVec.toInt_eq_toNat_bmod]
    simp
  · simp only [rawDiff, intOf, if_true, BitVec.toInt_sub]

theorem bmod_small (x : Int) (h1 : -(2 ^ 63) ≤ x) (h2 : x < 2 ^ 63) : x.bmod (2 ^ 64) = x := by
  apply Int.bmod_eq_of_le <;> omega

theorem rawDiff_toNat (signed : Bool) (a b : U64) (h : intOf signed a ≤ intOf signed b) :
    ((rawDiff signed a b).toNat : Int) = intOf signed b - intOf signed a := by
  cases signed
  · simp only [rawDiff, intOf, Bool.false_eq_true, if_false] at h ⊢
    rw [BitVec.toNat_sub]
    have := a.isLt; have := b.isLt
    omega
  · simp only [rawDiff, intOf, if_true] at h ⊢
    rw [BitVec.toNat_sub]
    have e1 := BitVec.toInt_eq_toNat_cond (unZigzag a)
    have e2 := BitVec.toInt_eq_toNat_cond (unZigzag b)
    have := (unZigzag a).isLt; have := (unZigzag b).isLt
    split at e1 <;> split at e2 <;> omega

theorem collectDeltas_up (signed : Bool) (prev v : U64) (vs : List U64) :
    collectDeltas signed true prev (v :: vs) =
      if intOf signed prev ≤ intOf signed v then rawDiff signed prev v :: collectDeltas signed true v vs else [] := by
  cases signed <;> simp [collectDeltas, intOf, rawDiff]

theorem collectDeltas_down (signed : Bool) (prev v : U64) (vs : List U64) :
    collectDeltas signed false prev (v :: vs) =
      if intOf signed v < intOf signed prev then rawDiff signed v prev :: collectDeltas signed false v vs else [] := by
  cases signed <;> simp [collectDeltas, intOf, rawDiff]

theorem collectDeltas_up_all (signed : Bool) (prev : U64) (vs : List U64)
    (h : Steps (fun a b => intOf signed a ≤ intOf signed b) (prev :: vs)) :
    (collectDeltas signed true prev vs).map (fun d => (d.toNat : Int)) = diffs ((prev :: vs).map (intOf signed)) := by
  induction vs generalizing prev with
  | nil => rfl
  | cons v vs ih =>
    obtain ⟨h1, h2⟩ := h
    rw [collectDeltas_up, if_pos h1]
    have := ih v h2
    simp only [List.map_cons, diffs] at this ⊢
    rw [this, rawDiff_toNat signed prev v h1]

theorem collectDeltas_down_all (signed : Bool) (prev : U64) (vs : List U64)
    (h : Steps (fun a b => intOf signed b < intOf signed a) (prev :: vs)) :
    (collectDeltas signed false prev vs).map (fun d => -(d.toNat : Int)) = diffs ((prev :: vs).map (intOf signed)) := by
  induction vs generalizing prev with
  | nil => rfl
  | cons v vs ih =>
    obtain ⟨h1, h2⟩ := h
    rw [collectDeltas_down, if_pos h1]
    have := ih v h2
    simp only [List.map_cons, diffs] at this ⊢
    rw [this, rawDiff_toNat signed v prev (by omega)]
    congr 1; omega

theorem tryDelta_eq (signed : Bool) (v0 v1 v2 : U64) (vs : List U64) (hne : v0 ≠ v1) :
    tryDelta signed (v0 :: v1 :: v2 :: vs) =
      if 0 < (rawDiff signed v0 v1).toInt then
        (if intOf signed v1 ≤ intOf signed v2 then
          some ⟨rawDiff signed v0 v1, BitVec.ofNat 16 (3 + (collectDeltas signed true v2 vs).length),
            rawDiff signed v1 v2 :: collectDeltas signed true v2 vs⟩ else none)
      else
        (if intOf signed v2 < intOf signed v1 then
          some ⟨rawDiff signed v0 v1,
            BitVec.ofNat 16 (3 + (collectDeltas signed (decide ((rawDiff signed v0 v1).toInt ≥ 0)) v2 vs).length),
            rawDiff signed v2 v1 :: collectDeltas signed (decide ((rawDiff signed v0 v1).toInt ≥ 0)) v2 vs⟩ else none) := by
  cases signed
  · have hb : (if v0.toNat < v1.toNat then v1 - v0 else -(v0 - v1)) = v1 - v0 := by
      split
      · rfl
      · grind
    simp only [tryDelta, if_neg hne, Bool.false_eq_true, if_false, rawDiff, intOf, hb]
    by_cases hp : 0 < (v1 - v0).toInt
    · have hp' : (v1 - v0).toInt ≥ 0 := by omega
      simp only [gt_iff_lt, hp, if_true, ge_iff_le, Int.ofNat_le, hp', decide_true]
      by_cases hc : v1.toNat ≤ v2.toNat <;> simp [hc]
    · simp only [gt_iff_lt, hp, if_false, Int.ofNat_lt]
      by_cases hc : v2.toNat < v1.toNat <;> simp [hc]
  · simp only [tryDelta, if_neg hne, if_true, rawDiff, intOf]
    by_cases hp : 0 < (unZigzag v1 - unZigzag v0).toInt
    · have hp' : (unZigzag v1 - unZigzag v0).toInt ≥ 0 := by omega
      simp only [gt_iff_lt, hp, if_true, ge_iff_le, hp', decide_true]
      by_cases hc : (unZigzag v1).toInt ≤ (unZigzag v2).toInt <;> simp [hc]
    · simp only [gt_iff_lt, hp, if_false, ge_iff_le]
      by_cases hc : (unZigzag v1).toInt ≤ (unZigzag v2).toInt
      · have : ¬ ((unZigzag v2).toInt < (unZigzag v1).toInt) := by omega
        simp [hc, this]
      · have : ((unZigzag v2).toInt < (unZigzag v1).toInt) := by omega
        simp [hc, this]

theorem tryDelta_up (signed : Bool) (v0 v1 v2 : U64) (vs : List U64)
    (h01 : intOf signed v0 < intOf signed v1) (hsmall : intOf signed v1 - intOf signed v0 < 2 ^ 63)
    (hmono : Steps (fun a b => intOf signed a ≤ intOf signed b) (v1 :: v2 :: vs)) :
    ∃ dv, tryDelta signed (v0 :: v1 :: v2 :: vs) = some dv ∧
      dv.base.toInt = intOf signed v1 - intOf signed v0 ∧
      dv.deltas.map (fun d => (d.toNat : Int)) = diffs ((v1 :: v2 :: vs).map (intOf signed)) := by
  have hne : v0 ≠ v1 := fun h => by subst h; omega
  have hb : (rawDiff signed v0 v1).toInt = intOf signed v1 - intOf signed v0 := by
    rw [rawDiff_toInt, bmod_small _ (by omega) hsmall]
  refine ⟨_, by rw [tryDelta_eq signed v0 v1 v2 vs hne, if_pos (by omega), if_pos hmono.1], hb, ?_⟩
  have := collectDeltas_up_all signed v1 (v2 :: vs) hmono
  rw [collectDeltas_up, if_pos hmono.1] at this
  exact this

theorem tryDelta_down (signed : Bool) (v0 v1 v2 : U64) (vs : List U64)
    (h01 : intOf signed v1 < intOf signed v0) (hsmall : intOf signed v0 - intOf signed v1 ≤ 2 ^ 63)
    (hmono : Steps (fun a b => intOf signed b < intOf signed a) (v1 :: v2 :: vs)) :
    ∃ dv, tryDelta signed (v0 :: v1 :: v2 :: vs) = some dv ∧
      dv.base.toInt = intOf signed v1 - intOf signed v0 ∧
      dv.deltas.map (fun d => -(d.toNat : Int)) = diffs ((v1 :: v2 :: vs).map (intOf signed)) := by
  have hne : v0 ≠ v1 := fun h => by subst h; omega
  have hb : (rawDiff signed v0 v1).toInt = intOf signed v1 - intOf signed v0 := by
    rw [rawDiff_toInt, bmod_small _ (by omega) (by omega)]
  have hnn : ¬ ((rawDiff signed v0 v1).toInt ≥ 0) := by omega
  refine ⟨_, by rw [tryDelta_eq signed v0 v1 v2 vs hne, if_neg (by omega), if_pos hmono.1], hb, ?_⟩
  have := collectDeltas_down_all signed v1 (v2 :: vs) hmono
  rw [collectDeltas_down, if_pos hmono.1] at this
  simp only [hnn, decide_false]
  exact this

end Goorc
