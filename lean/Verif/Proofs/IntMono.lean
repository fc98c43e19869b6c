import Verif.Proofs.IntChunks
import Verif.Props.EncIntBlocks
namespace Goorc

theorem Steps.mono {α : Type} {R S : α → α → Prop} (h : ∀ a b, R a b → S a b) : ∀ {l : List α}, Steps R l → Steps S l
  | [], _ => trivial
  | [_], _ => trivial
  | _ :: b :: l, ⟨h1, h2⟩ => ⟨h _ _ h1, Steps.mono h (l := b :: l) h2⟩

theorem Steps.tail {α : Type} {R : α → α → Prop} {a : α} {l : List α} (h : Steps R (a :: l)) : Steps R l := by
  cases l with
  | nil => trivial
  | cons b l => exact h.2

theorem Steps.drop {α : Type} {R : α → α → Prop} {l : List α} (h : Steps R l) (n : Nat) : Steps R (l.drop n) := by
  induction n generalizing l with
  | zero => simpa using h
  | succ n ih =>
    cases l with
    | nil => simpa using h
    | cons a l => exact ih h.tail

theorem Steps.prefix {α : Type} {R : α → α → Prop} {c l : List α} (h : Steps R l) (hc : c <+: l) : Steps R c := by
  obtain ⟨t, rfl⟩ := hc
  induction c with
  | nil => trivial
  | cons a c ih =>
    cases c with
    | nil => trivial
    | cons b c => exact ⟨h.1, ih h.2⟩

theorem Steps.infix {α : Type} {R : α → α → Prop} {c l : List α} (h : Steps R l) (hc : c <:+: l) : Steps R c := by
  obtain ⟨s, t, rfl⟩ := hc
  have := h.drop s.length
  rw [List.append_assoc, List.drop_left] at this
  exact this.prefix (List.prefix_append _ _)

theorem diffs_length (l : List Int) : (diffs l).length = l.length - 1 := by
  induction l with
  | nil => rfl
  | cons a l ih => cases l <;> simp_all [diffs]

theorem diffs_mem {P : Int → Prop} {l : List Int} (h : Steps (fun a b => P (b - a)) l) : ∀ d ∈ diffs l, P d := by
  induction l with
  | nil => simp [diffs]
  | cons a l ih =>
    cases l with
    | nil => simp [diffs]
    | cons b l =>
      intro d hd
      simp only [diffs, List.mem_cons] at hd
      rcases hd with rfl | hd
      · exact h.1
      · exact ih h.2 d hd

theorem Steps.map {α β : Type} {R : β → β → Prop} (f : α → β) : ∀ {l : List α}, Steps (fun a b => R (f a) (f b)) l →
    Steps R (l.map f)
  | [], _ => trivial
  | [_], _ => trivial
  | _ :: b :: l, ⟨h1, h2⟩ => ⟨h1, Steps.map f (l := b :: l) h2⟩

theorem aligned_small (x : U64) (h : x.toNat < 2 ^ 11) : getAlignedWidth x ≠ 12 := by
  have hn : getBitsWidth x ≤ 11 := (getBitsWidth_le_iff x 11).mpr h
  simp only [getBitsWidth] at hn
  simp only [getAlignedWidth]
  generalize bitsWidthLoop 64 x = n at *
  repeat' split
  all_goals omega

theorem maxAligned_small (ds : List U64) (h : ∀ d ∈ ds, d.toNat < 2 ^ 11) : maxWidth getAlignedWidth ds ≠ 12 := by
  induction ds with
  | nil => simp [maxWidth]
  | cons d ds ih =>
    have h1 := aligned_small d (h d (by simp))
    have h2 := ih fun d hd => h d (by simp [hd])
    simp only [maxWidth]
    omega

/-- All steps up, or all down, by less than 2048. -/
def Climb (signed up : Bool) (a b : U64) : Prop :=
  if up then intOf signed a < intOf signed b ∧ intOf signed b - intOf signed a < 2048
  else intOf signed b < intOf signed a ∧ intOf signed a - intOf signed b < 2048

theorem leadRun_climb (signed up : Bool) (v0 v1 : U64) (h : Climb signed up v0 v1) : v1 ≠ v0 := by
  rintro rfl
  simp only [Climb] at h
  split at h <;> omega

theorem zigzag_small (b : U64) (h1 : -2048 < b.toInt) (h2 : b.toInt < 2048) : (zigzag b).toNat < 2 ^ 56 := by
  rw [BitVec.toInt_eq_toNat_cond] at h1 h2
  have hlt := b.isLt
  by_cases hb : 2 * b.toNat < 2 ^ 64
  · rw [if_pos hb] at h1 h2
    have : b.toNat < 2048 := by omega
    simp only [zigzag]
    have hs : b.sshiftRight 63 = 0 := by
      apply BitVec.eq_of_toInt_eq
      rw [BitVec.toInt_sshiftRight, BitVec.toInt_eq_toNat_cond, if_pos hb]
      rw [Int.shiftRight_eq_div_pow]
      simp
      omega
    rw [hs]
    simp
    omega
  · rw [if_neg hb] at h1 h2
    simp only [zigzag]
    have hs : b.sshiftRight 63 = -1 := by
      apply BitVec.eq_of_toInt_eq
      rw [BitVec.toInt_sshiftRight, BitVec.toInt_eq_toNat_cond, if_neg hb]
      rw [Int.shiftRight_eq_div_pow]
      have : ((-1 : U64)).toInt = -1 := by decide
      rw [this]
      omega
    rw [hs]
    have e1 : (b <<< 1 ^^^ (-1 : U64)) = -1 - b <<< 1 := by
      rw [show (-1 : U64) = BitVec.allOnes 64 from rfl]
      rw [BitVec.xor_allOnes, BitVec.not_eq_neg_add]
      show -b <<< 1 - 1#64 = -1#64 - b <<< 1
      grind
    rw [e1, BitVec.toNat_sub]
    simp
    omega

theorem climb_tryDelta (signed up : Bool) (v0 v1 v2 : U64) (vs : List U64)
    (h : Steps (Climb signed up) (v0 :: v1 :: v2 :: vs)) :
    ∃ dv, tryDelta signed (v0 :: v1 :: v2 :: vs) = some dv ∧ -2048 < dv.base.toInt ∧ dv.base.toInt < 2048 ∧
      dv.deltas.length + 2 = (v0 :: v1 :: v2 :: vs).length ∧ ∀ d ∈ dv.deltas, 0 < d.toNat ∧ d.toNat < 2048 := by
  obtain ⟨h01, h12⟩ := h
  cases up with
  | true =>
    have h01' : intOf signed v0 < intOf signed v1 ∧ intOf signed v1 - intOf signed v0 < 2048 := by simpa [Climb] using h01
    obtain ⟨dv, d1, d2, d3⟩ := tryDelta_up signed v0 v1 v2 vs h01'.1 (by omega)
      (h12.mono fun a b hab => by simp only [Climb, if_true] at hab; omega)
    have hall := diffs_mem (P := fun d => 0 < d ∧ d < 2048)
      (Steps.map (intOf signed) (h12.mono fun a b hab => by simp only [Climb, if_true] at hab; omega))
    rw [← d3] at hall
    refine ⟨dv, d1, by omega, by omega, ?_, fun d hd => ?_⟩
    · have := congrArg List.length d3
      rw [diffs_length] at this
      simp at this ⊢
      omega
    · have := hall (d.toNat : Int) (List.mem_map.mpr ⟨d, hd, rfl⟩)
      omega
  | false =>
    have h01' : intOf signed v1 < intOf signed v0 ∧ intOf signed v0 - intOf signed v1 < 2048 := by simpa [Climb] using h01
    obtain ⟨dv, d1, d2, d3⟩ := tryDelta_down signed v0 v1 v2 vs h01'.1 (by omega)
      (h12.mono fun a b hab => by simp only [Climb, Bool.false_eq_true, if_false] at hab; omega)
    have hall := diffs_mem (P := fun d => -2048 < d ∧ d < 0)
      (Steps.map (intOf signed) (h12.mono fun a b hab => by simp only [Climb, Bool.false_eq_true, if_false] at hab; omega))
    rw [← d3] at hall
    refine ⟨dv, d1, by omega, by omega, ?_, fun d hd => ?_⟩
    · have := congrArg List.length d3
      rw [diffs_length] at this
      simp at this ⊢
      omega
    · have := hall (-(d.toNat : Int)) (List.mem_map.mpr ⟨d, hd, rfl⟩)
      omega

theorem climb_step (signed up toEnd : Bool) (c : List U64) (h3 : 3 ≤ c.length) (h512 : c.length ≤ 512)
    (h : Steps (Climb signed up) c) (hx : (c.headD 0).toNat < 2 ^ 56) :
    ∃ o, writeStep signed toEnd c = .ok (o, []) ∧ Decodes (decodeRaw signed) o c := by
  match c, h3 with
  | v0 :: v1 :: v2 :: vs, _ =>
    obtain ⟨dv, d1, d2, d3, d4, d5⟩ := climb_tryDelta signed up v0 v1 v2 vs h
    have hd : dv.deltas ≠ [] := by rintro hd; rw [hd] at d4; simp at d4
    obtain ⟨iff, hdec⟩ := delta_roundtrip signed _ dv d1 (by omega)
    obtain ⟨out, ho⟩ := iff.mpr ⟨hx, zigzag_small _ d2 d3,
      (by
        obtain ⟨d, l, hl⟩ := List.exists_cons_of_ne_nil hd
        refine ⟨d, by simp [hl], fun h0 => ?_⟩
        have := d5 d (by simp [hl])
        simp [h0] at this),
      maxAligned_small _ fun d hd => (d5 d hd).2⟩
    obtain ⟨first, f1, f2⟩ := Res.bind_ok_inv ho
    obtain ⟨-, -, -, -, -, hlen, -⟩ := tryDelta_spec signed _ dv d1
    refine ⟨out, ?_, decodes_raw_single fun tail => ?_⟩
    · have hne := leadRun_climb signed up v0 v1 h.1
      have hr : getRepeats (v0 :: v1 :: v2 :: vs) = .ok 1 := by
        simp [getRepeats, countEq, hne]
      have hlen' : dv.length.toNat = (v0 :: v1 :: v2 :: vs).length := by
        rw [hlen, ← d4, BitVec.toNat_ofNat, Nat.mod_eq_of_lt (by omega)]
      simp only [writeStep, hr, Res.ok_bind]
      rw [if_neg (by omega), d1]
      simp only [f1, f2, Res.ok_bind, Res.pure_eq, hlen', List.drop_length]
      simp
    · rw [hdec out ho tail, d4, List.take_length]

/-- Direct block for what is left. -/
theorem short_rest (signed : Bool) (c : List U64) (h : c ≠ []) (h3 : c.length ≤ 3) (hz : ∃ v ∈ c, v ≠ 0) :
    ∃ o, intWrite signed true c = .ok (o, []) ∧ Decodes (decodeRaw signed) o c := by
  obtain ⟨out, ho⟩ := writeDirect_ok c
  refine ⟨out, ?_, decodes_raw_single fun tail => ?_⟩
  · simp only [intWrite]
    rw [if_pos h3, ho]; rfl
  · exact direct_block signed c (List.length_pos_iff.mpr h) (by omega) hz out ho tail

end Goorc
