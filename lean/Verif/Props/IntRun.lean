import Verif.Proofs.IntRun
/-
C118: equal integers are written in a few bytes.
-/
namespace Goorc
namespace IntRun

/-- The Go value given to `Encode`: an int64 or a uint64. -/
def val (signed : Bool) (v : U64) : GoVal := if signed then .i64 v else .u64 v

/-- The values of which the encoder can write long runs: eight bytes of seven bits. -/
def Seven (signed : Bool) (v : U64) : Prop :=
  if signed then -2 ^ 55 ≤ v.toInt ∧ v.toInt < 2 ^ 55 else v.toNat < 2 ^ 56

theorem val_raw (signed : Bool) (v : U64) : ∃ x, val signed v = toVal signed x ∧ (x.toNat < 2 ^ 56 ↔ Seven signed v) := by
  cases signed with
  | false => exact ⟨v, rfl, Iff.rfl⟩
  | true =>
    refine ⟨zigzag v, by simp [val, toVal, unZigzag_zigzag], ?_⟩
    simp only [Seven, if_true]
    have := zigzag_toNat v
    split at this <;> omega

/-- **C118** `n` equal integers are written exactly if they are at most ten or the value is small enough; with more of a larger value the
encoder panics. -/
theorem int_run_iff (signed p : Bool) (v : U64) (n : Nat) :
    (∃ out, intEnc.encodeFlush (newIntRLV2 signed p) (List.replicate n (val signed v)) = .ok out) ↔ Seven signed v ∨ n ≤ 10 := by
  obtain ⟨x, h1, h2⟩ := val_raw signed v
  rw [h1, ← h2]
  constructor
  · rintro ⟨out, h⟩
    apply Classical.byContradiction
    intro hn
    rw [large_run signed p x (fun h => hn (Or.inl h)) n (by omega)] at h
    cases h
  · intro h
    obtain ⟨out, h, -⟩ := small_run signed p x n h
    exact ⟨out, h⟩

/-- **C118** What is not written is a panic. -/
theorem int_run_panics (signed p : Bool) (v : U64) (n : Nat) (hv : ¬ Seven signed v) (hn : 11 ≤ n) :
    intEnc.encodeFlush (newIntRLV2 signed p) (List.replicate n (val signed v)) = .panic := by
  obtain ⟨x, h1, h2⟩ := val_raw signed v
  rw [h1]
  exact large_run signed p x (fun h => hv (h2.mp h)) n hn

/-- **C118** And then they take at most eleven bytes for every 512 of them, and 26 for the rest. -/
theorem int_run_small (signed p : Bool) (v : U64) (n : Nat) (out : Bytes)
    (h : intEnc.encodeFlush (newIntRLV2 signed p) (List.replicate n (val signed v)) = .ok out) :
    out.length ≤ 11 * (n / 512) + 26 := by
  have hv := (int_run_iff signed p v n).mp ⟨out, h⟩
  obtain ⟨x, h1, h2⟩ := val_raw signed v
  rw [← h2] at hv
  obtain ⟨out', g1, g2⟩ := small_run signed p x n hv
  rw [h1, g1] at h
  obtain rfl := Res.ok.inj h
  exact g2

/-- Three values of 64 bits take 26 bytes. -/
example : (match intEnc.encodeFlush (newIntRLV2 false true) (List.replicate 3 (val false (-1))) with
    | .ok out => decide (out.length = 26) | _ => false) = true := by decide +kernel

/-- Any number of values of 56 bits is written. -/
example : ∃ out, intEnc.encodeFlush (newIntRLV2 false true) (List.replicate 100000 (val false (2 ^ 56 - 1))) = .ok out :=
  (int_run_iff ..).mpr (Or.inl (by simp only [Seven]; decide))

example : ¬ Seven true (2 ^ 55) ∧ Seven true (-2 ^ 55) ∧ ¬ Seven false (2 ^ 56) := by
  simp only [Seven]; decide

end IntRun
end Goorc
