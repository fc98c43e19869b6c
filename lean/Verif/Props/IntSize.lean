import Verif.Proofs.IntSize
/-
C116: how long encoded integers can get.
-/
namespace Goorc
namespace IntSize

/-- How many values a history of calls encodes. -/
def encodes : List EncOp → Nat
  | [] => 0
  | .encode _ :: ops => encodes ops + 1
  | .flush :: ops => encodes ops

theorem run_size {signed : Bool} (ops : List EncOp) : ∀ (e e' : IntEnc) (out : Bytes), e.signed = signed → Pending signed e.values →
    intEnc.run e ops = .ok (e', out) →
    out.length + cost signed * e'.values.length ≤ cost signed * (e.values.length + encodes ops) := by
  induction ops with
  | nil =>
    intro e e' out hs hp h
    simp only [Enc.run] at h
    obtain ⟨rfl, rfl⟩ := Prod.mk.inj (Res.ok.inj h)
    simp [encodes]
  | cons op ops ih =>
    intro e e' out hs hp h
    simp only [Enc.run] at h
    obtain ⟨⟨e1, o1⟩, h1, h⟩ := Res.bind_eq_ok.mp h
    obtain ⟨⟨e2, o2⟩, h2, h⟩ := Res.bind_eq_ok.mp h
    obtain ⟨rfl, rfl⟩ := Prod.mk.inj (Res.ok.inj h)
    subst hs
    cases op with
    | encode v =>
      obtain ⟨g1, g2, g3⟩ := encode_size hp (show e.encode v = .ok (e1, o1) from h1)
      have := ih e1 e2 o2 g2 g3 h2
      simp only [List.length_append, encodes, Nat.mul_add] at *
      omega
    | flush =>
      obtain ⟨g1, g2, g3⟩ := flush_size hp (show e.flush = .ok (e1, o1) from h1)
      have := ih e1 e2 o2 g2 (by rw [g3]; exact Or.inl (by simp)) h2
      rw [g3] at this
      simp only [List.length_append, encodes, Nat.mul_add, List.length_nil] at *
      omega

/-- **C116** Whatever is encoded and whenever it is flushed, an encoder of unsigned integers writes at most ten bytes for each value
given to it, and one of signed integers at most twelve. The values it still holds are paid for too. -/
theorem int_growth (signed p : Bool) (ops : List EncOp) (e : IntEnc) (out : Bytes)
    (h : intEnc.run (newIntRLV2 signed p) ops = .ok (e, out)) :
    out.length + (if signed then 12 else 10) * e.values.length ≤ (if signed then 12 else 10) * encodes ops := by
  have := run_size ops (newIntRLV2 signed p) e out rfl (Or.inl (by simp [newIntRLV2])) h
  cases signed <;> simpa [newIntRLV2, cost] using this

/-- Encode one value and flush, `n` times over. -/
def oneByOne (v : GoVal) : Nat → List EncOp
  | 0 => []
  | n + 1 => .encode v :: .flush :: oneByOne v n

theorem encodes_oneByOne (v : GoVal) (n : Nat) : encodes (oneByOne v n) = n := by
  induction n with
  | zero => rfl
  | succ n ih => simp [oneByOne, encodes, ih]

/-- **C116** Ten is reached, for any number of values. -/
theorem int_growth_unsigned_sharp (p : Bool) (n : Nat) : ∃ ops e out,
    encodes ops = n ∧ intEnc.run (newIntRLV2 false p) ops = .ok (e, out) ∧ out.length = 10 * n := by
  refine ⟨oneByOne (.u64 18446744073709551615#64) n, ?_⟩
  suffices h : ∀ e : IntEnc, e.signed = false → e.values = [] →
      ∃ e' out, intEnc.run e (oneByOne (.u64 18446744073709551615#64) n) = .ok (e', out) ∧ out.length = 10 * n by
    obtain ⟨e', out, h1, h2⟩ := h (newIntRLV2 false p) rfl rfl
    exact ⟨e', out, encodes_oneByOne _ _, h1, h2⟩
  induction n with
  | zero => intro e _ _; exact ⟨e, [], rfl, rfl⟩
  | succ n ih =>
    intro e hs hv
    obtain ⟨o, ho, hl⟩ : ∃ o, writeDirect [18446744073709551615#64] = .ok o ∧ o.length = 10 :=
      ⟨[0x7e, 0x00, 0xff, 0xff, 0xff, 0xff, 0xff, 0xff, 0xff, 0xff], by decide +kernel, rfl⟩
    have hw : intWrite false true [18446744073709551615#64] = .ok (o, []) := by
      simp only [intWrite, List.length_singleton, if_pos (show 1 ≤ 3 by omega), ho, Res.ok_bind, Res.pure_eq]
    obtain ⟨sg, pos, vals⟩ := e
    simp only at hs hv
    subst hs hv
    obtain ⟨e', out, h1, h2⟩ := ih ⟨false, if pos = -1 then pos else 1, []⟩ rfl rfl
    refine ⟨e', o ++ out, ?_, by rw [List.length_append, hl, h2]; omega⟩
    simp only [intEnc] at h1
    simp [oneByOne, Enc.run, Enc.step, intEnc, IntEnc.encode, IntEnc.flush, IntEnc.rawValue, maxIntRunLength, hw, h1]

/-- **C116** Signed values can take more than ten bytes each: four of them take forty-one, in a patched block. -/
theorem int_growth_signed_more : ∃ vs out, intEnc.encodeFlush (newIntRLV2 true false) vs = .ok out ∧
    vs.length = 4 ∧ out.length = 41 := by
  obtain ⟨vs, hvs⟩ : ∃ vs : List GoVal, vs = ([-(2^62) + 2^55 + 1, -(2^62), -(2^62) + 3 * 2^54, -(2^62) + 2^60].map
      fun i : Int => .i64 (BitVec.ofInt 64 i)) := ⟨_, rfl⟩
  have h4 : vs.length = 4 := by rw [hvs]; rfl
  have : (match intEnc.encodeFlush (newIntRLV2 true false) vs with | .ok out => decide (out.length = 41) | _ => false) = true := by
    rw [hvs]; decide +kernel
  refine ⟨vs, ?_⟩
  cases hx : intEnc.encodeFlush (newIntRLV2 true false) vs with
  | ok out => rw [hx] at this; exact ⟨out, rfl, h4, by simpa using this⟩
  | err => rw [hx] at this; simp at this
  | panic => rw [hx] at this; simp at this
  | hang => rw [hx] at this; simp at this

/-- A history that meets the hypothesis: two groups of values, the second not flushed. -/
example : (match intEnc.run (newIntRLV2 false true) [.encode (.u64 7), .encode (.u64 9), .flush, .encode (.u64 1)] with
    | .ok (e, out) => decide (out.length = 3 ∧ e.values = [1]) | _ => false) = true := by decide +kernel

end IntSize
end Goorc
