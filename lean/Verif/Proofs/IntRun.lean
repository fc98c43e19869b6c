import Verif.Proofs.IntSize
import Verif.Proofs.IntChunks
/-
The bytes written for equal integers.
-/
namespace Goorc
namespace IntRun

theorem replicate_split {α : Type} (a b : Nat) (x : α) : List.replicate (a + b) x = List.replicate a x ++ List.replicate b x := by
  rw [List.replicate_append_replicate]

theorem repeats (n : Nat) (x : U64) (h : 1 ≤ n) :
    getRepeats (List.replicate n x) = .ok n ∧ (List.replicate n x).headD 0 = x := by
  have e : List.replicate n x = x :: List.replicate (n - 1) x := by
    rw [← List.replicate_succ]; congr 1; omega
  rw [e]
  exact ⟨by simp only [getRepeats, countEq_replicate]; congr 1; omega, rfl⟩

theorem fixed_size {first out : Bytes} {l : BitVec 16} (hf : first.length ≤ 8) (h : writeDelta first 0 l [] = .ok out) :
    out.length ≤ 11 := by
  simp only [writeDelta] at h
  obtain ⟨c, -, h⟩ := Res.bind_eq_ok.mp h
  obtain ⟨db, hdb, h⟩ := Res.bind_eq_ok.mp h
  obtain ⟨body, hb, h⟩ := Res.bind_eq_ok.mp h
  obtain rfl := Res.ok.inj h
  have h1 : db = [0] := by
    have : putVarint 8 0 = .ok [0] := by decide
    rw [this] at hdb
    exact (Res.ok.inj hdb).symm
  have h2 : body = [] := by
    simp only [packDeltas, if_true] at hb
    exact (Res.ok.inj hb).symm
  rw [h1, h2]
  simp only [List.length_append, IntSize.header2_size, List.length_cons, List.length_nil]
  omega

theorem long_write (signed toEnd : Bool) (x : U64) (hx : x.toNat < 2 ^ 56) (n : Nat) (h : 11 ≤ n) (h' : n ≤ 512) :
    ∃ o, intWrite signed toEnd (List.replicate n x) = .ok (o, []) ∧ o.length ≤ 11 := by
  obtain ⟨first, out, g1, g2, -⟩ := fixedDelta_block signed x n (by omega) h' hx []
  obtain ⟨r1, r2⟩ := repeats n x (by omega)
  refine ⟨out, intWrite_one signed toEnd _ (by rw [List.length_replicate]; omega) out ?_, fixed_size (IntSize.firstBytes_size g1) g2⟩
  simp only [writeStep, r1, Res.ok_bind, r2]
  rw [if_pos (by omega), if_neg (by omega), g1]
  simp only [Res.ok_bind, g2, Res.pure_eq]
  simp

theorem long_panics (signed toEnd : Bool) (x : U64) (hx : ¬ x.toNat < 2 ^ 56) (n : Nat) (h : 11 ≤ n) :
    intWrite signed toEnd (List.replicate n x) = .panic := by
  obtain ⟨r1, r2⟩ := repeats n x (by omega)
  have hs : ∀ b, writeStep signed b (List.replicate n x) = .panic := by
    intro b
    simp only [writeStep, r1, Res.ok_bind, r2]
    rw [if_pos (by omega), if_neg (by omega), firstBytes_eq, putUvarint8, if_neg hx]
    rfl
  simp only [intWrite]
  rw [if_neg (by rw [List.length_replicate]; omega)]
  cases toEnd with
  | false => simpa using hs false
  | true =>
    rw [if_pos rfl, List.length_replicate]
    obtain ⟨m, rfl⟩ : ∃ m, n = m + 1 := ⟨n - 1, by omega⟩
    have := hs true
    rw [List.replicate_succ] at this ⊢
    simp only [writeLoop, this]
    rfl

theorem rest_write (signed : Bool) (x : U64) (m : Nat) (h0 : 1 ≤ m) (h' : m ≤ 512) (h : x.toNat < 2 ^ 56 ∨ m ≤ 10) :
    ∃ o, intWrite signed true (List.replicate m x) = .ok (o, []) ∧ o.length ≤ 26 := by
  by_cases h11 : 11 ≤ m
  · obtain ⟨o, h1, h2⟩ := long_write signed true x (by omega) m h11 h'
    exact ⟨o, h1, by omega⟩
  · by_cases h3 : m ≤ 3
    · obtain ⟨o, ho⟩ := writeDirect_ok (List.replicate m x)
      have := IntSize.direct_size ho
      rw [List.length_replicate] at this
      refine ⟨o, ?_, by omega⟩
      simp only [intWrite]
      rw [if_pos (by simpa using h3), ho]
      rfl
    · have h1 := writeStep_const_short signed true x m (by omega) (by omega)
      have := IntSize.short_size (m - 3) x
      exact ⟨_, intWrite_one signed true _ (by rw [List.length_replicate]; omega) _ h1, by omega⟩

/-- The blocks of 512 values. -/
theorem run_blocks (signed : Bool) (x : U64) (hx : x.toNat < 2 ^ 56) (m : Nat) (hm : m < 512) (k : Nat) : ∀ e : IntEnc, e.signed = signed → e.values = [] →
    ∃ e' out, intEnc.run e (((List.replicate (k * 512 + m) x).map (toVal signed)).map .encode) = .ok (e', out) ∧ e'.signed = signed ∧
      e'.values = List.replicate m x ∧ out.length ≤ 11 * k := by
  induction k with
  | zero =>
    intro e hs hv
    obtain ⟨e', h1, h2, h3⟩ := encode_store e (List.replicate m x) (by rw [hv, List.length_replicate]; simpa using hm)
    rw [hs] at h1 h3
    refine ⟨e', [], ?_, h3, by rw [h2, hv]; rfl, by simp⟩
    rw [Nat.zero_mul, Nat.zero_add]
    exact h1
  | succ k ih =>
    intro e hs hv
    obtain ⟨e1, h1, h2, h3⟩ := encode_store e (List.replicate 511 x) (by rw [hv, List.length_replicate]; simp)
    rw [hv, List.nil_append] at h2
    obtain ⟨o, ho, hol⟩ := long_write signed false x hx 512 (by omega) (by omega)
    obtain ⟨e2, g1, g2, g3⟩ := encode_fill e1 x o (by rw [h2, List.length_replicate]) (by
      rw [h2, h3, hs, ← List.replicate_succ']; exact ho)
    rw [hs] at h1 h3
    rw [h3] at g1 g3
    obtain ⟨e', out, i1, i2, i3, i4⟩ := ih e2 g3 g2
    refine ⟨e', o ++ out, ?_, i2, i3, by rw [List.length_append]; omega⟩
    rw [show (k + 1) * 512 + m = 511 + (1 + (k * 512 + m)) by omega, replicate_split, replicate_split, List.map_append,
      List.map_append, List.map_append, List.map_append, Enc.run_append, h1]
    simp only [Res.ok_bind, List.replicate_one, List.map_cons, List.map_nil, List.cons_append, List.nil_append, Enc.run, g1, i1, Res.pure_eq]

theorem small_run (signed p : Bool) (x : U64) (n : Nat) (h : x.toNat < 2 ^ 56 ∨ n ≤ 10) :
    ∃ out, intEnc.encodeFlush (newIntRLV2 signed p) (List.replicate n (toVal signed x)) = .ok out ∧ out.length ≤ 11 * (n / 512) + 26 := by
  obtain ⟨e', o1, h1, h2, h3, h4⟩ : ∃ e' out, intEnc.run (newIntRLV2 signed p) (((List.replicate n x).map (toVal signed)).map .encode) = .ok (e', out) ∧
      e'.signed = signed ∧ e'.values = List.replicate (n % 512) x ∧ out.length ≤ 11 * (n / 512) := by
    by_cases hx : x.toNat < 2 ^ 56
    · have := run_blocks signed x hx (n % 512) (Nat.mod_lt _ (by omega)) (n / 512) (newIntRLV2 signed p) rfl rfl
      rwa [show n / 512 * 512 + n % 512 = n by omega] at this
    · obtain ⟨e', h1, h2, h3⟩ := encode_store (newIntRLV2 signed p) (List.replicate n x) (by rw [List.length_replicate]; simp [newIntRLV2]; omega)
      exact ⟨e', [], h1, h3, by rw [h2, show n % 512 = n by omega]; rfl, by simp⟩
  rw [List.map_replicate] at h1
  by_cases h0 : n % 512 = 0
  · refine ⟨o1, ?_, by omega⟩
    have hf : intEnc.step e' .flush = .ok (e', []) := by
      simp only [Enc.step, intEnc, IntEnc.flush, h3, h0, List.replicate_zero, if_true]
    simp only [Enc.encodeFlush, Enc.run_append, h1, Res.ok_bind, Enc.run, hf, Res.pure_eq, List.append_nil]
  · obtain ⟨o, k1, k2⟩ := rest_write signed x (n % 512) (by omega) (by omega) (by omega)
    refine ⟨o1 ++ o, ?_, by rw [List.length_append]; omega⟩
    have hf : intEnc.step e' .flush = .ok ({ e' with values := [] }, o) := by
      have hne : List.replicate (n % 512) x ≠ [] := by simp; omega
      simp only [Enc.step, intEnc, IntEnc.flush, h3, if_neg hne, h2, k1, Res.ok_bind, Res.pure_eq]
    simp only [Enc.encodeFlush, Enc.run_append, h1, Res.ok_bind, Enc.run, hf, Res.pure_eq, List.append_nil]

theorem large_run (signed p : Bool) (x : U64) (hx : ¬ x.toNat < 2 ^ 56) (n : Nat) (h : 11 ≤ n) :
    intEnc.encodeFlush (newIntRLV2 signed p) (List.replicate n (toVal signed x)) = .panic := by
  by_cases h5 : n < 512
  · obtain ⟨e', h1, h2, h3⟩ := encode_store (newIntRLV2 signed p) (List.replicate n x) (by rw [List.length_replicate]; simp [newIntRLV2]; omega)
    have hv : e'.values = List.replicate n x := by rw [h2]; rfl
    have hs : e'.signed = signed := h3
    rw [List.map_replicate] at h1
    have hf : intEnc.step e' .flush = .panic := by
      have hne : List.replicate n x ≠ [] := by simp; omega
      simp only [Enc.step, intEnc, IntEnc.flush, hv, if_neg hne, hs, long_panics signed true x hx n h]
      rfl
    have h1' : intEnc.run (newIntRLV2 signed p) ((List.replicate n (toVal signed x)).map .encode) = .ok (e', []) := h1
    simp only [Enc.encodeFlush, Enc.run_append, h1', Res.ok_bind, Enc.run, hf]
    rfl
  · obtain ⟨e1, h1, h2, h3⟩ := encode_store (newIntRLV2 signed p) (List.replicate 511 x) (by rw [List.length_replicate]; simp [newIntRLV2])
    have hv : e1.values = List.replicate 511 x := by rw [h2]; rfl
    have hs : e1.signed = signed := h3
    have h1' : intEnc.run (newIntRLV2 signed p) ((List.replicate 511 (toVal signed x)).map .encode) = .ok (e1, []) := by
      rw [List.map_replicate] at h1; exact h1
    have hp : intEnc.step e1 (.encode (toVal signed x)) = .panic := by
      simp only [Enc.step, intEnc, IntEnc.encode, hs, rawValue_toVal, Res.ok_bind, hv, ← List.replicate_succ', List.length_replicate, maxIntRunLength]
      rw [if_pos (by omega), long_panics signed false x hx 512 (by omega)]
      rfl
    simp only [Enc.encodeFlush]
    rw [show n = 511 + (1 + (n - 512)) by omega, replicate_split, replicate_split, List.map_append, List.map_append, List.append_assoc,
      Enc.run_append, h1']
    simp only [Res.ok_bind, List.replicate_one, List.map_cons, List.map_nil, List.cons_append, List.nil_append, Enc.run, hp]
    rfl

end IntRun
end Goorc
