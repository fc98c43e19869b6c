import Verif.Model.EncScalar
import Verif.Proofs.EncPackage
import Verif.Proofs.EncByte
namespace Goorc

/-- An encoder without state: what it emits for a history. -/
theorem stateless_run (E : Enc Unit) (f : GoVal → Res Bytes)
    (he : ∀ s v, E.encode s v = (f v >>= fun bs => pure ((), bs)))
    (hf : ∀ s, E.flush s = .ok ((), [])) {α : Type} (inj : α → GoVal) (g : α → Bytes)
    (hg : ∀ a, f (inj a) = .ok (g a)) (ops : List (Option α)) :
    E.run () (ops.map fun o => match o with | some a => .encode (inj a) | none => .flush) =
      .ok ((), (ops.filterMap id).flatMap g) := by
  induction ops with
  | nil => rfl
  | cons o ops ih =>
    cases o with
    | none => simp only [List.map_cons, Enc.run, Enc.step, hf, Res.ok_bind, ih]; simp
    | some a =>
      simp only [List.map_cons, Enc.run, Enc.step, he, hg, Res.ok_bind, Res.pure_eq, ih]
      simp

/-- Reading back values one after the other. -/
theorem decodeN_flatMap {α : Type} (d : Dec α) (g : α → Bytes)
    (h : ∀ a rest, d.runBuf (g a ++ rest) = .ok (a, rest)) (vs : List α) (rest : Bytes) :
    (decodeN d vs.length).runBuf (vs.flatMap g ++ rest) = .ok (vs, rest) := by
  induction vs with
  | nil => simp [decodeN]
  | cons v vs ih => simp [decodeN, h, ih]

theorem toNat_or_shl {w : Nat} (x b : BitVec w) (k : Nat) (hx : x.toNat < 2 ^ k)
    (hb : b.toNat * 2 ^ k < 2 ^ w) : (x ||| (b <<< k)).toNat = x.toNat + b.toNat * 2 ^ k := by
  rw [BitVec.toNat_or, BitVec.toNat_shiftLeft, Nat.shiftLeft_eq, Nat.mod_eq_of_lt hb, Nat.or_comm,
    ← Nat.shiftLeft_eq, ← Nat.shiftLeft_add_eq_or_of_lt hx, Nat.add_comm]

theorem be32_putBE32 (v : BitVec 32) (rest : Bytes) : be32 (putBE32 v ++ rest) = .ok v := by
  simp only [putBE32, List.cons_append, be32]
  congr 1
  apply BitVec.eq_of_getLsbD_eq
  intro i hi
  simp only [BitVec.getLsbD_or, BitVec.getLsbD_shiftLeft, BitVec.getLsbD_setWidth, BitVec.getLsbD_ushiftRight]
  by_cases h1 : i < 8
  · simp [hi, h1, show i < 16 by omega, show i < 24 by omega]
  · by_cases h2 : i < 16
    · simp [hi, h1, h2, show i < 24 by omega, show i - 8 < 8 by omega, show 8 + (i - 8) = i by omega, show i - 8 < 32 by omega]
    · by_cases h3 : i < 24
      · simp [hi, h1, h2, h3, show ¬ i - 8 < 8 by omega, show i - 16 < 8 by omega,
          show 16 + (i - 16) = i by omega, show i - 16 < 32 by omega]
      · simp [hi, h1, h2, h3, show ¬ i - 8 < 8 by omega, show ¬ i - 16 < 8 by omega,
          show i - 24 < 8 by omega, show 24 + (i - 24) = i by omega, show i - 24 < 32 by omega]

theorem le64_putLE64 (v : BitVec 64) (rest : Bytes) : le64 (putLE64 v ++ rest) = .ok v := by
  simp only [putLE64, List.cons_append, le64]
  congr 1
  apply BitVec.eq_of_getLsbD_eq
  intro i hi
  simp only [BitVec.getLsbD_or, BitVec.getLsbD_shiftLeft, BitVec.getLsbD_setWidth, BitVec.getLsbD_ushiftRight]
  have h : i / 8 < 8 := by omega
  have key : ∀ k, k < 8 → (decide (i < 64) && !decide (i < 8 * k) && (decide (i - 8 * k < 64) &&
      (decide (i - 8 * k < 8) && v.getLsbD (8 * k + (i - 8 * k))))) = (decide (i / 8 = k) && v.getLsbD i) := by
    intro k hk
    by_cases hik : i / 8 = k
    · simp [hi, show ¬ i < 8 * k by omega, show i - 8 * k < 64 by omega, show i - 8 * k < 8 by omega,
        show 8 * k + (i - 8 * k) = i by omega, hik]
    · by_cases hlt : i < 8 * k
      · simp [hlt, hik]
      · simp [hik, show ¬ i - 8 * k < 8 by omega]
  have k0 : (decide (i < 64) && (decide (i < 8) && v.getLsbD i)) = (decide (i / 8 = 0) && v.getLsbD i) := by
    by_cases h8 : i < 8
    · simp [hi, h8, show i / 8 = 0 by omega]
    · simp [h8]
  have k1 := key 1 (by omega)
  have k2 := key 2 (by omega)
  have k3 := key 3 (by omega)
  have k4 := key 4 (by omega)
  have k5 := key 5 (by omega)
  have k6 := key 6 (by omega)
  have k7 := key 7 (by omega)
  simp only [Nat.reduceMul] at k1 k2 k3 k4 k5 k6 k7
  rw [k0, k1, k2, k3, k4, k5, k6, k7]
  cases v.getLsbD i
  · simp
  · simp; omega

theorem putBE32_length (v : BitVec 32) : (putBE32 v).length = 4 := rfl
theorem putLE64_length (v : BitVec 64) : (putLE64 v).length = 8 := rfl

theorem runBuf_ofRes {α : Type} (r : Res α) (a : α) (h : r = .ok a) (s : Bytes) :
    (Dec.ofRes r).runBuf s = .ok (a, s) := by subst h; rfl

theorem decodeFloat_put (v : BitVec 32) (rest : Bytes) :
    decodeFloat.runBuf (putBE32 v ++ rest) = .ok (v, rest) := by
  simp only [decodeFloat, Dec.runBuf_bind, Dec.runBuf_full_append 4 _ _ (putBE32_length v), Res.ok_bind]
  apply runBuf_ofRes
  have := be32_putBE32 v []
  simpa using this

theorem decodeDouble_put (v : BitVec 64) (rest : Bytes) :
    decodeDouble.runBuf (putLE64 v ++ rest) = .ok (v, rest) := by
  simp only [decodeDouble, Dec.runBuf_bind, Dec.runBuf_full_append 8 _ _ (putLE64_length v), Res.ok_bind]
  apply runBuf_ofRes
  have := le64_putLE64 v []
  simpa using this

theorem varintEncode_i64 (v : U64) : varintEncode (.i64 v) = .ok (uvarintBytes 9 (zigzag v)) := by
  rw [varintEncode, putVarint_eq, putUvarint10]

end Goorc
