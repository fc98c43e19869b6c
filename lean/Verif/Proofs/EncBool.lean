import Verif.Proofs.EncByte
import Verif.Spec.Bits
namespace Goorc

theorem boolsOfByte_packByte (l : List Bool) (h : l.length ≤ 8) :
    boolsOfByte (packByte l) = l ++ List.replicate (8 - l.length) false := by
  match l, h with
  | [], _ => decide
  | [a], _ => revert a; decide
  | [a, b], _ => revert a b; decide
  | [a, b, c], _ => revert a b c; decide
  | [a, b, c, d], _ => revert a b c d; decide
  | [a, b, c, d, e], _ => revert a b c d e; decide
  | [a, b, c, d, e, f], _ => revert a b c d e f; decide
  | [a, b, c, d, e, f, g], _ => revert a b c d e f g; decide
  | [a, b, c, d, e, f, g, h], _ => revert a b c d e f g h; decide +kernel
  | _ :: _ :: _ :: _ :: _ :: _ :: _ :: _ :: _ :: _, h => simp at h

theorem boolsOfByte_length (b : Byte) : (boolsOfByte b).length = 8 := by simp [boolsOfByte]

theorem packFrom_append (i : Nat) (l : List Bool) (b : Bool) :
    packFrom i (l ++ [b]) = packFrom i l ||| (if b then 1#8 <<< (7 - (i + l.length)) else 0) := by
  induction l generalizing i with
  | nil => simp [packFrom]
  | cons a l ih =>
    simp only [List.cons_append, packFrom, ih, List.length_cons, BitVec.or_assoc]
    congr 4
    omega

theorem packByte_append (l : List Bool) (b : Bool) :
    packByte (l ++ [b]) = packByte l ||| (if b then 1#8 <<< (7 - l.length) else 0) := by
  simp [packByte, packFrom_append]

theorem decodes_bools {s : Bytes} {vs : Bytes} (h : Decodes decodeByteRL s vs) :
    Decodes decodeBools s (vs.flatMap boolsOfByte) := by
  induction h with
  | nil => exact .nil
  | cons h hl _ ih =>
    rw [List.flatMap_append]
    exact .cons (by simp [decodeBools, h]) hl ih

/-- Bytes completed by encoding booleans when `n` (`< 8`) bits are already in the partial byte `v`. -/
def feed : Nat → Byte → List Bool → Bytes × Nat × Byte
  | n, v, [] => ([], n, v)
  | n, v, b :: bs =>
    let v' := if b then v ||| (1#8 <<< (7 - n)) else v
    if n = 7 then
      let r := feed 0 0 bs
      (v' :: r.1, r.2)
    else feed (n + 1) v' bs

theorem BoolEnc.encode_spec (e : BoolEnc) (n : Nat) (hn : n < 8) (hi : e.index = (n : Int) - 1)
    (hw : e.brl.WF) (b : Bool) :
    ∃ e' out pre, e.encode (.bool b) = .ok (e', out) ∧ e'.brl.WF ∧
      e.brl.values ++ (feed n e.value [b]).1 = pre ++ e'.brl.values ∧ Decodes decodeByteRL out pre ∧
      e'.index = ((feed n e.value [b]).2.1 : Int) - 1 ∧ e'.value = (feed n e.value [b]).2.2 ∧
      (feed n e.value [b]).2.1 < 8 ∧
      e'.position = (if e.position ≠ -1 then ((feed n e.value [b]).2.1 : Int) else -1) ∧
      (e.brl.position = e.brl.values.length → e'.brl.position = e'.brl.values.length) ∧
      (e.brl.position = -1 → e'.brl.position = -1) := by
  have hsub : (7 - (e.index + 1)).toNat = 7 - n := by omega
  have hv : (if b = true then e.value ||| 1#8 <<< (7 - (e.index + 1)).toNat else e.value) =
      (if b = true then e.value ||| 1#8 <<< (7 - n) else e.value) := by rw [hsub]
  by_cases h7 : n = 7
  · have hc : e.index + 1 ≥ (maxBoolRunLength : Int) - 1 := by simp [maxBoolRunLength]; omega
    obtain ⟨e1, out, pre, h1, h2, h3, h4, h5⟩ :=
      e.brl.encode_spec hw (if b = true then e.value ||| 1#8 <<< (7 - n) else e.value)
    refine ⟨{ e with brl := e1, index := -1, value := 0,
                     position := if e.position ≠ -1 then 0 else e.position },
      out, pre, ?_, h2, ?_, h4, ?_, ?_, ?_, ?_, ?_, ?_⟩
    · simp only [BoolEnc.encode, hv, hc, if_true, h1, Res.ok_bind, Res.pure_eq]
      rfl
    · simp only [feed, h7, if_true]; rw [← h3, h7]
    · simp [feed, h7]
    · simp [feed, h7]
    · simp [feed, h7]
    · simp only [feed, h7, if_true]; split <;> simp_all
    · intro hp; rw [h5, if_pos (by omega)]
    · intro hp; rw [h5, if_neg (by omega)]
  · have hc : ¬ (e.index + 1 ≥ (maxBoolRunLength : Int) - 1) := by simp [maxBoolRunLength]; omega
    refine ⟨{ e with index := e.index + 1,
                     value := if b = true then e.value ||| 1#8 <<< (7 - n) else e.value,
                     position := if e.position ≠ -1 then e.index + 1 + 1 else e.position },
      [], [], ?_, hw, ?_, .nil, ?_, ?_, ?_, ?_, ?_, ?_⟩
    · simp only [BoolEnc.encode, hv, hc, if_false, Res.ok_bind, Res.pure_eq]
    · simp [feed, h7]
    · simp [feed, h7]; omega
    · simp [feed, h7]
    · simp [feed, h7]; omega
    · simp only [feed, h7, if_false]; split
      · simp; omega
      · simp_all
    · exact id
    · exact id

theorem feed_cons (n : Nat) (v : Byte) (b : Bool) (bs : List Bool) :
    feed n v (b :: bs) =
      ((feed n v [b]).1 ++ (feed (feed n v [b]).2.1 (feed n v [b]).2.2 bs).1,
       (feed (feed n v [b]).2.1 (feed n v [b]).2.2 bs).2) := by
  by_cases h : n = 7 <;> simp [feed, h]

theorem boolEnc_run_encode (e : BoolEnc) (n : Nat) (hn : n < 8) (hi : e.index = (n : Int) - 1)
    (hw : e.brl.WF) (bs : List Bool) :
    ∃ e' out pre, boolEnc.run e (bs.map fun b => .encode (.bool b)) = .ok (e', out) ∧ e'.brl.WF ∧
      e.brl.values ++ (feed n e.value bs).1 = pre ++ e'.brl.values ∧ Decodes decodeByteRL out pre ∧
      e'.index = ((feed n e.value bs).2.1 : Int) - 1 ∧ e'.value = (feed n e.value bs).2.2 ∧
      (feed n e.value bs).2.1 < 8 ∧
      (e.position = n → e'.position = (feed n e.value bs).2.1) ∧
      (e.brl.position = e.brl.values.length → e'.brl.position = e'.brl.values.length) ∧
      (e.brl.position = -1 → e'.brl.position = -1) := by
  induction bs generalizing e n with
  | nil => exact ⟨e, [], [], rfl, hw, by simp [feed], .nil, hi, rfl, hn, id, id, id⟩
  | cons b bs ih =>
    obtain ⟨e1, out1, pre1, h1, h2, h3, h4, h5, h6, h7, h8, h9, h10⟩ := e.encode_spec n hn hi hw b
    obtain ⟨e2, out2, pre2, g1, g2, g3, g4, g5, g6, g7, g8, g9, g10⟩ :=
      ih e1 (feed n e.value [b]).2.1 h7 h5 h2
    rw [h6] at g3 g5 g6 g7 g8
    rw [feed_cons]
    refine ⟨e2, out1 ++ out2, pre1 ++ pre2, ?_, g2, ?_, h4.append g4, g5, g6, g7, ?_, ?_, ?_⟩
    · have : boolEnc.step e (.encode (.bool b)) = .ok (e1, out1) := h1
      simp only [List.map_cons, Enc.run, this, Res.ok_bind, g1, Res.pure_eq]
    · simp only
      rw [← List.append_assoc, h3, List.append_assoc, g3, List.append_assoc]
    · intro hp; exact g8 (by rw [h8, if_pos (by omega)])
    · intro hp; exact g9 (h9 hp)
    · intro hp; exact g10 (h10 hp)

/-- Feeding from a clean partial byte: the bytes completed and the new partial byte are the input. -/
theorem feed_clean (pb bs : List Bool) (h : pb.length < 8) :
    ∃ pb', (feed pb.length (packByte pb) bs).2 = (pb'.length, packByte pb') ∧ pb'.length < 8 ∧
      pb ++ bs = (feed pb.length (packByte pb) bs).1.flatMap boolsOfByte ++ pb' := by
  induction bs generalizing pb with
  | nil => exact ⟨pb, by simp [feed, h]⟩
  | cons b bs ih =>
    have hv : (if b = true then packByte pb ||| 1#8 <<< (7 - pb.length) else packByte pb) =
        packByte (pb ++ [b]) := by
      rw [packByte_append]; cases b <;> simp
    by_cases h7 : pb.length = 7
    · obtain ⟨pb', h1, h2, h3⟩ := ih [] (by simp)
      refine ⟨pb', ?_, h2, ?_⟩
      · rw [h7] at hv; simp only [feed, h7, if_true]; exact h1
      · simp only [feed, h7, if_true]
        rw [h7] at hv
        rw [hv, List.flatMap_cons, boolsOfByte_packByte _ (by simp; omega)]
        simp only [List.length_append, h7, List.length_cons, List.length_nil]
        simp only [List.length_nil, List.nil_append] at h3
        have : packByte [] = 0 := rfl
        rw [this] at h3
        conv => lhs; rw [h3]
        simp
    · obtain ⟨pb', h1, h2, h3⟩ := ih (pb ++ [b]) (by simp; omega)
      simp only [List.length_append, List.length_cons, List.length_nil, Nat.zero_add] at h1 h3
      refine ⟨pb', ?_, h2, ?_⟩
      · simp only [feed, h7, if_false, hv]; exact h1
      · simp only [feed, h7, if_false, hv]; rw [← h3]; simp

theorem BoolEnc.flush_spec (e : BoolEnc) (hw : e.brl.WF) :
    ∃ e' out, e.flush = .ok (e', out) ∧ e'.index = -1 ∧ e'.value = e.value ∧ e'.brl.values = [] ∧
      e'.position = e.position ∧
      Decodes decodeByteRL out (e.brl.values ++ if e.index = -1 then [] else [e.value]) := by
  by_cases hi : e.index = -1
  · obtain ⟨out, h1, h2⟩ := e.brl.flush_spec hw
    refine ⟨{ e with brl := { e.brl with values := [] }, index := -1 }, out, ?_, rfl, rfl, rfl, rfl, ?_⟩
    · simp [BoolEnc.flush, hi, h1]
    · simpa [hi] using h2
  · obtain ⟨e1, out1, pre1, h1, h2, h3, h4, h5⟩ := e.brl.encode_spec hw e.value
    obtain ⟨out2, g1, g2⟩ := e1.flush_spec h2
    refine ⟨{ e with brl := { e1 with values := [] }, index := -1 }, out1 ++ out2, ?_, rfl, rfl, rfl,
      rfl, ?_⟩
    · simp [BoolEnc.flush, hi, h1, g1]
    · simp only [hi, if_false, h3]; exact h4.append g2

end Goorc

namespace Goorc

/-- Bytes handed to the byte encoder by encoding `bs` and flushing, from partial byte `(n, v)`. -/
def fedBytes (n : Nat) (v : Byte) (bs : List Bool) : Bytes :=
  (feed n v bs).1 ++ if (feed n v bs).2.1 = 0 then [] else [(feed n v bs).2.2]

theorem fedBytes_clean (pb bs : List Bool) (h : pb.length < 8) :
    (fedBytes pb.length (packByte pb) bs).flatMap boolsOfByte =
      pb ++ bs ++ padding (pb ++ bs).length ∧
    (feed pb.length (packByte pb) bs).2.2 = packByte (trailing (pb ++ bs)) ∧
    (feed pb.length (packByte pb) bs).2.1 = (pb ++ bs).length % 8 := by
  obtain ⟨pb', h1, h2, h3⟩ := feed_clean pb bs h
  have hl : (pb ++ bs).length = 8 * (feed pb.length (packByte pb) bs).1.length + pb'.length := by
    rw [h3, List.length_append, List.length_flatMap]
    congr 1
    generalize (feed pb.length (packByte pb) bs).1 = l
    induction l with
    | nil => simp
    | cons a l ih => simp [boolsOfByte_length] at ih ⊢; omega
  have hm : (pb ++ bs).length % 8 = pb'.length := by omega
  refine ⟨?_, ?_, ?_⟩
  · unfold fedBytes
    rw [List.flatMap_append, h1]
    conv => rhs; rw [padding, hm, h3]
    rw [List.append_assoc]
    congr 1
    by_cases h0 : pb'.length = 0
    · simp [List.length_eq_zero_iff.mp h0]
    · have : (8 - pb'.length) % 8 = 8 - pb'.length := by omega
      simp [h0, boolsOfByte_packByte _ (Nat.le_of_lt h2), this]
  · rw [h1]
    simp only
    congr 1
    rw [trailing, hm, hl]
    simp only [Nat.add_sub_cancel]
    rw [h3]
    have : (List.flatMap boolsOfByte (feed pb.length (packByte pb) bs).1).length =
        8 * (feed pb.length (packByte pb) bs).1.length := by
      have := hl
      rw [h3] at this
      simp only [List.length_append] at this
      omega
    rw [← this]
    simp
  · rw [h1]; exact hm.symm

/-- Or a stale byte into the first byte. -/
def orFirst (s : Byte) : Bytes → Bytes
  | [] => []
  | b :: bs => (b ||| s) :: bs

theorem feed_or (n : Nat) (v s : Byte) (ys : List Bool) :
    feed n (v ||| s) ys =
      if (feed n v ys).1 = [] then ([], (feed n v ys).2.1, (feed n v ys).2.2 ||| s)
      else (orFirst s (feed n v ys).1, (feed n v ys).2) := by
  induction ys generalizing n v with
  | nil => simp [feed]
  | cons y ys ih =>
    have hv : (if y = true then v ||| s ||| 1#8 <<< (7 - n) else v ||| s) =
        (if y = true then v ||| 1#8 <<< (7 - n) else v) ||| s := by
      cases y
      · simp
      · simp only [if_true]
        rw [BitVec.or_assoc, BitVec.or_comm s, ← BitVec.or_assoc]
    by_cases h7 : n = 7
    · subst h7
      simp only [feed, if_true, hv, orFirst]
      simp
    · simp only [feed, h7, if_false, hv]
      exact ih _ _

theorem feed_ne_nil (n : Nat) (v : Byte) (ys : List Bool) (hn : n < 8) (hy : ys ≠ []) :
    (feed n v ys).1 ≠ [] ∨ (feed n v ys).2.1 ≠ 0 := by
  induction ys generalizing n v with
  | nil => simp at hy
  | cons y ys ih =>
    by_cases h7 : n = 7
    · left; simp [feed, h7]
    · simp only [feed, h7, if_false]
      cases ys with
      | nil => right; simp [feed]
      | cons z zs => exact ih _ _ (by omega) (by simp)

theorem fedBytes_or (s : Byte) (ys : List Bool) :
    fedBytes 0 s ys = orFirst s (fedBytes 0 0 ys) := by
  by_cases hy : ys = []
  · subst hy; simp [fedBytes, feed, orFirst]
  · have h := feed_or 0 0 s ys
    rw [show (0 : Byte) ||| s = s by simp] at h
    unfold fedBytes
    rw [h]
    by_cases hn : (feed 0 0 ys).1 = []
    · have := feed_ne_nil 0 0 ys (by omega) hy
      have hne : (feed 0 0 ys).2.1 ≠ 0 := by
        rcases this with h | h
        · exact absurd hn h
        · exact h
      rw [if_pos hn, hn]
      simp only [List.nil_append]
      rw [if_neg hne, if_neg hne]
      rfl
    · rw [if_neg hn]
      cases hf : (feed 0 0 ys).1 with
      | nil => exact absurd hf hn
      | cons b bs => simp [orFirst]

theorem boolsOfByte_or (b s : Byte) : boolsOfByte (b ||| s) = orBits (boolsOfByte s) (boolsOfByte b) := by
  have key : ∀ k, k ≤ 7 → (((b ||| s) >>> k) &&& 1#8 = 1#8) = ((s >>> k) &&& 1#8 = 1#8 ∨ (b >>> k) &&& 1#8 = 1#8) := by
    intro k _
    have h1 : ∀ x : Byte, (x &&& 1#8 = 1#8) = (x.getLsbD 0 = true) := by
      decide +kernel
    rw [h1, h1, h1]
    simp [BitVec.getLsbD_or, Or.comm]
  simp only [boolsOfByte, List.range, List.range.loop, List.map, orBits]
  have k0 := key 0 (by omega)
  simp only [BitVec.ushiftRight_zero] at k0
  simp [key, k0, Bool.decide_or]

theorem orBits_append_left (s : List Bool) (a b : List Bool) (h : s.length ≤ a.length) :
    orBits s (a ++ b) = orBits s a ++ b := by
  induction s generalizing a with
  | nil => simp [orBits]
  | cons x s ih =>
    cases a with
    | nil => simp at h
    | cons y a => simp [orBits, ih a (by simpa using h)]

theorem orBits_falses (s : List Bool) (k : Nat) (ys : List Bool) (hk : s.length + k ≤ ys.length) :
    orBits (s ++ List.replicate k false) ys = orBits s ys := by
  induction s generalizing ys with
  | nil =>
    induction k generalizing ys with
    | zero => simp
    | succ k ih =>
      cases ys with
      | nil => simp at hk
      | cons y ys =>
        have := ih ys (by simp at hk ⊢; omega)
        simp [List.replicate_succ, orBits] at this ⊢
        simpa using this
  | cons x s ih =>
    cases ys with
    | nil => simp at hk
    | cons y ys => simp [orBits, ih ys (by simp at hk ⊢; omega)]

theorem orFirst_bits (t : List Bool) (bs : Bytes) (ht : t.length ≤ 8) :
    (orFirst (packByte t) bs).flatMap boolsOfByte = orBits t (bs.flatMap boolsOfByte) := by
  cases bs with
  | nil => cases t <;> simp [orFirst, orBits]
  | cons b bs =>
    simp only [orFirst, List.flatMap_cons]
    rw [boolsOfByte_or, boolsOfByte_packByte t ht,
      orBits_falses _ _ _ (by simp [boolsOfByte_length]; omega),
      orBits_append_left _ _ _ (by simp [boolsOfByte_length]; omega)]

/-- Encoding `bs` and flushing, from a state whose partial byte is `(n, value)`. -/
theorem boolEnc_group (e : BoolEnc) (n : Nat) (hn : n < 8) (hi : e.index = (n : Int) - 1)
    (hw : e.brl.WF) (bs : List Bool) :
    ∃ e' out, boolEnc.run e ((bs.map GoVal.bool).map .encode ++ [.flush]) = .ok (e', out) ∧
      e'.index = -1 ∧ e'.value = (feed n e.value bs).2.2 ∧ e'.brl.values = [] ∧
      Decodes decodeByteRL out (e.brl.values ++ fedBytes n e.value bs) := by
  obtain ⟨e1, out1, pre1, h1, h2, h3, h4, h5, h6, h7, -⟩ := boolEnc_run_encode e n hn hi hw bs
  obtain ⟨e2, out2, g1, g2, g3, g4, -, g5⟩ := e1.flush_spec h2
  refine ⟨e2, out1 ++ out2, ?_, g2, by rw [g3, h6], g4, ?_⟩
  · rw [Enc.run_append]
    simp only [List.map_map, Function.comp_def, h1, Res.ok_bind]
    have : boolEnc.step e1 .flush = .ok (e2, out2) := g1
    simp [Enc.run, this]
  · have : e.brl.values ++ fedBytes n e.value bs =
        pre1 ++ (e1.brl.values ++ if e1.index = -1 then [] else [e1.value]) := by
      unfold fedBytes
      rw [← List.append_assoc, h3, List.append_assoc, h6, h5]
      congr 3
      apply propext
      omega
    rw [this]
    exact h4.append g5

end Goorc
