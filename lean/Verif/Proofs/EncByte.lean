import Verif.Proofs.Dec
import Verif.Model.Encoder
namespace Goorc

theorem extendRun_spec (v0 : Byte) (t : Bytes) (j : Nat) :
    ∃ k t', t = List.replicate k v0 ++ t' ∧ extendRun v0 j t = j + k ∧ k ≤ t.length ∧
      (∀ x xs, t' = x :: xs → x ≠ v0) := by
  induction t generalizing j with
  | nil => exact ⟨0, [], by simp [extendRun]⟩
  | cons x xs ih =>
    by_cases hx : x = v0
    · obtain ⟨k, t', h1, h2, h3, h4⟩ := ih (j + 1)
      refine ⟨k + 1, t', ?_, ?_, ?_, h4⟩
      · simp [hx, List.replicate_succ, ← h1]
      · simp only [extendRun, hx, ne_eq, not_true_eq_false, if_false, h2]; omega
      · simp; omega
    · exact ⟨0, x :: xs, by simp, by simp [extendRun, hx], by simp,
        fun y ys h => by cases h; exact hx⟩

theorem hasRun_three {v : Byte} {rest : Bytes} (h : hasRun v 3 1 rest = true) :
    ∃ t, rest = v :: v :: t := by
  match rest with
  | [] => simp [hasRun] at h
  | [x] => simp [hasRun] at h
  | x :: y :: t =>
    simp [hasRun] at h
    exact ⟨t, by simp [h.1, h.2]⟩

theorem findRepeats_le (vs : Bytes) : findRepeats 3 vs ≤ vs.length := by
  induction vs with
  | nil => simp [findRepeats]
  | cons v vs ih => simp only [findRepeats]; split <;> simp; omega

@[simp] theorem runBuf_readBytesN (l r : Bytes) :
    (readBytesN l.length).runBuf (l ++ r) = .ok (l, r) := by
  induction l with
  | nil => simp [readBytesN]
  | cons b l ih => simp [readBytesN, ih]

theorem literalHeader (n : Nat) (h1 : 1 ≤ n) (h2 : n ≤ 128) :
    ¬ (BitVec.ofInt 8 (-(n : Int))).toNat < 0x80 ∧
      (-(BitVec.ofInt 8 (-(n : Int))).toInt).toNat = n := by
  have hn : (BitVec.ofInt 8 (-(n : Int))).toNat = 256 - n := by
    rw [BitVec.toNat_ofInt]; omega
  refine ⟨by omega, ?_⟩
  rw [BitVec.toInt_eq_toNat_cond, hn]
  split <;> omega

/-- One iteration of `encodeBytes` turns a nonempty prefix into a run that decodes to it. -/
theorem encodeBytesStep_spec (vs : Bytes) (hne : vs ≠ []) (hlen : vs.length ≤ 128) :
    ∃ out pre rest, encodeBytesStep vs = .ok (out, rest) ∧ vs = pre ++ rest ∧ pre ≠ [] ∧
      0 < out.length ∧ decodeByteRL.runBuf out = .ok (pre, []) := by
  match vs, hne with
  | v :: t, _ =>
  by_cases hidx : findRepeats minRepeats (v :: t) = 0
  · have hr : hasRun v 3 1 t = true := by
      by_cases h : hasRun v 3 1 t = true
      · exact h
      · simp [findRepeats, minRepeats, h] at hidx
    obtain ⟨t, rfl⟩ := hasRun_three hr
    obtain ⟨k, t', h1, h2, h3, -⟩ := extendRun_spec v t 3
    refine ⟨[BitVec.ofNat 8 k, v], List.replicate (3 + k) v, t', ?_, ?_, ?_, by simp, ?_⟩
    · have hidx' : findRepeats 3 (v :: v :: v :: t) = 0 := hidx
      simp only [encodeBytesStep, minRepeats, hidx', if_true, List.drop_succ_cons, List.drop_zero, h2]
      simp only [Res.ok.injEq, Prod.mk.injEq]
      refine ⟨by congr 2; omega, ?_⟩
      rw [Nat.add_comm]
      simp [h1]
    · rw [Nat.add_comm]
      simp [List.replicate_succ, h1]
    · rw [Nat.add_comm]; simp [List.replicate_succ]
    · simp at hlen
      have hk : (BitVec.ofNat 8 k).toNat = k := by simp; omega
      have hk2 : k < 0x80 := by omega
      simp only [decodeByteRL, Dec.runBuf_bind, Dec.runBuf_byte_cons, Res.ok_bind, hk, hk2, if_true,
        minRepeats]
      simp [Nat.add_comm]
  · have hle := findRepeats_le (v :: t)
    have hne2 : findRepeats 3 (v :: t) ≠ 0 := hidx
    have hh := literalHeader (findRepeats 3 (v :: t)) (by omega) (by omega)
    refine ⟨_, (v :: t).take (findRepeats 3 (v :: t)), (v :: t).drop (findRepeats 3 (v :: t)),
      by simp only [encodeBytesStep, hidx, if_false]; rfl, by simp, ?_, by simp, ?_⟩
    · intro h
      have := congrArg List.length h
      simp at this
      omega
    · simp only [decodeByteRL, Dec.runBuf_bind, Dec.runBuf_byte_cons, Res.ok_bind, minRepeats,
        hh.1, if_false, hh.2]
      have := runBuf_readBytesN ((v :: t).take (findRepeats 3 (v :: t))) []
      rw [List.length_take, Nat.min_eq_left hle, List.append_nil] at this
      exact this

theorem encodeBytesToEnd_spec (fuel : Nat) (vs : Bytes) (hf : vs.length ≤ fuel)
    (hlen : vs.length ≤ 128) :
    ∃ out, encodeBytesToEnd fuel vs = .ok out ∧ Decodes decodeByteRL out vs := by
  induction fuel generalizing vs with
  | zero =>
    cases vs with
    | nil => exact ⟨[], rfl, .nil⟩
    | cons => simp at hf
  | succ fuel ih =>
    cases vs with
    | nil => exact ⟨[], rfl, .nil⟩
    | cons v t =>
      obtain ⟨out, pre, rest, h1, h2, h3, h4, h5⟩ := encodeBytesStep_spec (v :: t) (by simp) hlen
      have hl : pre.length + rest.length = t.length + 1 := by
        rw [← List.length_append, ← h2]; simp
      have hp : 0 < pre.length := List.length_pos_iff.mpr h3
      simp at hf hlen
      obtain ⟨out', g1, g2⟩ := ih rest (by omega) (by omega)
      refine ⟨out ++ out', ?_, ?_⟩
      · simp [encodeBytesToEnd, h1, g1]
      · rw [h2]; exact (Decodes.single h5 h4).append g2

/-- The encoder state is well formed: fewer than 128 values pending. -/
def ByteEnc.WF (e : ByteEnc) : Prop := e.values.length < 128

theorem newByteEncoder_wf (p : Bool) : (newByteEncoder p).WF := by
  simp [ByteEnc.WF, newByteEncoder]

/-- One `Encode`: what was pending plus the new value is what was emitted plus what is pending. -/
theorem ByteEnc.encode_spec (e : ByteEnc) (hw : e.WF) (b : Byte) :
    ∃ e' out pre, e.encode (.u8 b) = .ok (e', out) ∧ e'.WF ∧
      e.values ++ [b] = pre ++ e'.values ∧ Decodes decodeByteRL out pre ∧
      e'.position = (if e.position ≠ -1 then (e'.values.length : Int) else -1) := by
  unfold ByteEnc.WF at hw
  by_cases hl : (e.values ++ [b]).length ≥ maxByteRunLength
  · have hl' : (e.values ++ [b]).length ≤ 128 := by simp; omega
    obtain ⟨out, pre, rest, h1, h2, h3, h4, h5⟩ :=
      encodeBytesStep_spec (e.values ++ [b]) (by simp) hl'
    have hlen : pre.length + rest.length = e.values.length + 1 := by
      rw [← List.length_append, ← h2]; simp
    have hp : 0 < pre.length := List.length_pos_iff.mpr h3
    refine ⟨{ values := rest, position := if e.position ≠ -1 then (rest.length : Int) else e.position },
      out, pre, ?_, ?_, h2, .single h5 h4, ?_⟩
    · simp only [ByteEnc.encode, hl, if_true, h1, Res.ok_bind, Res.pure_eq]
    · simp only [ByteEnc.WF]; omega
    · simp only; split <;> simp_all
  · refine ⟨{ values := e.values ++ [b],
              position := if e.position ≠ -1 then ((e.values ++ [b]).length : Int) else e.position },
      [], [], ?_, ?_, by simp, .nil, ?_⟩
    · simp only [ByteEnc.encode, hl, if_false, Res.ok_bind, Res.pure_eq]
    · simp only [maxByteRunLength] at hl; simp only [ByteEnc.WF]; omega
    · simp only; split <;> simp_all

theorem ByteEnc.flush_spec (e : ByteEnc) (hw : e.WF) :
    ∃ out, e.flush = .ok ({ e with values := [] }, out) ∧ Decodes decodeByteRL out e.values := by
  unfold ByteEnc.WF at hw
  obtain ⟨out, h1, h2⟩ := encodeBytesToEnd_spec e.values.length e.values (Nat.le_refl _) (by omega)
  exact ⟨out, by simp [ByteEnc.flush, h1], h2⟩

end Goorc

namespace Goorc

theorem Enc.run_append {σ : Type} (E : Enc σ) (s : σ) (a b : List EncOp) :
    E.run s (a ++ b) = (E.run s a >>= fun p => E.run p.1 b >>= fun q => pure (q.1, p.2 ++ q.2)) := by
  induction a generalizing s with
  | nil =>
    simp only [List.nil_append, Enc.run, Res.ok_bind]
    cases E.run s b <;> simp
  | cons op a ih =>
    simp only [List.cons_append, Enc.run, Res.bind_assoc]
    cases E.step s op with
    | ok p =>
      simp only [Res.ok_bind, ih, Res.bind_assoc]
      cases E.run p.1 a with
      | ok q =>
        simp only [Res.ok_bind, Res.pure_eq]
        cases E.run q.1 b <;> simp
      | err => simp
      | panic => simp
      | hang => simp
    | err => simp
    | panic => simp
    | hang => simp

/-- A byte-encoder call: `some b` is `Encode b`, `none` is `Flush`. -/
def byteOp : Option Byte → EncOp
  | some b => .encode (.u8 b)
  | none => .flush

/-- Invariant over any history: emitted blocks plus pending values are the values encoded. -/
theorem ByteEnc.run_spec (e : ByteEnc) (hw : e.WF) (ops : List (Option Byte)) :
    ∃ e' out pre, byteEnc.run e (ops.map byteOp) = .ok (e', out) ∧ e'.WF ∧
      e.values ++ ops.filterMap id = pre ++ e'.values ∧ Decodes decodeByteRL out pre ∧
      (e.position = -1 → e'.position = -1) ∧ (0 ≤ e.position → 0 ≤ e'.position) := by
  induction ops generalizing e with
  | nil => exact ⟨e, [], [], rfl, hw, by simp, .nil, id, id⟩
  | cons op ops ih =>
    cases op with
    | some b =>
      obtain ⟨e1, out1, pre1, h1, h2, h3, h4, h5⟩ := e.encode_spec hw b
      obtain ⟨e2, out2, pre2, g1, g2, g3, g4, g5, g6⟩ := ih e1 h2
      refine ⟨e2, out1 ++ out2, pre1 ++ pre2, ?_, g2, ?_, h4.append g4, ?_, ?_⟩
      · simp only [List.map_cons, byteOp, Enc.run, Enc.step, byteEnc, h1, Res.ok_bind]
        simp only [byteEnc] at g1
        simp [g1]
      · simp only [List.filterMap_cons_some (f := id) (a := some b) (b := b) rfl]
        rw [List.append_assoc, ← g3, ← List.append_assoc, ← h3]; simp
      · intro h; exact g5 (by simp [h5, h])
      · intro h
        apply g6
        rw [h5, if_pos (by omega)]
        omega
    | none =>
      obtain ⟨out1, h1, h2⟩ := e.flush_spec hw
      obtain ⟨e2, out2, pre2, g1, g2, g3, g4, g5, g6⟩ :=
        ih { e with values := [] } (by simp [ByteEnc.WF])
      refine ⟨e2, out1 ++ out2, e.values ++ pre2, ?_, g2, ?_, h2.append g4, g5, g6⟩
      · simp only [List.map_cons, byteOp, Enc.run, Enc.step, byteEnc, h1, Res.ok_bind]
        simp only [byteEnc] at g1
        simp [g1]
      · simp only [List.filterMap_cons_none (f := id) (a := (none : Option Byte)) rfl]
        rw [List.append_assoc, ← g3]; simp

end Goorc
