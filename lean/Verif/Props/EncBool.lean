import Verif.Proofs.EncBool
/-
C05-C07: booleans.
-/
namespace Goorc

/-- **C05** Every boolean sequence encoded by a fresh encoder and flushed once decodes to itself
followed by the padding that completes the last byte. -/
theorem bool_roundtrip (p : Bool) (bs : List Bool) :
    ∃ out, boolEnc.encodeFlush (newBoolEncoder p) (bs.map .bool) = .ok out ∧
      decodeAll decodeBools out = .ok (bs ++ padding bs.length) := by
  obtain ⟨e, out, h1, -, -, -, h5⟩ := boolEnc_group (newBoolEncoder p) 0 (by omega) rfl
    (newByteEncoder_wf p) bs
  refine ⟨out, by simp only [Enc.encodeFlush, h1, Res.ok_bind, Res.pure_eq], ?_⟩
  have := (fedBytes_clean [] bs (by simp)).1
  simp only [List.nil_append] at this
  rw [← this]
  exact decodeAll_of_decodes (decodes_bools h5)

theorem padding_length_lt (n : Nat) : (padding n).length < 8 := by
  simp [padding]; omega

/-- **C06** (what really happens) When a fresh encoder encodes `xs`, flushes, encodes `ys` and
flushes, the second output decodes to `ys` (padded) with the bits of the incomplete last byte of `xs`
or-ed into it. -/
theorem bool_reuse_exact (p : Bool) (xs ys : List Bool) :
    ∃ e1 out1 e2 out2,
      boolEnc.run (newBoolEncoder p) ((xs.map GoVal.bool).map .encode ++ [.flush]) = .ok (e1, out1) ∧
      boolEnc.run e1 ((ys.map GoVal.bool).map .encode ++ [.flush]) = .ok (e2, out2) ∧
      decodeAll decodeBools out1 = .ok (xs ++ padding xs.length) ∧
      decodeAll decodeBools out2 = .ok (orBits (trailing xs) (ys ++ padding ys.length)) := by
  obtain ⟨e1, out1, h1, h2, h3, h4, h5⟩ := boolEnc_group (newBoolEncoder p) 0 (by omega) rfl
    (newByteEncoder_wf p) xs
  obtain ⟨e2, out2, g1, -, -, -, g5⟩ := boolEnc_group e1 0 (by omega) (by simp [h2])
    (by simp [ByteEnc.WF, h4]) ys
  have c1 := fedBytes_clean [] xs (by simp)
  have c2 := fedBytes_clean [] ys (by simp)
  simp only [List.nil_append, List.length_nil] at c1 c2
  have hp : packByte [] = 0 := rfl
  rw [hp] at c1 c2
  refine ⟨e1, out1, e2, out2, h1, g1, ?_, ?_⟩
  · rw [← c1.1]; exact decodeAll_of_decodes (decodes_bools h5)
  · have hv : e1.value = packByte (trailing xs) := by rw [h3]; exact c1.2.1
    rw [h4, hv, List.nil_append, fedBytes_or] at g5
    have := decodeAll_of_decodes (decodes_bools g5)
    rw [orFirst_bits _ _ (by simp [trailing]; omega), c2.1] at this
    exact this

/-- **C06** is false: after `true`, flush, the value `false` reads back as `true`. -/
theorem bool_reuse_false :
    ∃ e1 out1 e2 out2,
      boolEnc.run (newBoolEncoder false) [.encode (.bool true), .flush] = .ok (e1, out1) ∧
      boolEnc.run e1 [.encode (.bool false), .flush] = .ok (e2, out2) ∧
      decodeAll decodeBools out2 = .ok (true :: List.replicate 7 false) := by
  refine ⟨_, _, _, _, rfl, rfl, ?_⟩
  decide

/-- **C06** (partial) If every group encoded before a flush either fills whole bytes or has only
falses in its last, incomplete byte, every group decodes to itself (padded), for any number of groups.
Missing: groups with a true in the incomplete byte, for which `bool_reuse_exact` says what goes wrong. -/
theorem bool_reuse_partial (p : Bool) (groups : List (List Bool))
    (h : ∀ g ∈ groups, ∀ b ∈ trailing g, b = false) :
    ∃ outs, boolEnc.encodeGroups (newBoolEncoder p) (groups.map fun g => g.map .bool) = .ok outs ∧
      outs.map (decodeAll decodeBools) = groups.map fun g => .ok (g ++ padding g.length) := by
  have main : ∀ (gs : List (List Bool)) (e : BoolEnc), e.index = -1 → e.value = 0 → e.brl.values = [] →
      (∀ g ∈ gs, ∀ b ∈ trailing g, b = false) →
      ∃ outs, boolEnc.encodeGroups e (gs.map fun g => g.map .bool) = .ok outs ∧
        outs.map (decodeAll decodeBools) = gs.map fun g => .ok (g ++ padding g.length) := by
    intro gs
    induction gs with
    | nil => intro e _ _ _ _; exact ⟨[], rfl, rfl⟩
    | cons g gs ih =>
      intro e hi hv hb hg
      obtain ⟨e1, out1, h1, h2, h3, h4, h5⟩ := boolEnc_group e 0 (by omega) (by simp [hi])
        (by simp [ByteEnc.WF, hb]) g
      have c := fedBytes_clean [] g (by simp)
      simp only [List.nil_append, List.length_nil] at c
      have hp : packByte [] = 0 := rfl
      rw [hp] at c
      rw [hv] at h3 h5
      have ht : packByte (trailing g) = 0 := by
        have hall : trailing g = List.replicate (trailing g).length false :=
          List.eq_replicate_of_mem (hg g (by simp))
        have : ∀ k i, packFrom i (List.replicate k false) = 0 := by
          intro k
          induction k with
          | zero => intro i; rfl
          | succ k ih => intro i; simp [List.replicate_succ, packFrom, ih]
        rw [hall]; exact this _ _
      obtain ⟨outs, k1, k2⟩ := ih e1 h2 (by rw [h3, c.2.1, ht]) h4
        (fun g' hg' => hg g' (by simp [hg']))
      refine ⟨out1 :: outs, ?_, ?_⟩
      · simp only [List.map_cons, Enc.encodeGroups, h1, Res.ok_bind, k1, Res.pure_eq]
      · have : decodeAll decodeBools out1 = .ok (g ++ padding g.length) := by
          rw [← c.1]
          have := decodeAll_of_decodes (decodes_bools h5)
          rw [hb] at this
          exact this
        simp [this, k2]
  exact main groups _ rfl rfl rfl h

/-- **C07** With positions enabled, after encoding any booleans `GetPosition` is `[p, q]` with `q < 8`:
the bytes emitted hold everything except the last `8 * p + q` values, and the bytes emitted later
start with those: seek to the byte offset, skip `p` bytes, skip `q` bits. -/
theorem bool_position_exact (bs later : List Bool) :
    ∃ e out e' out',
      boolEnc.run (newBoolEncoder true) ((bs.map GoVal.bool).map .encode) = .ok (e, out) ∧
      boolEnc.run e ((later.map GoVal.bool).map .encode ++ [.flush]) = .ok (e', out') ∧
      ∃ p q before pending, boolEnc.getPosition e = [p, q] ∧ q < 8 ∧ bs = before ++ pending ∧
        pending.length = 8 * p + q ∧ decodeAll decodeBools out = .ok before ∧
        decodeAll decodeBools out' =
          .ok (pending ++ later ++ padding (pending ++ later).length) := by
  obtain ⟨e1, out1, pre1, h1, h2, h3, h4, h5, h6, h7, h8, h9, -⟩ :=
    boolEnc_run_encode (newBoolEncoder true) 0 (by omega) rfl (newByteEncoder_wf true) bs
  obtain ⟨pb, c1, c2, c3⟩ := feed_clean [] bs (by simp)
  have hv0 : (newBoolEncoder true).value = packByte [] := rfl
  rw [hv0] at h3 h5 h6 h7 h8
  simp only [List.length_nil, List.nil_append] at c1 c3
  simp only [c1] at h5 h6 h7 h8
  obtain ⟨e2, out2, g1, -, -, -, g5⟩ := boolEnc_group e1 pb.length c2 h5 h2 later
  rw [h6] at g5
  have c := fedBytes_clean pb later c2
  have hbl : (List.flatMap boolsOfByte e1.brl.values).length = 8 * e1.brl.values.length := by
    generalize e1.brl.values = l
    induction l with
    | nil => simp
    | cons a l ih => rw [List.flatMap_cons, List.length_append, ih, boolsOfByte_length]; simp; omega
  refine ⟨e1, out1, e2, out2, ?_, g1, e1.brl.values.length, pb.length,
    pre1.flatMap boolsOfByte, e1.brl.values.flatMap boolsOfByte ++ pb, ?_, c2, ?_, ?_, ?_, ?_⟩
  · rw [← h1]; simp [Function.comp_def]
  · have hb : e1.brl.position = e1.brl.values.length := h9 rfl
    have hp : e1.position = pb.length := h8 rfl
    have := h2
    simp only [ByteEnc.WF] at this
    simp only [boolEnc, BoolEnc.getPosition, hb, hp, intToU64]
    congr 1
    · omega
    · congr 1; omega
  · rw [c3, ← List.append_assoc, ← List.flatMap_append, ← h3]; simp [newBoolEncoder, newByteEncoder]
  · rw [List.length_append, hbl]
  · exact decodeAll_of_decodes (decodes_bools h4)
  · have := decodeAll_of_decodes (decodes_bools g5)
    rw [List.flatMap_append, c.1] at this
    rw [this]
    congr 1
    simp only [List.append_assoc, List.append_cancel_left_eq]
    have hpad : ∀ a b : Nat, a % 8 = b % 8 → padding a = padding b := by
      intro a b h; simp [padding, h]
    apply hpad
    simp only [List.length_append, hbl]
    omega

/- Non-vacuity. -/
example : ∀ g ∈ [[true, false, true, true, false, false, false, true], [false, false], [true]].dropLast,
    ∀ b ∈ trailing g, b = false := by decide
example : trailing [true, false, true] = [true, false, true] := by decide

end Goorc
