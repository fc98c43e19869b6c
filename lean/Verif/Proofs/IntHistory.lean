import Verif.Proofs.IntPatch
namespace Goorc

theorem Res.bind_ok_inv {α β : Type} {x : Res α} {f : α → Res β} {b : β} (h : (x >>= f) = .ok b) :
    ∃ a, x = .ok a ∧ f a = .ok b := by
  cases x with
  | ok a => exact ⟨a, rfl, h⟩
  | err e => simp at h
  | panic => simp at h
  | hang => simp at h

theorem decodes_raw_single {signed : Bool} {out : Bytes} {vs : List U64}
    (h : ∀ tail, (decodeRaw signed).runBuf (out ++ tail) = .ok (vs, tail)) : Decodes (decodeRaw signed) out vs := by
  have h0 := h []
  rw [List.append_nil] at h0
  refine Decodes.single h0 ?_
  cases out with
  | nil => simp [decodeRaw] at h0
  | cons b s => simp

theorem direct_decodes (signed : Bool) (vs : List U64) (hs : DirectSafe vs) (hne : vs ≠ []) (out : Bytes)
    (h : writeDirect vs = .ok out) : Decodes (decodeRaw signed) out vs := by
  rcases hs with rfl | ⟨h1, h2⟩
  · exact absurd rfl hne
  · exact decodes_raw_single fun tail =>
      direct_block signed vs (by have := List.length_pos_iff.mpr hne; omega) h1 h2 out h tail

theorem countEq_eq (v : U64) (vs : List U64) : countEq v vs = (vs.takeWhile (· = v)).length := by
  induction vs with
  | nil => rfl
  | cons a vs ih =>
    by_cases h : a = v
    · subst h; simp [countEq, ih]
    · simp [countEq, h]

theorem countEq_split (v : U64) (vs : List U64) :
    vs = List.replicate (countEq v vs) v ++ vs.drop (countEq v vs) := by
  induction vs with
  | nil => rfl
  | cons a vs ih =>
    by_cases h : a = v
    · subst h
      simp only [countEq, if_true, List.replicate_succ, List.cons_append, List.drop_succ_cons]
      rw [← ih]
    · simp [countEq, h]

theorem noZeroByte_block (signed : Bool) (x : U64) (h : NoZeroByte x) (c : Nat) (hc : c < 8) (tail : Bytes) :
    (decodeRaw signed).runBuf (writeShortRepeat c x ++ tail) = .ok (List.replicate (c + 3) x, tail) := by
  obtain ⟨n, h1, h2, h3, h4⟩ := h
  refine shortRepeat_block signed c hc x (n - 1) (by omega) (fun i hi h0 => ?_) (fun i hi hi' => ?_) tail
  · apply h4 i (by omega)
    rw [← byteAt_toNat, h0]; rfl
  · apply BitVec.eq_of_toNat_eq
    rw [byteAt_toNat]
    have : x.toNat / 256 ^ i = 0 := by
      apply Nat.div_eq_of_lt
      exact Nat.lt_of_lt_of_le h3 (Nat.pow_le_pow_right (by omega) (by omega))
    rw [this]; rfl

theorem firstBytes_ok (signed : Bool) (v : U64) (b : Bytes) (h : firstBytes signed v = .ok b) : v.toNat < 2 ^ 56 := by
  rw [firstBytes_eq, putUvarint8] at h
  by_cases hv : v.toNat < 2 ^ 56
  · exact hv
  · rw [if_neg hv] at h; simp at h

/-- A delta block that was written without error satisfies the conditions of `delta_block`. -/
theorem writeDelta_ok (first : Bytes) (base : U64) (len : BitVec 16) (ds : List U64) (hd : ds ≠ []) (out : Bytes)
    (h : writeDelta first base len ds = .ok out) :
    (∃ d ∈ ds, d ≠ 0) ∧ maxWidth getAlignedWidth ds ≠ 12 ∧ (zigzag base).toNat < 2 ^ 56 := by
  simp only [writeDelta] at h
  obtain ⟨code, h1, h⟩ := Res.bind_ok_inv h
  obtain ⟨db, h2, h⟩ := Res.bind_ok_inv h
  obtain ⟨body, h3, -⟩ := Res.bind_ok_inv h
  refine ⟨?_, ?_, ?_⟩
  · apply Classical.byContradiction
    intro hn
    have h0 : maxWidth getAlignedWidth ds = 0 := (maxAligned_cases ds).2.mpr (fun v hv =>
      Classical.byContradiction fun hv0 => hn ⟨v, hv, hv0⟩)
    simp [packDeltas, hd, h0] at h3
  · intro h12
    simp [packDeltas, hd, h12] at h3
  · rw [putVarint_eq, putUvarint8] at h2
    by_cases hv : (zigzag base).toNat < 2 ^ 56
    · exact hv
    · rw [if_neg hv] at h2; simp at h2

/-- One iteration of the block choice: what was written decodes to what was consumed. -/
theorem writeStep_decodes (signed toEnd : Bool) (values : List U64) (out : Bytes) (rest : List U64)
    (h : writeStep signed toEnd values = .ok (out, rest)) (hs : StepSafe signed toEnd values) :
    ∃ used, values = used ++ rest ∧ Decodes (decodeRaw signed) out used := by
  cases values with
  | nil => simp [writeStep, getRepeats] at h
  | cons v vs =>
  have hlr : leadRun (v :: vs) = countEq v vs + 1 := by simp only [leadRun, countEq_eq]
  simp only [writeStep, getRepeats, Res.ok_bind, List.headD_cons] at h
  simp only [StepSafe, hlr, List.headD_cons] at hs
  by_cases h3 : 3 ≤ countEq v vs + 1
  · have hsplit : v :: vs = List.replicate (countEq v vs + 1) v ++ (v :: vs).drop (countEq v vs + 1) := by
      rw [List.replicate_succ, List.cons_append, List.drop_succ_cons, ← countEq_split]
    rw [if_pos h3] at h hs
    by_cases h10 : countEq v vs + 1 ≤ 10
    · rw [if_pos h10] at h hs
      simp only [Res.pure_eq, Res.ok.injEq, Prod.mk.injEq] at h
      obtain ⟨rfl, rfl⟩ := h
      refine ⟨_, hsplit, decodes_raw_single fun tail => ?_⟩
      have := noZeroByte_block signed v hs (countEq v vs + 1 - 3) (by omega) tail
      rw [show countEq v vs + 1 - 3 + 3 = countEq v vs + 1 by omega] at this
      exact this
    · rw [if_neg h10] at h hs
      obtain ⟨first, h1, h⟩ := Res.bind_ok_inv h
      obtain ⟨o, h2, h⟩ := Res.bind_ok_inv h
      simp only [Res.pure_eq, Res.ok.injEq, Prod.mk.injEq] at h
      obtain ⟨rfl, rfl⟩ := h
      refine ⟨_, hsplit, decodes_raw_single fun tail => ?_⟩
      obtain ⟨f', o', g1, g2, g3⟩ := fixedDelta_block signed v (countEq v vs + 1) (by omega) hs
        (firstBytes_ok _ _ _ h1) tail
      rw [h1] at g1
      cases g1
      rw [h2] at g2
      cases g2
      exact g3
  · rw [if_neg h3] at h hs
    cases ht : tryDelta signed (v :: vs) with
    | some dv =>
      simp only [ht] at h hs
      obtain ⟨⟨o, r⟩, h1, h⟩ := Res.bind_ok_inv h
      obtain ⟨first, h2, h1⟩ := Res.bind_ok_inv h1
      obtain ⟨o', h4, h1⟩ := Res.bind_ok_inv h1
      simp only [Res.pure_eq, Res.ok.injEq, Prod.mk.injEq] at h1
      obtain ⟨rfl, rfl⟩ := h1
      obtain ⟨v0, v1, rs, hv, hd, hl, hle, hsum, hscan, -⟩ := tryDelta_spec signed _ dv ht
      have hv0 : v0 = v := by cases hv; rfl
      subst hv0
      obtain ⟨c1, c2, c3⟩ := writeDelta_ok _ _ _ _ hd _ h4
      have hlen : dv.length.toNat = dv.deltas.length + 2 := by
        rw [hl, BitVec.toNat_ofNat]; have := hs.1; omega
      have hsplit : v0 :: vs = (v0 :: v1 :: rs.take dv.deltas.length) ++ (v0 :: vs).drop (dv.deltas.length + 2) := by
        rw [hv]; simp
      have hdec : Decodes (decodeRaw signed) o' (v0 :: v1 :: rs.take dv.deltas.length) := by
        refine decodes_raw_single fun tail => ?_
        obtain ⟨f', o1, g1, g2, g3⟩ := delta_block signed v0 dv.base dv.deltas hd hs.1 c1 c2
          (firstBytes_ok _ _ _ h2) c3 tail
        rw [h2] at g1
        cases g1
        rw [← hl, h4] at g2
        cases g2
        rw [g3, hsum, hscan]
      rw [hlen] at h
      by_cases hc : toEnd = true ∧ (v0 :: vs).drop (dv.deltas.length + 2) ≠ []
      · rw [if_pos hc] at h
        obtain ⟨o2, h5, h⟩ := Res.bind_ok_inv h
        simp only [Res.pure_eq, Res.ok.injEq, Prod.mk.injEq] at h
        obtain ⟨rfl, rfl⟩ := h
        refine ⟨v0 :: vs, by simp, ?_⟩
        rw [hsplit]
        exact hdec.append (direct_decodes signed _ (hs.2 hc.1) hc.2 _ h5)
      · rw [if_neg hc] at h
        simp only [Res.pure_eq, Res.ok.injEq, Prod.mk.injEq] at h
        obtain ⟨rfl, rfl⟩ := h
        exact ⟨_, hsplit, hdec⟩
    | none =>
      simp only [ht] at h hs
      have direct : ∀ (hds : toEnd = true → DirectSafe (v :: vs)),
          (if toEnd = true ∧ v :: vs ≠ [] then do
              let out' ← writeDirect (v :: vs)
              pure (([] : Bytes) ++ out', [])
            else pure ([], v :: vs) : Res (Bytes × List U64)) = .ok (out, rest) →
          ∃ used, v :: vs = used ++ rest ∧ Decodes (decodeRaw signed) out used := by
        intro hds hw
        by_cases hc : toEnd = true ∧ v :: vs ≠ []
        · rw [if_pos hc] at hw
          obtain ⟨o2, h5, hw⟩ := Res.bind_ok_inv hw
          simp only [Res.pure_eq, Res.ok.injEq, Prod.mk.injEq, List.nil_append] at hw
          obtain ⟨rfl, rfl⟩ := hw
          exact ⟨v :: vs, by simp, direct_decodes signed _ (hds hc.1) hc.2 _ h5⟩
        · rw [if_neg hc] at hw
          simp only [Res.pure_eq, Res.ok.injEq, Prod.mk.injEq] at hw
          obtain ⟨rfl, rfl⟩ := hw
          exact ⟨[], rfl, Decodes.nil⟩
      cases signed with
      | false =>
        simp only [Bool.false_eq_true, if_false, Res.pure_eq, Res.ok_bind] at h hs
        exact direct hs h
      | true =>
        simp only [if_true] at h hs
        obtain ⟨⟨o, r⟩, h1, h⟩ := Res.bind_ok_inv h
        obtain ⟨q, hq, h1⟩ := Res.bind_ok_inv h1
        rw [hq] at hs
        cases q with
        | none =>
          simp only [Res.pure_eq, Res.ok.injEq, Prod.mk.injEq] at h1
          obtain ⟨rfl, rfl⟩ := h1
          exact direct hs h
        | some pvs =>
          simp only at h1 hs
          obtain ⟨o', h4, h1⟩ := Res.bind_ok_inv h1
          simp only [Res.pure_eq, Res.ok.injEq, Prod.mk.injEq] at h1
          obtain ⟨rfl, rfl⟩ := h1
          have hcount := (tryPatch_spec _ _ hq).1
          have hdrop : (v :: vs).drop pvs.count = [] := by rw [hcount]; simp
          rw [hdrop, if_neg (by simp)] at h
          simp only [Res.pure_eq, Res.ok.injEq, Prod.mk.injEq] at h
          obtain ⟨rfl, rfl⟩ := h
          exact ⟨v :: vs, by simp, decodes_raw_single fun tail => patch_block _ pvs hq hs _ h4 tail⟩

theorem writeLoop_decodes (signed : Bool) (fuel : Nat) (values : List U64) (out : Bytes) (rest : List U64)
    (h : writeLoop signed fuel values = .ok (out, rest)) (hs : LoopSafe signed fuel values) :
    rest = [] ∧ Decodes (decodeRaw signed) out values := by
  induction fuel generalizing values out with
  | zero =>
    cases values with
    | nil => simp [writeLoop] at h; obtain ⟨rfl, rfl⟩ := h; exact ⟨rfl, Decodes.nil⟩
    | cons v vs => simp [writeLoop] at h
  | succ fuel ih =>
    cases values with
    | nil => simp [writeLoop] at h; obtain ⟨rfl, rfl⟩ := h; exact ⟨rfl, Decodes.nil⟩
    | cons v vs =>
      simp only [writeLoop] at h
      obtain ⟨⟨o1, r1⟩, h1, h⟩ := Res.bind_ok_inv h
      obtain ⟨⟨o2, r2⟩, h2, h⟩ := Res.bind_ok_inv h
      simp only [Res.pure_eq, Res.ok.injEq, Prod.mk.injEq] at h
      obtain ⟨rfl, rfl⟩ := h
      obtain ⟨used, hu, hd⟩ := writeStep_decodes signed true _ _ _ h1 hs.1
      obtain ⟨hr, hd2⟩ := ih _ _ h2 (hs.2 _ _ h1)
      exact ⟨hr, by rw [hu]; exact hd.append hd2⟩

theorem intWrite_decodes (signed toEnd : Bool) (values : List U64) (hne : values ≠ []) (out : Bytes) (rest : List U64)
    (h : intWrite signed toEnd values = .ok (out, rest)) (hs : WriteSafe signed toEnd values) :
    (toEnd = true → rest = []) ∧ ∃ used, values = used ++ rest ∧ Decodes (decodeRaw signed) out used := by
  simp only [intWrite] at h
  simp only [WriteSafe] at hs
  by_cases h3 : values.length ≤ 3
  · rw [if_pos h3] at h hs
    obtain ⟨o, h1, h⟩ := Res.bind_ok_inv h
    simp only [Res.pure_eq, Res.ok.injEq, Prod.mk.injEq] at h
    obtain ⟨rfl, rfl⟩ := h
    exact ⟨fun _ => rfl, values, by simp, direct_decodes signed values hs hne _ h1⟩
  · rw [if_neg h3] at h hs
    cases toEnd with
    | true =>
      simp only [if_true] at h hs
      obtain ⟨rfl, hd⟩ := writeLoop_decodes signed _ _ _ _ h hs
      exact ⟨fun _ => rfl, values, by simp, hd⟩
    | false =>
      simp only [Bool.false_eq_true, if_false] at h hs
      exact ⟨fun h0 => by simp at h0, writeStep_decodes signed false values out rest h hs⟩

theorem rawValue_rawInts (signed : Bool) (v : GoVal) (raw : U64) (ops : List EncOp)
    (h : IntEnc.rawValue signed v = .ok raw) : rawInts signed (.encode v :: ops) = raw :: rawInts signed ops := by
  cases v <;> simp only [IntEnc.rawValue] at h <;> cases signed <;> simp [rawInts] at h ⊢ <;> exact h

/-- Every history: what was emitted decodes to a prefix of the values, the rest is pending. -/
theorem intRun_decodes (ops : List EncOp) (e e' : IntEnc) (out : Bytes)
    (h : intEnc.run e ops = .ok (e', out)) (hs : RunSafe e ops) :
    e'.signed = e.signed ∧
    ∃ used, e.values ++ rawInts e.signed ops = used ++ e'.values ∧ Decodes (decodeRaw e.signed) out used := by
  induction ops generalizing e out with
  | nil =>
    simp only [Enc.run, Res.ok.injEq, Prod.mk.injEq] at h
    obtain ⟨rfl, rfl⟩ := h
    exact ⟨rfl, [], by simp [rawInts], Decodes.nil⟩
  | cons op ops ih =>
    simp only [Enc.run] at h
    obtain ⟨⟨e1, o1⟩, h1, h⟩ := Res.bind_ok_inv h
    obtain ⟨⟨e2, o2⟩, h2, h⟩ := Res.bind_ok_inv h
    simp only [Res.pure_eq, Res.ok.injEq, Prod.mk.injEq] at h
    obtain ⟨rfl, rfl⟩ := h
    cases op with
    | encode v =>
      have h1' : e.encode v = .ok (e1, o1) := h1
      obtain ⟨hs1, hs2⟩ := hs
      obtain ⟨i1, used2, i2, i3⟩ := ih e1 o2 h2 (hs2 _ _ h1')
      simp only [IntEnc.encode] at h1'
      obtain ⟨raw, hraw, h1'⟩ := Res.bind_ok_inv h1'
      rw [rawValue_rawInts _ _ _ _ hraw]
      obtain ⟨⟨o3, r3⟩, h3, h1'⟩ := Res.bind_ok_inv h1'
      simp only [Res.pure_eq, Res.ok.injEq, Prod.mk.injEq] at h1'
      obtain ⟨he1, rfl⟩ := h1'
      have hsig : e1.signed = e.signed := by rw [← he1]
      have hval : e1.values = r3 := by rw [← he1]
      rw [hsig] at i1 i2 i3
      refine ⟨i1, ?_⟩
      by_cases h512 : (e.values ++ [raw]).length ≥ maxIntRunLength
      · rw [if_pos h512] at h3
        have h512' : 512 ≤ e.values.length + 1 := by simpa [maxIntRunLength] using h512
        obtain ⟨-, used1, u1, u2⟩ := intWrite_decodes _ _ _ (by simp) _ _ h3 (hs1 raw hraw h512')
        refine ⟨used1 ++ used2, ?_, u2.append i3⟩
        have : e.values ++ raw :: rawInts e.signed ops = (e.values ++ [raw]) ++ rawInts e.signed ops := by simp
        rw [this, u1, ← hval, List.append_assoc, i2, List.append_assoc]
      · rw [if_neg h512] at h3
        simp only [Res.pure_eq, Res.ok.injEq, Prod.mk.injEq] at h3
        obtain ⟨rfl, h3⟩ := h3
        refine ⟨used2, ?_, by simpa using i3⟩
        rw [← i2, hval, ← h3]; simp
    | flush =>
      have h1' : e.flush = .ok (e1, o1) := h1
      obtain ⟨hs1, hs2⟩ := hs
      obtain ⟨i1, used2, i2, i3⟩ := ih e1 o2 h2 (hs2 _ _ h1')
      have hr : rawInts e.signed (.flush :: ops) = rawInts e.signed ops := rfl
      rw [hr]
      simp only [IntEnc.flush] at h1'
      by_cases hne : e.values = []
      · rw [if_pos hne] at h1'
        simp only [Res.ok.injEq, Prod.mk.injEq] at h1'
        obtain ⟨rfl, rfl⟩ := h1'
        exact ⟨i1, used2, i2, by simpa using i3⟩
      · rw [if_neg hne] at h1'
        obtain ⟨⟨o3, r3⟩, h3, h1'⟩ := Res.bind_ok_inv h1'
        simp only [Res.pure_eq, Res.ok.injEq, Prod.mk.injEq] at h1'
        obtain ⟨he1, rfl⟩ := h1'
        have hsig : e1.signed = e.signed := by rw [← he1]
        have hval : e1.values = r3 := by rw [← he1]
        rw [hsig] at i1 i2 i3
        obtain ⟨-, used1, u1, u2⟩ := intWrite_decodes _ _ _ hne _ _ h3 (hs1 hne)
        refine ⟨i1, used1 ++ used2, ?_, u2.append i3⟩
        rw [u1, ← hval, List.append_assoc, i2, List.append_assoc]

/-- After a flush nothing is pending. -/
theorem writeLoop_rest (signed : Bool) (fuel : Nat) (values : List U64) (out : Bytes) (rest : List U64)
    (h : writeLoop signed fuel values = .ok (out, rest)) : rest = [] := by
  induction fuel generalizing values out with
  | zero => cases values <;> simp [writeLoop] at h; exact h.2
  | succ fuel ih =>
    cases values with
    | nil => simp [writeLoop] at h; exact h.2
    | cons v vs =>
      simp only [writeLoop] at h
      obtain ⟨⟨o1, r1⟩, h1, h⟩ := Res.bind_ok_inv h
      obtain ⟨⟨o2, r2⟩, h2, h⟩ := Res.bind_ok_inv h
      simp only [Res.pure_eq, Res.ok.injEq, Prod.mk.injEq] at h
      obtain ⟨rfl, rfl⟩ := h
      exact ih _ _ h2

theorem flush_values (e e' : IntEnc) (out : Bytes) (h : e.flush = .ok (e', out)) : e'.values = [] := by
  simp only [IntEnc.flush] at h
  by_cases hne : e.values = []
  · rw [if_pos hne] at h
    simp only [Res.ok.injEq, Prod.mk.injEq] at h
    rw [← h.1]; exact hne
  · rw [if_neg hne] at h
    obtain ⟨⟨o3, r3⟩, h3, h⟩ := Res.bind_ok_inv h
    simp only [Res.pure_eq, Res.ok.injEq, Prod.mk.injEq] at h
    rw [← h.1]
    simp only [intWrite] at h3
    by_cases hl : e.values.length ≤ 3
    · rw [if_pos hl] at h3
      obtain ⟨o, h1, h3⟩ := Res.bind_ok_inv h3
      simp only [Res.pure_eq, Res.ok.injEq, Prod.mk.injEq] at h3
      exact h3.2.symm
    · rw [if_neg hl, if_pos trivial] at h3
      exact writeLoop_rest _ _ _ _ _ h3

/-- The typed decoders are the raw decoder with the values converted. -/
theorem decodes_typed (signed : Bool) (out : Bytes) (vs : List U64) (h : Decodes (decodeRaw signed) out vs) :
    Decodes (if signed then decodeInt true else decodeUInt false) out (if signed then vs.map unZigzag else vs) := by
  cases signed with
  | false => simpa [decodeUInt] using h
  | true =>
    simp only [if_true]
    induction h with
    | nil => exact Decodes.nil
    | @cons s r vs ws h hl _ ih =>
      rw [List.map_append]
      refine Decodes.cons ?_ hl ih
      simp only [decodeInt, if_true, Dec.runBuf_bind, h, Res.ok_bind]
      rfl

end Goorc
