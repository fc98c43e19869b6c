import Verif.Proofs.IntBlocks
import Verif.Proofs.EncPackage
namespace Goorc

/-! ### Short repeat blocks -/

theorem beBytes_readBE (x : U64) (n : Nat) (hn : n ≤ 8) (hx : x.toNat < 256 ^ n) (tail : Bytes) :
    (readBE n 0).runBuf (beBytes x n ++ tail) = .ok (x, tail) := by
  obtain ⟨v, h1, h2⟩ := readBE_spec x n hn 0 0 (by simp) tail
  rw [h1]
  have : v = x := BitVec.eq_of_toNat_eq (by rw [h2, Nat.zero_mul, Nat.zero_add, Nat.mod_eq_of_lt hx])
  rw [this]

theorem readBE_eof (n : Nat) (acc : U64) (s : Bytes) (h : s.length < n) : (readBE n acc).runBuf s = .err .eof := by
  induction n generalizing acc s with
  | zero => omega
  | succ n ih =>
    cases s with
    | nil => simp [readBE]
    | cons b s =>
      simp only [readBE, Dec.runBuf_bind, Dec.runBuf_byte_cons, Res.ok_bind]
      exact ih _ _ (by simpa using h)

theorem lt_of_bytes_zero (x : U64) (n : Nat) (hn : n ≤ 8) (h : ∀ i, n ≤ i → i < 8 → byteAt x i = 0) :
    x.toNat < 256 ^ n := by
  have hx := x.isLt
  have key : ∀ k, k ≤ 8 → n ≤ k → x.toNat < 256 ^ k → x.toNat < 256 ^ n := by
    intro k
    induction k with
    | zero => intro _ h2 h3; have : n = 0 := by omega
              subst this; exact h3
    | succ k ih =>
      intro h1 h2 h3
      by_cases hk : n = k + 1
      · subst hk; exact h3
      · have hb := h k (by omega) (by omega)
        have hb' := congrArg BitVec.toNat hb
        rw [byteAt_toNat] at hb'
        apply ih (by omega) (by omega)
        have hlt : x.toNat / 256 ^ k < 256 := by
          rw [Nat.div_lt_iff_lt_mul (Nat.pow_pos (by omega)), Nat.mul_comm, ← Nat.pow_succ]; exact h3
        rw [Nat.mod_eq_of_lt hlt] at hb'
        rcases Nat.div_eq_zero_iff.mp hb' with h | h
        · have := Nat.pow_pos (n := k) (show 0 < 256 by omega); omega
        · exact h
  exact key 8 (Nat.le_refl _) hn (by simpa using hx)

/-- A short repeat block decodes to the repeated value exactly when no byte of the value, from its
highest nonzero byte down, is zero. -/
theorem shortRepeat_block (signed : Bool) (c : Nat) (hc : c < 8) (x : U64) (t : Nat) (ht : t < 8)
    (h1 : ∀ i, i ≤ t → byteAt x i ≠ 0) (h2 : ∀ i, t < i → i < 8 → byteAt x i = 0) (tail : Bytes) :
    (decodeRaw signed).runBuf (writeShortRepeat c x ++ tail) = .ok (List.replicate (c + 3) x, tail) := by
  rcases shortRepeatBytes_top x 8 with ⟨h, _⟩ | ⟨t', g1, g2, g3, g4⟩
  · exact absurd (h t ht) (h1 t (Nat.le_refl _))
  have htt : t' = t := by
    rcases Nat.lt_trichotomy t t' with h | h | h
    · exact absurd (h2 t' h g1) g2
    · exact h.symm
    · exact absurd (g3 t h ht) (h1 t (Nat.le_refl _))
  subst htt
  have hbs := shortRepeatBytes_len x t'
  have hbs := hbs.2.2 (hbs.2.1.mpr fun i hi => h1 i (by omega))
  have e : writeShortRepeat c x = (BitVec.ofNat 8 (c % 8) ||| (BitVec.ofNat 8 t' <<< 3)) :: beBytes x (t' + 1) := by
    simp only [writeShortRepeat, g4, hbs, beBytes]; rfl
  rw [e, List.cons_append, decodeRaw_shortRepeat signed c t' hc ht,
    beBytes_readBE x (t' + 1) (by omega) (lt_of_bytes_zero x (t' + 1) (by omega) fun i hi hi' => h2 i (by omega) hi')]
  rfl

/-- Otherwise the block is shorter than its header says: nothing can be decoded from it alone. -/
theorem shortRepeat_short (signed : Bool) (c : Nat) (hc : c < 8) (x : U64)
    (h : ∀ t, t < 8 → (∀ i, t < i → i < 8 → byteAt x i = 0) → ∃ i, i ≤ t ∧ byteAt x i = 0) :
    (decodeRaw signed).runBuf (writeShortRepeat c x) = .err .eof := by
  rcases shortRepeatBytes_top x 8 with ⟨h0, h1⟩ | ⟨t, g1, g2, g3, g4⟩
  · have e : writeShortRepeat c x = (BitVec.ofNat 8 (c % 8) ||| (BitVec.ofNat 8 0 <<< 3)) :: [] := by
      simp only [writeShortRepeat, h1]
    rw [e, decodeRaw_shortRepeat signed c 0 hc (by omega), readBE_eof _ _ _ (by simp)]; rfl
  · have e : writeShortRepeat c x =
        (BitVec.ofNat 8 (c % 8) ||| (BitVec.ofNat 8 t <<< 3)) :: byteAt x t :: (shortRepeatBytes x t).2 := by
      simp only [writeShortRepeat, g4]
    obtain ⟨i, hi, hz⟩ := h t g1 g3
    have hbs := shortRepeatBytes_len x t
    have hne : (shortRepeatBytes x t).2.length ≠ t := by
      intro heq
      have := hbs.2.1.mp heq i
      by_cases hit : i = t
      · subst hit; exact g2 hz
      · exact this (by omega) hz
    rw [e, decodeRaw_shortRepeat signed c t hc g1, readBE_eof _ _ _ (by simp; omega)]; rfl

/-! ### Delta blocks -/

/-- The values a delta block stands for after its second value. -/
def scanDelta (signed : Bool) (deltaBase : U64) : U64 → List U64 → List U64
  | _, [] => []
  | prev, d :: ds => addDelta signed deltaBase prev d :: scanDelta signed deltaBase (addDelta signed deltaBase prev d) ds

theorem readDeltas_eq (signed : Bool) (width : Nat) (hw : width ≠ 0) (ubase db : U64) (n : Nat) (st : BitState)
    (prev : U64) (s : Bytes) : (readDeltas signed width ubase db n st prev).runBuf s =
      ((readBitsN st width n).runBuf s >>= fun p => .ok (scanDelta signed db prev p.1, p.2)) := by
  induction n generalizing st prev s with
  | zero => rfl
  | succ n ih =>
    simp only [readDeltas, if_neg hw, readBitsN, Dec.runBuf_bind]
    cases (readBits st width).runBuf s with
    | err e => rfl
    | panic => rfl
    | hang => rfl
    | ok p =>
      obtain ⟨⟨v, st'⟩, s'⟩ := p
      simp only [Res.ok_bind, ih]
      cases (readBitsN st' width n).runBuf s' with
      | err e => rfl
      | panic => rfl
      | hang => rfl
      | ok q => rfl

theorem readDeltas_fixed (signed : Bool) (ubase db : U64) (n : Nat) (st : BitState) (prev : U64) (s : Bytes) :
    (readDeltas signed 0 ubase db n st prev).runBuf s =
      .ok (List.replicate n (addDeltaBase signed ubase db), s) := by
  induction n generalizing st prev s with
  | zero => rfl
  | succ n ih => simp only [readDeltas, if_true, Dec.runBuf_bind, ih, Res.ok_bind]; rfl

theorem firstBytes_eq (signed : Bool) (v : U64) : firstBytes signed v = putUvarint 8 v := by
  cases signed
  · rfl
  · simp only [firstBytes, if_true, putVarint_eq, zigzag_unZigzag]

/-! Deltas as bits -/

theorem bytesBits_beBytes (d : U64) (n : Nat) : bytesBits (beBytes d n) = natBits (8 * n) d.toNat := by
  induction n with
  | zero => rfl
  | succ n ih =>
    rw [beBytes, bytesBits_cons, ih, show 8 * (n + 1) = 8 + 8 * n by omega, natBits_append]
    congr 1
    rw [BitVec.toNat_setWidth, natBits_mod, BitVec.toNat_ushiftRight, Nat.shiftRight_eq_div_pow]

theorem low_bits (a : U64) (k : Nat) (hk : k < 8) :
    (a &&& (1#64 <<< k - 1#64)).setWidth 8 = BitVec.ofNat 8 (a.toNat % 2 ^ k) := by
  apply BitVec.eq_of_toNat_eq
  rw [BitVec.toNat_setWidth, mask64_toNat a k (by omega), BitVec.toNat_ofNat]

theorem low2 (a : U64) : (a &&& 3#64).setWidth 8 = BitVec.ofNat 8 (a.toNat % 4) := low_bits a 2 (by omega)
theorem low4 (a : U64) : (a &&& 0xf#64).setWidth 8 = BitVec.ofNat 8 (a.toNat % 16) := low_bits a 4 (by omega)

theorem four_bits : ∀ a b c d : Fin 4,
    natBits 8 ((BitVec.ofNat 8 a.val <<< 6) ||| (BitVec.ofNat 8 b.val <<< 4) ||| (BitVec.ofNat 8 c.val <<< 2) |||
      BitVec.ofNat 8 d.val).toNat = natBits 2 a.val ++ natBits 2 b.val ++ natBits 2 c.val ++ natBits 2 d.val := by
  decide +kernel

theorem two_bits : ∀ a b : Fin 16,
    natBits 8 ((BitVec.ofNat 8 a.val <<< 4) ||| BitVec.ofNat 8 b.val).toNat = natBits 4 a.val ++ natBits 4 b.val := by
  decide +kernel

theorem pack2_byte (a b c d : U64) :
    natBits 8 (((a &&& 3#64).setWidth 8 <<< 6) ||| ((b &&& 3#64).setWidth 8 <<< 4) |||
      ((c &&& 3#64).setWidth 8 <<< 2) ||| (d &&& 3#64).setWidth 8).toNat =
      natBits 2 a.toNat ++ natBits 2 b.toNat ++ natBits 2 c.toNat ++ natBits 2 d.toNat := by
  rw [low2, low2, low2, low2]
  have := four_bits ⟨a.toNat % 4, by omega⟩ ⟨b.toNat % 4, by omega⟩ ⟨c.toNat % 4, by omega⟩ ⟨d.toNat % 4, by omega⟩
  simp only at this
  rw [this]
  simp only [show (4 : Nat) = 2 ^ 2 from rfl, natBits_mod]

theorem pack4_byte (a b : U64) :
    natBits 8 (((a &&& 0xf#64).setWidth 8 <<< 4) ||| (b &&& 0xf#64).setWidth 8).toNat =
      natBits 4 a.toNat ++ natBits 4 b.toNat := by
  rw [low4, low4]
  have := two_bits ⟨a.toNat % 16, by omega⟩ ⟨b.toNat % 16, by omega⟩
  simp only at this
  rw [this]
  simp only [show (16 : Nat) = 2 ^ 4 from rfl, natBits_mod]

theorem packDeltas2_bits (ds : List U64) :
    ∃ pad, bytesBits (packDeltas2 ds) = ds.flatMap (fun d => natBits 2 d.toNat) ++ pad ∧ pad.length < 8 := by
  induction ds using packDeltas2.induct with
  | case1 => exact ⟨[], rfl, by decide⟩
  | case2 a =>
    refine ⟨natBits 6 0, ?_, by decide⟩
    have := pack2_byte a 0 0 0
    simp only [packDeltas2, bytesBits_cons, bytesBits_nil, List.append_nil]
    rw [show ((a &&& 3#64).setWidth 8 <<< 6) = (((a &&& 3#64).setWidth 8 <<< 6) ||| (((0#64) &&& 3#64).setWidth 8 <<< 4) |||
      (((0#64) &&& 3#64).setWidth 8 <<< 2) ||| ((0#64) &&& 3#64).setWidth 8) by simp]
    erw [this]
    simp [List.append_assoc]
    rfl
  | case3 a b =>
    refine ⟨natBits 4 0, ?_, by decide⟩
    have := pack2_byte a b 0 0
    simp only [packDeltas2, bytesBits_cons, bytesBits_nil, List.append_nil]
    rw [show (((a &&& 3#64).setWidth 8 <<< 6) ||| ((b &&& 3#64).setWidth 8 <<< 4)) = (((a &&& 3#64).setWidth 8 <<< 6) ||| ((b &&& 3#64).setWidth 8 <<< 4) |||
      (((0#64) &&& 3#64).setWidth 8 <<< 2) ||| ((0#64) &&& 3#64).setWidth 8) by simp]
    erw [this]
    simp [List.append_assoc]
    rfl
  | case4 a b c =>
    refine ⟨natBits 2 0, ?_, by decide⟩
    have := pack2_byte a b c 0
    simp only [packDeltas2, bytesBits_cons, bytesBits_nil, List.append_nil]
    rw [show (((a &&& 3#64).setWidth 8 <<< 6) ||| ((b &&& 3#64).setWidth 8 <<< 4) |||
      ((c &&& 3#64).setWidth 8 <<< 2)) = (((a &&& 3#64).setWidth 8 <<< 6) ||| ((b &&& 3#64).setWidth 8 <<< 4) |||
      ((c &&& 3#64).setWidth 8 <<< 2) ||| ((0#64) &&& 3#64).setWidth 8) by simp]
    erw [this]
    simp [List.append_assoc]
  | case5 a b c d ds ih =>
    obtain ⟨pad, h1, h2⟩ := ih
    exact ⟨pad, by simp only [packDeltas2, bytesBits_cons, pack2_byte, h1, List.flatMap_cons, List.append_assoc], h2⟩

theorem packDeltas4_bits (ds : List U64) :
    ∃ pad, bytesBits (packDeltas4 ds) = ds.flatMap (fun d => natBits 4 d.toNat) ++ pad ∧ pad.length < 8 := by
  induction ds using packDeltas4.induct with
  | case1 => exact ⟨[], rfl, by decide⟩
  | case2 a =>
    refine ⟨natBits 4 0, ?_, by decide⟩
    have := pack4_byte a 0
    simp only [packDeltas4, bytesBits_cons, bytesBits_nil, List.append_nil]
    rw [show ((a &&& 0xf#64).setWidth 8 <<< 4) = (((a &&& 0xf#64).setWidth 8 <<< 4) ||| ((0#64) &&& 0xf#64).setWidth 8) by simp]
    erw [this]
    simp
  | case3 a b ds ih =>
    obtain ⟨pad, h1, h2⟩ := ih
    exact ⟨pad, by simp only [packDeltas4, bytesBits_cons, pack4_byte, h1, List.flatMap_cons, List.append_assoc], h2⟩

theorem packDeltas_bits (w : Nat) (ds : List U64) (hd : ds ≠ [])
    (hw : w ∈ [2, 4, 8, 16, 24, 32, 40, 48, 56, 64]) :
    ∃ body pad, packDeltas w ds = .ok body ∧
      bytesBits body = ds.flatMap (fun d => natBits w d.toNat) ++ pad ∧ pad.length < 8 := by
  by_cases h2 : w = 2
  · subst h2
    obtain ⟨pad, h, h'⟩ := packDeltas2_bits ds
    exact ⟨_, pad, by simp [packDeltas, hd], h, h'⟩
  by_cases h4 : w = 4
  · subst h4
    obtain ⟨pad, h, h'⟩ := packDeltas4_bits ds
    exact ⟨_, pad, by simp [packDeltas, hd], h, h'⟩
  have hmem : w ∈ [8, 16, 24, 32, 40, 48, 56, 64] := by simp at hw ⊢; omega
  refine ⟨ds.flatMap fun d => beBytes d (w / 8), [], by simp only [packDeltas, if_neg hd, if_neg h2, if_neg h4, if_pos hmem], ?_, by simp⟩
  have h8 : 8 * (w / 8) = w := by simp at hmem; omega
  rw [List.append_nil]
  clear hd
  induction ds with
  | nil => rfl
  | cons d ds ih => simp only [List.flatMap_cons, bytesBits_append, ih, bytesBits_beBytes, h8]

/-- Header of a delta block. -/
theorem decodeRaw_delta (signed : Bool) (code : Byte) (hc : code.toNat < 32) (l : Nat) (v0 base : U64) (s : Bytes) (w : Nat)
    (hw : widthDecoding code true = .ok w) :
    (decodeRaw signed).runBuf (header2 3 code l ++ uvarintBytes 9 v0 ++ uvarintBytes 9 (zigzag base) ++ s) =
      ((readDeltas signed w v0 base (l % 512 + 1 - 2) forgetBits (addDeltaBase signed v0 base)).runBuf s >>= fun p =>
        .ok (v0 :: addDeltaBase signed v0 base :: p.1, p.2)) := by
  obtain ⟨h0, h1, hh, g1, g2, g3⟩ := header2_fields 3 (by omega) code hc l
  rw [hh]
  have e1 : ¬ (3 = 0) := by omega
  have e2 : ¬ (3 = 1) := by omega
  have e3 : ¬ (3 = 2) := by omega
  cases signed
  · simp only [List.cons_append, List.nil_append, List.append_assoc, decodeRaw, Dec.runBuf_bind, Dec.runBuf_byte_cons, Res.ok_bind, g1,
      if_neg e1, if_neg e2, if_neg e3, decodeDelta, g2, hw, g3, Dec.ofRes, Dec.runBuf_ret, readUvarint_uvarintBytes,
      readVarint_zigzag, Dec.pure_eq, if_false, Bool.false_eq_true]
  · have hz : ∀ t, readVarint.runBuf (uvarintBytes 9 v0 ++ t) = .ok (unZigzag v0, t) := fun t => by
      have := readVarint_zigzag (unZigzag v0) t
      rwa [zigzag_unZigzag] at this
    simp only [List.cons_append, List.nil_append, List.append_assoc, decodeRaw, Dec.runBuf_bind, Dec.runBuf_byte_cons, Res.ok_bind, g1,
      if_neg e1, if_neg e2, if_neg e3, decodeDelta, g2, hw, g3, Dec.ofRes, Dec.runBuf_ret, hz,
      readVarint_zigzag, Dec.pure_eq, if_true, zigzag_unZigzag]

theorem fixedDelta_block (signed : Bool) (x : U64) (n : Nat) (hn : 2 ≤ n) (hn' : n ≤ 512) (hx : x.toNat < 2 ^ 56)
    (tail : Bytes) :
    ∃ first out, firstBytes signed x = .ok first ∧ writeDelta first 0 (BitVec.ofNat 16 n) [] = .ok out ∧
      (decodeRaw signed).runBuf (out ++ tail) = .ok (List.replicate n x, tail) := by
  refine ⟨_, header2 3 0 (n - 1) ++ uvarintBytes 9 x ++ uvarintBytes 9 (zigzag 0), by rw [firstBytes_eq, putUvarint8, if_pos hx], ?_, ?_⟩
  · have hdb : putVarint 8 0 = .ok (uvarintBytes 9 (zigzag 0)) := by
      rw [putVarint_eq, putUvarint8, if_pos (by decide)]
    have hl : (BitVec.ofNat 16 n - 1#16).toNat = n - 1 := by
      rw [BitVec.toNat_sub, BitVec.toNat_ofNat]; simp; omega
    have hl' : (BitVec.ofNat 16 n - 1).toNat = n - 1 := hl
    simp only [writeDelta, maxWidth]
    rw [hdb, hl']
    simp [widthEncoding, packDeltas]
  · have := decodeRaw_delta signed 0 (by decide) (n - 1) x 0 tail 0 (by decide)
    rw [this, readDeltas_fixed]
    have ha : addDeltaBase signed x 0 = x := by
      cases signed
      · simp [addDeltaBase]
      · have : unZigzag x + 0 = unZigzag x := by grind
        simp only [addDeltaBase, if_true, this, zigzag_unZigzag]
    rw [ha, show (n - 1) % 512 + 1 - 2 = n - 2 by omega]
    simp only [Res.ok_bind]
    rw [← List.replicate_succ, ← List.replicate_succ, show n - 2 + 1 + 1 = n by omega]

/-- What a delta block decodes to. -/
theorem delta_block (signed : Bool) (v0 base : U64) (ds : List U64) (hd : ds ≠ []) (hl : ds.length + 2 ≤ 512)
    (hz : ∃ d ∈ ds, d ≠ 0) (h12 : maxWidth getAlignedWidth ds ≠ 12)
    (hx : v0.toNat < 2 ^ 56) (hb : (zigzag base).toNat < 2 ^ 56) (tail : Bytes) :
    ∃ first out, firstBytes signed v0 = .ok first ∧
      writeDelta first base (BitVec.ofNat 16 (ds.length + 2)) ds = .ok out ∧
      (decodeRaw signed).runBuf (out ++ tail) = .ok (v0 :: addDeltaBase signed v0 base ::
        scanDelta signed base (addDeltaBase signed v0 base) ds, tail) := by
  obtain ⟨hmem, hzero⟩ := maxAligned_cases ds
  have hlt := maxAligned_lt ds
  have hne : maxWidth getAlignedWidth ds ≠ 0 := by
    intro h0
    obtain ⟨v, hv, hv0⟩ := hz
    exact hv0 (hzero.mp h0 v hv)
  obtain ⟨w, hw⟩ : ∃ w, w = (if maxWidth getAlignedWidth ds = 1 then 2 else maxWidth getAlignedWidth ds) := ⟨_, rfl⟩
  have hwm : w ∈ [2, 4, 8, 16, 24, 32, 40, 48, 56, 64] := by
    rw [hw]
    simp at hmem ⊢
    split <;> omega
  have hwlt : ∀ v ∈ ds, v.toNat < 2 ^ w := by
    intro v hv
    refine Nat.lt_of_lt_of_le (hlt v hv) (Nat.pow_le_pow_right (by omega) ?_)
    rw [hw]; split <;> omega
  obtain ⟨body, pad, p1, p2, p3⟩ := packDeltas_bits w ds hd hwm
  obtain ⟨code, hc⟩ : ∃ code, widthEncoding w = .ok code := by
    rw [widthEncoding_ok_iff]; simp at hwm ⊢; omega
  have hrt := width_roundtrip_iff w code true hc
  have hwd : widthDecoding code true = .ok w := hrt.1.mpr (by simp at hwm ⊢; omega)
  refine ⟨_, header2 3 code (ds.length + 1) ++ uvarintBytes 9 v0 ++ uvarintBytes 9 (zigzag base) ++ body,
    by rw [firstBytes_eq, putUvarint8, if_pos hx], ?_, ?_⟩
  · have hdb : putVarint 8 base = .ok (uvarintBytes 9 (zigzag base)) := by
      rw [putVarint_eq, putUvarint8, if_pos hb]
    have hl' : (BitVec.ofNat 16 (ds.length + 2) - 1).toNat = ds.length + 1 := by
      have hl : (BitVec.ofNat 16 (ds.length + 2) - 1#16).toNat = ds.length + 1 := by
        rw [BitVec.toNat_sub, BitVec.toNat_ofNat]; simp; omega
      exact hl
    simp only [writeDelta]
    rw [← hw, hc, hdb, hl', p1]
    rfl
  · have := decodeRaw_delta signed code hrt.2 (ds.length + 1) v0 base (body ++ tail) w hwd
    rw [← List.append_assoc] at this
    rw [this, readDeltas_eq _ _ (by simp at hwm; omega), show (ds.length + 1) % 512 + 1 - 2 = ds.length by omega]
    have hf : Fits 0 w ds.length := by
      simp at hwm
      by_cases hs : w + 7 ≤ 64
      · exact fits_of_small hs
      · exact fits_of_bytes (by omega) (by omega)
    obtain ⟨st', s', h5, h6, h7⟩ := readBitsN_spec w ds forgetBits forgetBits_wf 0 ⟨by omega, rfl⟩ hf (body ++ tail)
      hwlt (pad ++ bytesBits tail) (by simp [p2, List.append_assoc])
    have := byte_boundary h6 p3 h7
    rw [h5, this]
    rfl

end Goorc
