import Verif.Proofs.IntTry
import Verif.Spec.IntSafe
namespace Goorc

theorem beBytes_succ (x : U64) (n : Nat) : beBytes x (n + 1) = byteAt x n :: beBytes x n := rfl

theorem beBytes_congr (x y : U64) (n : Nat) (h : x.toNat % 256 ^ n = y.toNat % 256 ^ n) : beBytes x n = beBytes y n := by
  induction n with
  | zero => rfl
  | succ n ih =>
    have h1 : byteAt x n = byteAt y n := by
      apply BitVec.eq_of_toNat_eq
      rw [byteAt_toNat, byteAt_toNat]
      have := congrArg (· / 256 ^ n) h
      simp only [Nat.pow_succ, Nat.mod_mul_right_div_self] at this
      exact this
    rw [beBytes_succ, beBytes_succ, h1, ih]
    have := congrArg (· % 256 ^ n) h
    simpa [Nat.pow_succ, Nat.mod_mul_right_mod] using this

theorem beValue_beBytes (x : U64) (n : Nat) (hn : n ≤ 8) : (beValue (beBytes x n)).toNat = x.toNat % 256 ^ n := by
  induction n with
  | zero => simp [beBytes, beValue, Nat.mod_one]
  | succ n ih =>
    have ih := ih (by omega)
    have hb := (byteAt x n).isLt
    have hp : (256 : Nat) ^ n = 2 ^ (8 * n) := by rw [Nat.pow_mul]
    have hw : ((byteAt x n).setWidth 64).toNat = (byteAt x n).toNat := by rw [BitVec.toNat_setWidth]; omega
    have hsh : (byteAt x n).toNat * 2 ^ (8 * n) < 2 ^ 64 := by
      have : (byteAt x n).toNat * 2 ^ (8 * n) < 2 ^ 8 * 2 ^ (8 * n) :=
        Nat.mul_lt_mul_of_pos_right hb (Nat.pow_pos (by omega))
      rw [← Nat.pow_add] at this
      exact Nat.lt_of_lt_of_le this (Nat.pow_le_pow_right (by omega) (by omega))
    have hlt : (beValue (beBytes x n)).toNat < 2 ^ (8 * n) := by
      rw [ih, hp]; exact Nat.mod_lt _ (Nat.pow_pos (by omega))
    rw [beBytes_succ, beValue, beBytes_length, BitVec.toNat_or, BitVec.toNat_shiftLeft, hw, Nat.shiftLeft_eq,
      Nat.mod_eq_of_lt hsh, ← Nat.shiftLeft_eq, ← Nat.shiftLeft_add_eq_or_of_lt hlt, Nat.shiftLeft_eq, ih,
      byteAt_toNat, Nat.pow_succ, Nat.mod_mul, ← hp, Nat.mul_comm]
    omega

/-- The base of a patched block survives. -/
theorem patchBase_spec (m : U64) (s : Bool) (n : Nat) (hn : n < 8) (hm : m.toNat < 2 ^ (8 * n + 7)) :
    patchBase (beBytes (if s then m ||| (1#64 <<< (n * 8 + 7)) else m) (n + 1)) = if s then -m else m := by
  have hp : (256 : Nat) ^ n = 2 ^ (8 * n) := by rw [Nat.pow_mul]
  have hpos : 0 < 2 ^ (8 * n) := Nat.pow_pos (by omega)
  obtain ⟨X, hX⟩ : ∃ X, X = (if s then m ||| (1#64 <<< (n * 8 + 7)) else m) := ⟨_, rfl⟩
  have hXn : X.toNat = m.toNat + (if s then 128 * 2 ^ (8 * n) else 0) := by
    rw [hX]
    cases s
    · simp
    · have h1 : (1#64 <<< (n * 8 + 7)).toNat = 2 ^ (8 * n + 7) := by
        rw [BitVec.toNat_shiftLeft, Nat.shiftLeft_eq, Nat.mul_comm n 8]
        simp only [BitVec.toNat_ofNat, Nat.one_mod, Nat.one_mul]
        have : 2 ^ (8 * n + 7) < 2 ^ 64 := Nat.pow_lt_pow_right (by omega) (by omega)
        exact Nat.mod_eq_of_lt this
      simp only [if_true]
      rw [BitVec.toNat_or, h1, Nat.or_comm]
      have := Nat.shiftLeft_add_eq_or_of_lt hm 1
      rw [Nat.shiftLeft_eq, Nat.one_mul] at this
      rw [← this, Nat.pow_add, Nat.mul_comm (2 ^ (8 * n))]
      omega
  rw [← hX, beBytes_succ]
  have hlow : X.toNat % 256 ^ n = m.toNat % 256 ^ n := by
    rw [hXn, hp]
    cases s
    · simp
    · simp only [if_true, Nat.add_mul_mod_self_right]
  have hdiv : m.toNat / 2 ^ (8 * n) < 128 := by
    rw [Nat.div_lt_iff_lt_mul hpos, Nat.mul_comm]
    rw [Nat.pow_add] at hm
    exact hm
  have hbyte : (byteAt X n).toNat = m.toNat / 2 ^ (8 * n) + (if s then 128 else 0) := by
    rw [byteAt_toNat, hXn, hp]
    cases s
    · simp; omega
    · simp only [if_true, Nat.add_mul_div_right _ _ hpos]; exact Nat.mod_eq_of_lt (by omega)
  have hm7 : byteAt m n = BitVec.ofNat 8 (m.toNat / 2 ^ (8 * n)) := by
    apply BitVec.eq_of_toNat_eq
    rw [byteAt_toNat, BitVec.toNat_ofNat, hp]
  have hand : byteAt X n &&& 0x7f#8 = byteAt m n ∧ (byteAt X n >>> 7 = 1#8 ↔ s = true) := by
    have key : ∀ (b : Fin 128) (s : Bool), (BitVec.ofNat 8 (b.val + (if s then 128 else 0))) &&& 0x7f#8 = BitVec.ofNat 8 b.val ∧
        ((BitVec.ofNat 8 (b.val + (if s then 128 else 0))) >>> 7 = 1#8 ↔ s = true) := by decide +kernel
    have := key ⟨_, hdiv⟩ s
    simp only at this
    rw [← hbyte, BitVec.ofNat_toNat, BitVec.setWidth_eq, ← hm7] at this
    exact this
  have hval : beValue ((byteAt X n &&& 0x7f#8) :: beBytes X n) = m := by
    rw [hand.1, beBytes_congr X m n hlow, ← beBytes_succ]
    apply BitVec.eq_of_toNat_eq
    rw [beValue_beBytes m (n + 1) (by omega)]
    apply Nat.mod_eq_of_lt
    refine Nat.lt_of_lt_of_le hm ?_
    rw [show (256 : Nat) = 2 ^ 8 from rfl, ← Nat.pow_mul]
    exact Nat.pow_le_pow_right (by omega) (by omega)
  simp only [patchBase, hval]
  cases s
  · have : ¬ (byteAt X n >>> 7 = 1#8) := fun h => by simpa using hand.2.mp h
    simp [this]
  · simp [hand.2.mpr rfl]

/-- Header of a patched block. -/
theorem patch_header (code pw : Byte) (hc : code.toNat < 32) (hpw : pw.toNat < 32) (bw pgw pll l : Nat)
    (hbw : 1 ≤ bw ∧ bw ≤ 8) (hpgw : 1 ≤ pgw ∧ pgw ≤ 8) (hpll : pll < 32) :
    let h0 : Byte := 0x80#8 ||| (code <<< 1) ||| BitVec.ofNat 8 ((l >>> 8) % 2)
    let h1 := BitVec.ofNat 8 l
    let h2 := (BitVec.ofNat 8 (bw - 1) <<< 5) ||| (pw &&& 0x1f#8)
    let h3 := (((BitVec.ofNat 8 pgw - 1#8) &&& 7#8) <<< 5) ||| (BitVec.ofNat 8 pll &&& 0x1f#8)
    (h0 >>> 6).toNat = 2 ∧ (h0 >>> 1) &&& 0x1f#8 = code ∧ h0.toNat % 2 * 256 + h1.toNat + 1 = l % 512 + 1 ∧
      ((h2 >>> 5) &&& 0x07#8).toNat + 1 = bw ∧ h2 &&& 0x1f#8 = pw ∧
      ((h3 >>> 5) &&& 0x07#8).toNat + 1 = pgw ∧ (h3 &&& 0x1f#8).toNat = pll := by
  intro h0 h1 h2 h3
  have k0 : ∀ (code : Fin 32) (b : Fin 2), let h0 : Byte := 0x80#8 ||| (BitVec.ofNat 8 code.val <<< 1) ||| BitVec.ofNat 8 b.val
      (h0 >>> 6).toNat = 2 ∧ (h0 >>> 1) &&& 0x1f#8 = BitVec.ofNat 8 code.val ∧ h0.toNat % 2 = b.val := by decide +kernel
  have k2 : ∀ (bw : Fin 8) (pw : Fin 32), let h2 : Byte := (BitVec.ofNat 8 bw.val <<< 5) ||| (BitVec.ofNat 8 pw.val &&& 0x1f#8)
      ((h2 >>> 5) &&& 0x07#8).toNat = bw.val ∧ h2 &&& 0x1f#8 = BitVec.ofNat 8 pw.val := by decide +kernel
  have k3 : ∀ (pgw : Fin 8) (pll : Fin 32), let h3 : Byte := (((BitVec.ofNat 8 (pgw.val + 1) - 1#8) &&& 7#8) <<< 5) ||| (BitVec.ofNat 8 pll.val &&& 0x1f#8)
      ((h3 >>> 5) &&& 0x07#8).toNat = pgw.val ∧ (h3 &&& 0x1f#8).toNat = pll.val := by decide +kernel
  obtain ⟨c, rfl⟩ := bv8_ofNat_toNat_lt code 32 hc
  obtain ⟨p, rfl⟩ := bv8_ofNat_toNat_lt pw 32 hpw
  have g0 := k0 c ⟨(l >>> 8) % 2, by omega⟩
  have g2 := k2 ⟨bw - 1, by omega⟩ p
  have g3 := k3 ⟨pgw - 1, by omega⟩ ⟨pll, hpll⟩
  simp only [Nat.sub_add_cancel hpgw.1] at g0 g2 g3
  refine ⟨g0.1, g0.2.1, ?_, ?_, g2.2, ?_, g3.2⟩
  · show h0.toNat % 2 * 256 + h1.toNat + 1 = l % 512 + 1
    have e : h0.toNat % 2 = (l >>> 8) % 2 := g0.2.2
    rw [e, BitVec.toNat_ofNat, Nat.shiftRight_eq_div_pow]; omega
  · have := g2.1; show ((h2 >>> 5) &&& 0x07#8).toNat + 1 = bw
    have e : ((h2 >>> 5) &&& 0x07#8).toNat = bw - 1 := g2.1
    omega
  · have e : ((h3 >>> 5) &&& 0x07#8).toNat = pgw - 1 := g3.1
    show ((h3 >>> 5) &&& 0x07#8).toNat + 1 = pgw
    omega

theorem maxBits_lt (vs : List U64) : ∀ v ∈ vs, v.toNat < 2 ^ maxWidth getBitsWidth vs := fun v hv =>
  Nat.lt_of_lt_of_le (lt_two_pow_bitsWidth v) (Nat.pow_le_pow_right (by omega) (le_maxWidth _ _ v hv))

theorem maxBits_le (vs : List U64) (k : Nat) : maxWidth getBitsWidth vs ≤ k ↔ ∀ v ∈ vs, v.toNat < 2 ^ k := by
  constructor
  · intro h v hv
    exact Nat.lt_of_lt_of_le (maxBits_lt vs v hv) (Nat.pow_le_pow_right (by omega) h)
  · intro h
    by_cases he : vs = []
    · subst he; simp [maxWidth]
    · obtain ⟨v, hv, e⟩ := maxWidth_mem getBitsWidth vs he
      rw [e, getBitsWidth_le_iff]; exact h v hv

theorem collectPatches_nonzero (w i prev : Nat) (ds : List U64) (d : U64) (hd : d ∈ ds) (hw : getBitsWidth d > w) :
    ∃ p ∈ (collectPatches w i prev ds).2.2, p ≠ 0 := by
  induction ds generalizing i prev with
  | nil => simp at hd
  | cons v vs ih =>
    by_cases hv : getBitsWidth v > w
    · simp only [collectPatches, if_pos hv]
      refine ⟨v >>> w, by simp, fun h0 => ?_⟩
      have : ¬ v.toNat < 2 ^ w := fun h => by
        have := (getBitsWidth_le_iff v w).mpr h; omega
      have h0' := congrArg BitVec.toNat h0
      rw [BitVec.toNat_ushiftRight, Nat.shiftRight_eq_div_pow] at h0'
      rcases Nat.div_eq_zero_iff.mp h0' with h | h
      · have := Nat.pow_pos (n := w) (show 0 < 2 by omega); omega
      · exact this h
    · simp only [collectPatches, if_neg hv]
      rcases List.mem_cons.mp hd with rfl | hd'
      · omega
      · exact ih _ _ hd'

/-- What `tryPatch` returns. -/
theorem tryPatch_spec (vals : List U64) (pvs : PatchedValues) (h : tryPatch vals = .ok (some pvs)) :
    pvs.count = vals.length ∧ pvs.width < 64 ∧ pvs.patches.length ≤ 31 ∧ 2 ≤ vals.length ∧
    pvs.values.length = vals.length ∧ pvs.gaps.length = pvs.patches.length ∧
    (∀ g ∈ pvs.gaps, g ≤ 255) ∧ (∀ v ∈ pvs.values, v.toNat < 2 ^ pvs.width) ∧
    (∃ p ∈ pvs.patches, p ≠ 0) ∧
    (pvs.values, pvs.gaps, pvs.patches) = collectPatches pvs.width 0 0 (vals.map fun v => unZigzag v - pvs.base) := by
  match vals, h with
  | v0 :: v1 :: vs, h =>
    simp only [tryPatch] at h
    split at h
    case isFalse => simp at h
    case isTrue hwid =>
      split at h
      case isTrue => simp at h
      case isFalse hp =>
        simp only [Res.ok.injEq, Option.some.injEq] at h
        subst h
        generalize hb : minSigned (unZigzag v0) (List.map unZigzag (v1 :: vs)) = base at *
        generalize hd : List.map (fun v => unZigzag v - base) (v0 :: v1 :: vs) = deltas at *
        have hlen : deltas.length = (v0 :: v1 :: vs).length := by rw [← hd]; simp
        generalize findP90 _ _ 65 0 0 = w at *
        have hw64 : w < 64 := by
          have : maxWidth getBitsWidth deltas ≤ 64 := (maxBits_le deltas 64).mpr fun v _ => v.isLt
          omega
        have hne : deltas ≠ [] := by intro h0; rw [h0] at hlen; simp at hlen
        obtain ⟨d, hd1, hd2⟩ := maxWidth_mem getBitsWidth deltas hne
        obtain ⟨l1, l2⟩ := collectPatches_lengths w 0 0 deltas
        refine ⟨rfl, hw64, by simp only; omega, by simp, by simp only [l1, hlen], l2,
          collectPatches_gaps_le w 0 0 deltas, collectPatches_vals_lt w 0 0 hw64 deltas,
          collectPatches_nonzero w 0 0 deltas d hd1 (by omega), ?_⟩
        rfl

theorem patch_block (vals : List U64) (pvs : PatchedValues) (h : tryPatch vals = .ok (some pvs))
    (hs : PatchSafe vals pvs) (out : Bytes) (ho : writePatch pvs = .ok out) (tail : Bytes) :
    (decodeRaw true).runBuf (out ++ tail) = .ok (vals, tail) := by
  obtain ⟨-, hw64, hpll, hlen2, hvl, hgl, hg255, hvlt, ⟨p0, hp0, hp0'⟩, hcol⟩ := tryPatch_spec vals pvs h
  -- the patches reproduce the values
  obtain ⟨PW, hPW⟩ : ∃ PW, PW = maxWidth getBitsWidth pvs.patches := ⟨_, rfl⟩
  obtain ⟨PG, hPG⟩ : ∃ PG, PG = maxWidth getBitsWidth (pvs.gaps.map (BitVec.ofNat 64)) := ⟨_, rfl⟩
  have hent := hs.entry
  rw [← hPW, ← hPG] at hent
  have hgaps : ∀ g ∈ pvs.gaps, g < 2 ^ PG := by
    intro g hg
    have := maxBits_lt (pvs.gaps.map (BitVec.ofNat 64)) (BitVec.ofNat 64 g) (List.mem_map_of_mem hg)
    rw [← hPG, BitVec.toNat_ofNat, Nat.mod_eq_of_lt (by have := hg255 g hg; omega)] at this
    exact this
  have hpatches : ∀ p ∈ pvs.patches, p.toNat < 2 ^ PW := by rw [hPW]; exact maxBits_lt _
  have hPW1 : PW ≠ 0 := by
    intro h0
    have := hpatches p0 hp0
    rw [h0] at this
    exact hp0' (BitVec.eq_of_toNat_eq (by simpa using this))
  have hPG1 : 1 ≤ PG ∧ PG ≤ 8 := by
    constructor
    · rcases Nat.eq_zero_or_pos PG with h0 | h0
      · obtain ⟨g, hg, hg0⟩ := hs.gap
        have := hgaps g hg
        rw [h0] at this; omega
      · exact h0
    · rw [hPG, maxBits_le]
      intro v hv
      obtain ⟨g, hg, rfl⟩ := List.mem_map.mp hv
      have := hg255 g hg
      rw [BitVec.toNat_ofNat]; omega
  have happ := collectPatches_apply pvs.width PW PG hw64 (by omega) (by omega) pvs.base
    (vals.map fun v => unZigzag v - pvs.base) 0 0 (Nat.le_refl _) [] rfl
    (by rw [← hcol]; exact hpatches) (by rw [← hcol]; exact hgaps)
  rw [← hcol] at happ
  simp only [List.nil_append, List.map_map] at happ
  have hid : (vals.map ((fun d => zigzag (pvs.base + d)) ∘ fun v => unZigzag v - pvs.base)) = vals := by
    have : ((fun d => zigzag (pvs.base + d)) ∘ fun v => unZigzag v - pvs.base) = id := by
      funext v
      simp only [Function.comp, id]
      rw [show pvs.base + (unZigzag v - pvs.base) = unZigzag v by grind, zigzag_unZigzag]
    rw [this, List.map_id]
  rw [hid] at happ
  -- the bytes written
  simp only [writePatch, ← hPW, ← hPG] at ho
  cases hc : widthEncoding pvs.width with
  | err e => simp [hc] at ho
  | panic => simp [hc] at ho
  | hang => simp [hc] at ho
  | ok code =>
  cases hpc : widthEncoding PW with
  | err e => simp [hc, hpc] at ho
  | panic => simp [hc, hpc] at ho
  | hang => simp [hc, hpc] at ho
  | ok pcode =>
  cases hwb : writeBitsAll forgetBits pvs.values pvs.width with
  | err e => simp [hc, hpc, hwb] at ho
  | panic => simp [hc, hpc, hwb] at ho
  | hang => simp [hc, hpc, hwb] at ho
  | ok r =>
  obtain ⟨st, body⟩ := r
  obtain ⟨entries, hen⟩ : ∃ entries, entries = List.zipWith (fun g p => (BitVec.ofNat 64 g <<< PW) ||| p) pvs.gaps pvs.patches := ⟨_, rfl⟩
  have hnot : ¬ (PG + PW > 64) := by omega
  have hnot' : ¬ (64 < PG + PW) := by omega
  cases hwe : writeBitsAll forgetBits entries (PG + PW) with
  | err e => simp [hc, hpc, hwb, ← hen, hwe, hnot'] at ho
  | panic => simp [hc, hpc, hwb, ← hen, hwe, hnot'] at ho
  | hang => simp [hc, hpc, hwb, ← hen, hwe, hnot'] at ho
  | ok r2 =>
  obtain ⟨st2, body2⟩ := r2
  obtain ⟨m, hm⟩ : ∃ m, m = (if pvs.base.msb then -pvs.base else pvs.base) := ⟨_, rfl⟩
  obtain ⟨bw, hbw⟩ : ∃ bw, bw = (getBitsWidth m + 8) / 8 := ⟨_, rfl⟩
  simp only [hc, hpc, hwb, Res.ok_bind, ← hen, hwe, if_neg hnot, Res.pure_eq, Res.ok.injEq, ← hm, ← hbw] at ho
  have hm63 : m.toNat < 2 ^ 63 := by
    have hb := hs.base
    rw [hm]
    by_cases hmsb : pvs.base.msb = true
    · rw [if_pos hmsb]
      have h1 : 2 ^ 63 ≤ pvs.base.toNat := by
        rw [BitVec.msb_eq_decide] at hmsb; simpa using hmsb
      have h2 : pvs.base.toNat ≠ 2 ^ 63 := fun h => hb (BitVec.eq_of_toNat_eq (by simpa using h))
      have h3 := pvs.base.isLt
      rw [BitVec.toNat_neg]
      omega
    · rw [if_neg hmsb]
      rw [BitVec.msb_eq_decide] at hmsb
      simpa using hmsb
  have hbits : getBitsWidth m ≤ 63 := (getBitsWidth_le_iff m 63).mpr hm63
  have hbw8 : 1 ≤ bw ∧ bw ≤ 8 := by omega
  have hrt := width_roundtrip_iff pvs.width code false hc
  have hwd := hrt.1.mpr (by simpa using hs.width)
  have hrt2 := width_roundtrip_iff PW pcode false hpc
  have hwd2 := hrt2.1.mpr (by simpa using hPW1)
  have hh := patch_header code pcode hrt.2 hrt2.2 bw PG pvs.patches.length (pvs.values.length - 1) hbw8 hPG1 (by omega)
  simp only at hh
  obtain ⟨g1, g2, g3, g4, g5, g6, g7⟩ := hh
  have hbase : patchBase (baseBytes (if pvs.base.msb then m ||| (1#64 <<< ((bw - 1) * 8 + 7)) else m) bw) = pvs.base := by
    have := patchBase_spec m pvs.base.msb (bw - 1) (by omega) ((getBitsWidth_le_iff m _).mp (by omega))
    rw [Nat.sub_add_cancel hbw8.1] at this
    simp only [baseBytes]
    rw [this, hm]
    cases hmsb : pvs.base.msb <;> simp
  have hbl : (baseBytes (if pvs.base.msb then m ||| (1#64 <<< ((bw - 1) * 8 + 7)) else m) bw).length = bw := beBytes_length _ _
  subst ho
  generalize hBB : baseBytes (if pvs.base.msb then m ||| (1#64 <<< ((bw - 1) * 8 + 7)) else m) bw = BB at *
  generalize (0x80#8 ||| code <<< 1 ||| BitVec.ofNat 8 ((pvs.values.length - 1) >>> 8 % 2)) = h0 at *
  generalize (BitVec.ofNat 8 (bw - 1) <<< 5 ||| pcode &&& 0x1f#8) = h2 at *
  generalize ((BitVec.ofNat 8 PG - 1#8 &&& 7#8) <<< 5 ||| BitVec.ofNat 8 pvs.patches.length &&& 0x1f#8) = h3 at *
  generalize BitVec.ofNat 8 (pvs.values.length - 1) = h1 at *
  have hentlt : ∀ e ∈ entries, e.toNat < 2 ^ (PG + PW) := by
    intro e he
    rw [hen] at he
    obtain ⟨i, hi, he'⟩ := List.mem_iff_getElem.mp he
    rw [List.getElem_zipWith] at he'
    rw [List.length_zipWith] at hi
    have hgi := hgaps _ (List.getElem_mem (l := pvs.gaps) (n := i) (by omega))
    have hpi := hpatches _ (List.getElem_mem (l := pvs.patches) (n := i) (by omega))
    have := entry_toNat PW _ _ hpi PG hgi (by omega)
    rw [entryOf] at this
    rw [← he', this, Nat.pow_add]
    calc _ < pvs.gaps[i] * 2 ^ PW + 2 ^ PW := by omega
      _ = (pvs.gaps[i] + 1) * 2 ^ PW := by rw [Nat.add_mul, Nat.one_mul]
      _ ≤ 2 ^ PG * 2 ^ PW := Nat.mul_le_mul_right _ hgi
  have hentlen : entries.length = pvs.patches.length := by rw [hen, List.length_zipWith, hgl]; simp
  have r1 := write_read_all pvs.width pvs.values hvlt st body hwb (body2 ++ writeLeftBits st2 ++ tail)
  have r2 := write_read_all (PG + PW) entries hentlt st2 body2 hwe tail
  rw [hentlen] at r2
  have r3 := readPatches_eq pvs.width PW PG pvs.base pvs.patches.length forgetBits 0 _ _ entries tail r2 vals
    (by rw [hen]; exact happ)
  have e0 : ¬ (2 = 0) := by omega
  have e1 : ¬ (2 = 1) := by omega
  have e3 : ¬ (PW + PG ≥ 64) := by omega
  have hfull : ∀ t, (Dec.full 3).runBuf (h1 :: h2 :: h3 :: t) = .ok ([h1, h2, h3], t) := by
    intro t
    have := Dec.runBuf_full_append 3 [h1, h2, h3] t rfl
    simpa using this
  have hvl' : (pvs.values.length - 1) % 512 + 1 = pvs.values.length := by
    have := hs.length; omega
  simp only [List.append_assoc] at r1 r3
  simp only [List.cons_append, List.nil_append, List.append_assoc, decodeRaw, Dec.runBuf_bind, Dec.runBuf_byte_cons,
    Res.ok_bind, g1, if_neg e0, if_neg e1, if_true, decodePatched, hfull, List.getD_cons_zero, List.getD_cons_succ, g2, hwd,
    Dec.ofRes, Dec.runBuf_ret, g5, hwd2, g6, if_neg e3, g4, Dec.runBuf_full_append _ BB _ hbl, g3, hvl', r1, hbase, g7, r3]

end Goorc
