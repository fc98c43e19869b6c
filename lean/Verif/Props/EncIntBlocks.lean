import Verif.Proofs.IntAccept
/-
C16-C20: bit packing and the four kinds of integer blocks.
-/
namespace Goorc

/-! ### C16 -/

/-- A client of the bit writer: write fields of the given widths in a row. -/
def writeFields (st : BitState) : List (U64 × Nat) → Res (BitState × Bytes)
  | [] => .ok (st, [])
  | (v, w) :: fs => do
    let (st', out) ← writeBits st v w
    let (st'', out') ← writeFields st' fs
    pure (st'', out ++ out')

/-- A client of the bit reader: read fields of the given widths in a row. -/
def readFields (st : BitState) : List Nat → Dec (List U64)
  | [] => pure []
  | w :: ws => do
    let (v, st') ← readBits st w
    let vs ← readFields st' ws
    pure (v :: vs)

/-- Offsets of the fields within their first byte. -/
def FitsL : Nat → List Nat → Prop
  | _, [] => True
  | q, w :: ws => q + w ≤ 64 ∧ FitsL ((q + w) % 8) ws

theorem writeFields_spec (fs : List (U64 × Nat)) (hv : ∀ f ∈ fs, f.1.toNat < 2 ^ f.2) (st st' : BitState)
    (hst : st.WF) (out : Bytes) (h : writeFields st fs = .ok (st', out)) :
    st'.WF ∧ FitsL st.bitsLeft (fs.map (·.2)) ∧
      st.bits ++ fs.flatMap (fun f => natBits f.2 f.1.toNat) = bytesBits out ++ st'.bits := by
  induction fs generalizing st out with
  | nil =>
    simp only [writeFields, Res.ok.injEq, Prod.mk.injEq] at h
    obtain ⟨rfl, rfl⟩ := h
    exact ⟨hst, trivial, by simp⟩
  | cons f fs ih =>
    obtain ⟨v, w⟩ := f
    simp only [writeFields] at h
    obtain ⟨⟨st1, o1⟩, h1, h⟩ := Res.bind_ok_inv h
    obtain ⟨⟨st2, o2⟩, h2, h⟩ := Res.bind_ok_inv h
    simp only [Res.pure_eq, Res.ok.injEq, Prod.mk.injEq] at h
    obtain ⟨rfl, rfl⟩ := h
    have hw : st.bitsLeft + w ≤ 64 := by
      simp only [writeBits] at h1
      by_cases hgt : st.bitsLeft + w > 64
      · rw [if_pos hgt] at h1; simp at h1
      · omega
    obtain ⟨st1', o1', g1, g2, g3, g4⟩ := writeBits_spec st hst v w (hv (v, w) (by simp)) hw
    rw [h1] at g1
    cases g1
    obtain ⟨i1, i2, i3⟩ := ih (fun f hf => hv f (by simp [hf])) st1 g2 o2 h2
    rw [g3] at i2
    refine ⟨i1, ⟨hw, i2⟩, ?_⟩
    simp only [List.flatMap_cons, bytesBits_append, List.append_assoc]
    rw [← i3, ← List.append_assoc, g4, List.append_assoc]

theorem readFields_spec (fs : List (U64 × Nat)) (hv : ∀ f ∈ fs, f.1.toNat < 2 ^ f.2) (st : BitState) (hst : st.WF)
    (q : Nat) (ha : Aligned q st.bitsLeft) (hf : FitsL q (fs.map (·.2))) (s : Bytes) (rest : List Bool)
    (hb : st.bits ++ bytesBits s = fs.flatMap (fun f => natBits f.2 f.1.toNat) ++ rest) :
    ∃ st' s', (readFields st (fs.map (·.2))).runBuf s = .ok (fs.map (·.1), s') ∧ BitState.WF st' ∧
      st'.bits ++ bytesBits s' = rest := by
  induction fs generalizing st q s with
  | nil => exact ⟨st, s, rfl, hst, by simpa using hb⟩
  | cons f fs ih =>
    obtain ⟨v, w⟩ := f
    obtain ⟨hf1, hf2⟩ := hf
    simp only [List.flatMap_cons, List.append_assoc] at hb
    obtain ⟨st1, s1, h1, h2, h3, h4⟩ := readBits_step st hst q w ha hf1 s v (hv (v, w) (by simp)) _ hb
    obtain ⟨st2, s2, g1, g2, g3⟩ := ih (fun f hf => hv f (by simp [hf])) st1 h2 _ h4 hf2 s1 h3
    refine ⟨st2, s2, ?_, g2, g3⟩
    simp only [List.map_cons, readFields, Dec.runBuf_bind, h1, Res.ok_bind, g1]
    rfl

/-- **C16** Whatever mix of widths is written with the bit writer, if every value fits its width and no
call reports an error, the bit reader gets the values back, and stops exactly at the end of the bytes
written. -/
theorem bits_roundtrip (fs : List (U64 × Nat)) (hv : ∀ f ∈ fs, f.1.toNat < 2 ^ f.2) (st : BitState) (out : Bytes)
    (h : writeFields forgetBits fs = .ok (st, out)) (tail : Bytes) :
    (readFields forgetBits (fs.map (·.2))).runBuf (out ++ writeLeftBits st ++ tail) = .ok (fs.map (·.1), tail) := by
  obtain ⟨h1, h2, h3⟩ := writeFields_spec fs hv forgetBits st forgetBits_wf out h
  obtain ⟨pad, p1, p2⟩ := writeLeftBits_spec st h1
  obtain ⟨st', s', g1, g2, g3⟩ := readFields_spec fs hv forgetBits forgetBits_wf 0 ⟨by omega, rfl⟩ h2
    (out ++ writeLeftBits st ++ tail) (pad ++ bytesBits tail) (by
      simp only [forgetBits_bits, List.nil_append] at h3 ⊢
      rw [bytesBits_append, bytesBits_append, p1, h3]; simp)
  rw [g1, byte_boundary g2 p2 g3]

/-- The bit writer reports an error exactly when a field, after the bits already pending, goes beyond 64
bits; widths up to 57 always work. -/
theorem bits_ok (fs : List (U64 × Nat)) (hv : ∀ f ∈ fs, f.1.toNat < 2 ^ f.2) (hw : ∀ f ∈ fs, f.2 ≤ 57) :
    ∃ r, writeFields forgetBits fs = .ok r := by
  suffices h : ∀ st : BitState, st.WF → ∃ r, writeFields st fs = .ok r from h _ forgetBits_wf
  induction fs with
  | nil => intro st _; exact ⟨_, rfl⟩
  | cons f fs ih =>
    intro st hst
    obtain ⟨v, w⟩ := f
    have := hw (v, w) (by simp)
    have h8 := hst.1
    obtain ⟨st1, o1, h1, h2, -, -⟩ := writeBits_spec st hst v w (hv (v, w) (by simp)) (by simp at this; omega)
    obtain ⟨⟨st2, o2⟩, h3⟩ := ih (fun f hf => hv f (by simp [hf])) (fun f hf => hw f (by simp [hf])) st1 h2
    exact ⟨(st2, o1 ++ o2), by simp only [writeFields, h1, Res.ok_bind, h3]; rfl⟩

example : ∃ st out, writeFields forgetBits [(5, 3), (1023, 10), (0, 1), (2 ^ 57 - 1, 57), (1, 1)] = .ok (st, out) ∧
    out.length = 9 := ⟨_, _, rfl, rfl⟩

/-- A field of 58 bits after 7 pending bits is refused. -/
example : writeFields forgetBits [(5, 7), (1, 58)] = .err .other := rfl

/-! ### C17 -/

theorem noZeroByte_iff (x : U64) : NoZeroByte x ↔
    ∃ t, t < 8 ∧ (∀ i, i ≤ t → byteAt x i ≠ 0) ∧ ∀ i, t < i → i < 8 → byteAt x i = 0 := by
  constructor
  · rintro ⟨n, h1, h2, h3, h4⟩
    refine ⟨n - 1, by omega, fun i hi h0 => ?_, fun i hi hi' => ?_⟩
    · apply h4 i (by omega)
      rw [← byteAt_toNat, h0]; rfl
    · apply BitVec.eq_of_toNat_eq
      rw [byteAt_toNat]
      have : x.toNat / 256 ^ i = 0 := Nat.div_eq_of_lt
        (Nat.lt_of_lt_of_le h3 (Nat.pow_le_pow_right (by omega) (by omega)))
      rw [this]; rfl
  · rintro ⟨t, h1, h2, h3⟩
    refine ⟨t + 1, by omega, by omega, lt_of_bytes_zero x (t + 1) (by omega) fun i hi hi' => h3 i (by omega) hi', ?_⟩
    intro i hi h0
    apply h2 i (by omega)
    apply BitVec.eq_of_toNat_eq
    rw [byteAt_toNat, h0]; rfl

/-- **C17** (exact) A short repeat block of 3 to 10 equal values decodes to them exactly when the value has
no zero byte below its most significant nonzero byte (and is not 0). -/
theorem short_repeat_roundtrip_iff (signed : Bool) (r : Nat) (h3 : 3 ≤ r) (h10 : r ≤ 10) (x : U64) :
    (∀ tail, (decodeRaw signed).runBuf (writeShortRepeat (r - 3) x ++ tail) = .ok (List.replicate r x, tail)) ↔
      NoZeroByte x := by
  constructor
  · intro h
    apply Classical.byContradiction
    intro hn
    have h0 := h []
    rw [List.append_nil, shortRepeat_short signed (r - 3) (by omega) x] at h0
    · simp at h0
    · intro t ht hz
      apply Classical.byContradiction
      intro hex
      exact hn ((noZeroByte_iff x).mpr ⟨t, ht, fun i hi h0 => hex ⟨i, hi, h0⟩, hz⟩)
  · intro h tail
    have := noZeroByte_block signed x h (r - 3) (by omega) tail
    rwa [show r - 3 + 3 = r by omega] at this

/-- **C17** is false as stated: four times 256, a short repeat, cannot be read back. -/
theorem short_repeat_false : ∃ out,
    intEnc.encodeFlush (newIntRLV2 false false) (List.replicate 4 (.u64 256)) = .ok out ∧
      decodeAll (decodeUInt false) out = .err .eof := by
  refine ⟨_, rfl, ?_⟩
  decide +kernel

example : NoZeroByte 0x12345678 := ⟨4, by decide, by decide, by decide, by decide⟩
example : ¬ NoZeroByte 0x1200 := by
  rw [← short_repeat_roundtrip_iff false 5 (by omega) (by omega)]
  intro h
  have := h []
  revert this
  decide +kernel

/-! ### C18 -/

/-- **C18** (exact) A direct block of 1 to 512 values is always written without error and decodes to the
values exactly when they are not all zero. -/
theorem direct_roundtrip_iff (signed : Bool) (vs : List U64) (hl : 1 ≤ vs.length) (hl' : vs.length ≤ 512) :
    ∃ out, writeDirect vs = .ok out ∧
      ((∀ tail, (decodeRaw signed).runBuf (out ++ tail) = .ok (vs, tail)) ↔ ∃ v ∈ vs, v ≠ 0) := by
  by_cases hz : ∃ v ∈ vs, v ≠ 0
  · obtain ⟨out, ho⟩ := writeDirect_ok vs
    exact ⟨out, ho, fun _ => hz, fun h tail => direct_block signed vs hl hl' h out ho tail⟩
  · have hrep : vs = List.replicate vs.length 0 := by
      rw [List.eq_replicate_iff]
      exact ⟨rfl, fun v hv => Classical.byContradiction fun h0 => hz ⟨v, hv, h0⟩⟩
    obtain ⟨out, h1, h2, h3⟩ := direct_zeros signed vs.length hl hl' []
    rw [← hrep] at h1
    refine ⟨out, h1, fun h => ?_, fun h => absurd h hz⟩
    have h0 := h []
    rw [h3, readBitsN_eof 1 _ hl forgetBits [] (by simp [forgetBits])] at h0
    simp at h0

/-- Exactly what a block of zeros gives: one bit per value of whatever comes next. -/
theorem direct_zeros_exact (signed : Bool) (n : Nat) (hn : 1 ≤ n) (hn' : n ≤ 512) (tail : Bytes) :
    ∃ out, writeDirect (List.replicate n 0) = .ok out ∧
      (decodeRaw signed).runBuf (out ++ tail) = (readBitsN forgetBits 1 n).runBuf tail := by
  obtain ⟨out, h1, -, h3⟩ := direct_zeros signed n hn hn' tail
  exact ⟨out, h1, h3⟩

/-- **C18** is false as stated: a single 0 cannot be read back. -/
theorem direct_false : ∃ out,
    intEnc.encodeFlush (newIntRLV2 true false) [.i64 0] = .ok out ∧
      decodeAll (decodeInt true) out = .err .eof := by
  refine ⟨_, rfl, ?_⟩
  decide +kernel

example : ∃ v ∈ ([0, 0, 5, 0] : List U64), v ≠ 0 := ⟨5, by decide, by decide⟩

/-! ### C19 -/

/-- The delta block the encoder writes for the prefix found by the delta test. -/
def deltaBlock (signed : Bool) (values : List U64) (dv : DeltaValues) : Res Bytes := do
  let first ← firstBytes signed (values.headD 0)
  writeDelta first dv.base dv.length dv.deltas

/-- **C19** (exact) When the delta test accepts a prefix of at most 512 values, the block is written without
error exactly when the first value (after zigzag for signed) and the zigzag of the first difference are below
2^56, the other differences are not all zero and their common width is not 12; and whenever it is written it
decodes to exactly that prefix, for all values, also when differences wrap around. -/
theorem delta_roundtrip (signed : Bool) (vals : List U64) (dv : DeltaValues) (h : tryDelta signed vals = some dv)
    (hl : dv.deltas.length + 2 ≤ 512) :
    ((∃ out, deltaBlock signed vals dv = .ok out) ↔
      (vals.headD 0).toNat < 2 ^ 56 ∧ (zigzag dv.base).toNat < 2 ^ 56 ∧ (∃ d ∈ dv.deltas, d ≠ 0) ∧
        maxWidth getAlignedWidth dv.deltas ≠ 12) ∧
    ∀ out, deltaBlock signed vals dv = .ok out → ∀ tail,
      (decodeRaw signed).runBuf (out ++ tail) = .ok (vals.take (dv.deltas.length + 2), tail) := by
  obtain ⟨v0, v1, rest, rfl, hd, hlen, -, hsum, hscan, -⟩ := tryDelta_spec signed vals dv h
  simp only [List.headD_cons]
  have hcond : ∀ out, deltaBlock signed (v0 :: v1 :: rest) dv = .ok out →
      v0.toNat < 2 ^ 56 ∧ (zigzag dv.base).toNat < 2 ^ 56 ∧ (∃ d ∈ dv.deltas, d ≠ 0) ∧
        maxWidth getAlignedWidth dv.deltas ≠ 12 := by
    intro out ho
    obtain ⟨first, h1, h2⟩ := Res.bind_ok_inv ho
    obtain ⟨c1, c2, c3⟩ := writeDelta_ok _ _ _ _ hd _ h2
    exact ⟨firstBytes_ok _ _ _ h1, c3, c1, c2⟩
  have hblock : ∀ (c : v0.toNat < 2 ^ 56 ∧ (zigzag dv.base).toNat < 2 ^ 56 ∧ (∃ d ∈ dv.deltas, d ≠ 0) ∧
        maxWidth getAlignedWidth dv.deltas ≠ 12) tail, ∃ out, deltaBlock signed (v0 :: v1 :: rest) dv = .ok out ∧
      (decodeRaw signed).runBuf (out ++ tail) = .ok ((v0 :: v1 :: rest).take (dv.deltas.length + 2), tail) := by
    intro ⟨c1, c2, c3, c4⟩ tail
    obtain ⟨first, out, g1, g2, g3⟩ := delta_block signed v0 dv.base dv.deltas hd hl c3 c4 c1 c2 tail
    refine ⟨out, ?_, ?_⟩
    · simp only [deltaBlock, List.headD_cons, g1, Res.ok_bind, hlen, g2]
    · rw [g3, hsum, hscan]; simp
  refine ⟨⟨fun ⟨out, ho⟩ => hcond out ho, fun c => ?_⟩, fun out ho tail => ?_⟩
  · obtain ⟨out, ho, -⟩ := hblock c []
    exact ⟨out, ho⟩
  · obtain ⟨out', ho', hd'⟩ := hblock (hcond out ho) tail
    rw [ho] at ho'
    cases ho'
    exact hd'

/-- Which runs the delta test accepts as a whole (1): a first step up, then values that never go down. The
first difference must be below 2^63. The block then holds the differences of neighbours. -/
theorem delta_accepts_up (signed : Bool) (v0 v1 v2 : U64) (vs : List U64)
    (h01 : intOf signed v0 < intOf signed v1) (hsmall : intOf signed v1 - intOf signed v0 < 2 ^ 63)
    (hmono : Steps (fun a b => intOf signed a ≤ intOf signed b) (v1 :: v2 :: vs)) :
    ∃ dv, tryDelta signed (v0 :: v1 :: v2 :: vs) = some dv ∧
      dv.base.toInt = intOf signed v1 - intOf signed v0 ∧
      dv.deltas.map (fun d => (d.toNat : Int)) = diffs ((v1 :: v2 :: vs).map (intOf signed)) :=
  tryDelta_up signed v0 v1 v2 vs h01 hsmall hmono

/-- (2) A strictly falling run; the first difference must be at most 2^63. -/
theorem delta_accepts_down (signed : Bool) (v0 v1 v2 : U64) (vs : List U64)
    (h01 : intOf signed v1 < intOf signed v0) (hsmall : intOf signed v0 - intOf signed v1 ≤ 2 ^ 63)
    (hmono : Steps (fun a b => intOf signed b < intOf signed a) (v1 :: v2 :: vs)) :
    ∃ dv, tryDelta signed (v0 :: v1 :: v2 :: vs) = some dv ∧
      dv.base.toInt = intOf signed v1 - intOf signed v0 ∧
      dv.deltas.map (fun d => -(d.toNat : Int)) = diffs ((v1 :: v2 :: vs).map (intOf signed)) :=
  tryDelta_down signed v0 v1 v2 vs h01 hsmall hmono

/-- Counterexamples for **C19**: `[1,2,2,2]` is accepted but writing it is an error; with a first value of
2^56, or a difference of 12 bits, too. -/
theorem delta_false :
    intEnc.encodeFlush (newIntRLV2 false false) [.u64 1, .u64 2, .u64 2, .u64 2] = .err .other ∧
    intEnc.encodeFlush (newIntRLV2 false false) [.u64 (2 ^ 56), .u64 (2 ^ 56 + 1), .u64 (2 ^ 56 + 3), .u64 (2 ^ 56 + 4)] =
      .panic ∧
    intEnc.encodeFlush (newIntRLV2 false false) [.u64 1, .u64 2, .u64 2050, .u64 2060] = .err .other := by
  refine ⟨?_, ?_, ?_⟩ <;> decide +kernel

/-- Differences that wrap around 2^64 are no problem. -/
example : ∃ out, intEnc.encodeFlush (newIntRLV2 true false)
      [.i64 (-3), .i64 (-2), .i64 (0x7fffffffffffffff), .i64 0x7fffffffffffffff] = .ok out ∧
    decodeAll (decodeInt true) out = .ok [-3, -2, 0x7fffffffffffffff, 0x7fffffffffffffff] :=
  ⟨_, rfl, by decide +kernel⟩

/-! ### C20 -/

/-- **C20** (partial) A signed run that the patched-base test accepts decodes to itself whenever the block is
written without error and: the common width is not 0, some gap is not 0, the least value is not the least
`int64`, a patch list entry is shorter than 64 bits and there are at most 512 values. Missing: the cases
excluded by these conditions, for each of which `patched_false_*` gives a run that is lost. -/
theorem patched_roundtrip_partial (vals : List U64) (pvs : PatchedValues) (h : tryPatch vals = .ok (some pvs))
    (hs : PatchSafe vals pvs) (out : Bytes) (ho : writePatch pvs = .ok out) (tail : Bytes) :
    (decodeRaw true).runBuf (out ++ tail) = .ok (vals, tail) :=
  patch_block vals pvs h hs out ho tail

instance (vals : List U64) (pvs : PatchedValues) : Decidable (PatchSafe vals pvs) :=
  decidable_of_iff (pvs.width ≠ 0 ∧ (∃ g ∈ pvs.gaps, g ≠ 0) ∧ pvs.base ≠ 0x8000000000000000#64 ∧
      maxWidth getBitsWidth (pvs.gaps.map (BitVec.ofNat 64)) + maxWidth getBitsWidth pvs.patches < 64 ∧
      vals.length ≤ 512)
    ⟨fun ⟨a, b, c, d, e⟩ => ⟨a, b, c, d, e⟩, fun ⟨a, b, c, d, e⟩ => ⟨a, b, c, d, e⟩⟩

/-- The values are written as a patched block with these gaps and all conditions hold. -/
def patchedWith (vals : List U64) (gaps : List Nat) : Bool :=
  match tryPatch vals with
  | .ok (some pvs) => decide (PatchSafe vals pvs) && decide (pvs.gaps = gaps) && (writePatch pvs).isOk
  | _ => false

/-- The conditions hold in ordinary cases: values 1 and 2 and one outlier. -/
example : patchedWith ([1, 2, 1, 2, 50, 1, 2, 1, 2, 1, 2, 1, 2, 1, 1].map zigzag) [4] = true := by decide +kernel

/-- A gap of more than 255 values is bridged by an empty patch. -/
example : patchedWith ((List.replicate 100 [4, 4, 1, 7]).flatten ++ [1000, 3]) [255, 145] = true := by decide +kernel

/-- `n` values 1, 2, 1, 2, ... -/
def alternating (n : Nat) : List U64 := (List.range n).map fun i => BitVec.ofNat 64 (i % 2 + 1)

/-- Encode and flush signed values. -/
def there (vs : List U64) : Res Bytes := intEnc.encodeFlush (newIntRLV2 true false) (vs.map .i64)

/-- Encode and flush signed values, then decode everything. -/
def thereAndBack (vs : List U64) : Res (List U64) := there vs >>= decodeAll (decodeInt true)

/-- **C20** is false: with a common width of 0 (all but one value equal) the block written cannot be read. -/
theorem patched_false_width :
    (there ([1, 1, 7] ++ List.replicate 17 1)).isOk = true ∧
      thereAndBack ([1, 1, 7] ++ List.replicate 17 1) = .err .eof := by
  constructor <;> decide +kernel

/-- A single patch at the first value (no gap other than 0). -/
theorem patched_false_gap : (there (1000 :: alternating 20)).isOk = true ∧
    thereAndBack (1000 :: alternating 20) = .err .eof := by
  constructor <;> decide +kernel

/-- The least `int64` as base. -/
theorem patched_false_base :
    (there ((alternating 20).map (· + 0x7fffffffffffffff) ++ [0x8000000000000100])).isOk = true ∧
    thereAndBack ((alternating 20).map (· + 0x7fffffffffffffff) ++ [0x8000000000000100]) = .err .eof := by
  constructor <;> decide +kernel

/-- A patch list entry of 64 bits: written, but the decoder refuses it. -/
theorem patched_false_entry :
    (there (alternating 130 ++ [0x100000000000001] ++ alternating 20)).isOk = true ∧
    thereAndBack (alternating 130 ++ [0x100000000000001] ++ alternating 20) = .err .other := by
  constructor <;> decide +kernel

/-- Widths the format has no code for are an error, and 260 equal values with 32 outliers a panic
(the byte-sized histogram wraps at 256). -/
theorem patched_fails : there (alternating 20 ++ [0x1000000]) = .err .other ∧
    tryPatch ((alternating 64 ++ List.replicate 228 1).map zigzag) = .panic := by
  constructor <;> decide +kernel

end Goorc
