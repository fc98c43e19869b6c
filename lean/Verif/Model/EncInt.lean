import Verif.Model.Encoder
import Verif.Model.EncPackage
import Verif.Model.EncScalar
/-
Model of orc/encoding/int.go: integer run-length encoding, version 2.
-/
namespace Goorc

/-! ### Bit writer and bit reader -/

/-- The part of the encoder/decoder state used by `writeBits`/`readBits`
(orc/encoding/int.go:20-21, 328-329): bits not yet written, or read but not yet used. -/
structure BitState where
  lastByte : Byte
  bitsLeft : Nat
  deriving DecidableEq, Repr

/-- orc/encoding/int.go:314-317, 338-341 `forgetBits`. -/
def forgetBits : BitState := ⟨0, 0⟩

/-- orc/encoding/int.go:353-358, the loop of `writeBits`: with `n` whole bytes to write, the `k`-th from
the end is `byte(value >> (left + 8*k))`. -/
def writeBytesLoop (value : U64) (left : Nat) : Nat → Bytes
  | 0 => []
  | n + 1 => (value >>> (left + 8 * n)).setWidth 8 :: writeBytesLoop value left n

/-- orc/encoding/int.go:343-365 `writeBits`. -/
def writeBits (st : BitState) (value : U64) (bits : Nat) : Res (BitState × Bytes) :=
  let totalBits := st.bitsLeft + bits
  if totalBits > 64 then .err .other
  else
    let value := if st.lastByte ≠ 0 then (st.lastByte.setWidth 64 <<< bits) ||| value else value
    let left := totalBits % 8
    .ok (⟨value.setWidth 8 &&& (1#8 <<< left - 1#8), left⟩, writeBytesLoop value left (totalBits / 8))

/-- orc/encoding/int.go:367-375 `writeLeftBits`. -/
def writeLeftBits (st : BitState) : Bytes :=
  if st.bitsLeft ≠ 0 then [st.lastByte <<< (8 - st.bitsLeft)] else []

/-- Write values of one width in a row (the loops at int.go:532-536, 838-842). -/
def writeBitsAll (st : BitState) : List U64 → Nat → Res (BitState × Bytes)
  | [], _ => .ok (st, [])
  | v :: vs, bits => do
    let (st', out) ← writeBits st v bits
    let (st'', out') ← writeBitsAll st' vs bits
    pure (st'', out ++ out')

/-- orc/encoding/int.go:296-303, the loop of `readBits`; every iteration adds 8 bits, so `bits` is
enough fuel. -/
def readBitsLoop (bits : Nat) : Nat → Nat → U64 → Dec (Nat × U64)
  | 0, hasBits, data => pure (hasBits, data)
  | fuel + 1, hasBits, data =>
    if hasBits < bits then do
      let b ← Dec.byte
      readBitsLoop bits fuel (hasBits + 8) ((data <<< 8) ||| b.setWidth 64)
    else pure (hasBits, data)

/-- orc/encoding/int.go:293-312 `readBits`. -/
def readBits (st : BitState) (bits : Nat) : Dec (U64 × BitState) := do
  let (hasBits, data) ← readBitsLoop bits bits st.bitsLeft (st.lastByte.setWidth 64)
  let left := hasBits - bits
  pure (data >>> left, ⟨(data &&& (1#64 <<< left - 1#64)).setWidth 8, left⟩)

/-- Read `n` values of one width in a row (int.go:101-107). -/
def readBitsN (st : BitState) (bits : Nat) : Nat → Dec (List U64)
  | 0 => pure []
  | n + 1 => do
    let (v, st') ← readBits st bits
    let vs ← readBitsN st' bits n
    pure (v :: vs)

/-! ### Decoder -/

/-- orc/encoding/int.go:73-80: big-endian value of `width` bytes; `acc` holds the bytes read so far.
(The code ors `b << 8*i` for descending `i`; shifting the accumulator is the same number.) -/
def readBE : Nat → U64 → Dec U64
  | 0, acc => pure acc
  | n + 1, acc => do
    let b ← Dec.byte
    readBE n (acc ||| (b.setWidth 64 <<< (8 * n)))

/-- orc/encoding/int.go:155-163, 168-177: the value after the first of a delta block. -/
def addDeltaBase (signed : Bool) (ubase deltaBase : U64) : U64 :=
  if signed then zigzag (unZigzag ubase + deltaBase)
  else if 0 ≤ deltaBase.toInt then ubase + deltaBase
  else ubase - (-deltaBase)

/-- orc/encoding/int.go:183-197: one more delta. -/
def addDelta (signed : Bool) (deltaBase prev delta : U64) : U64 :=
  if signed then
    if 0 ≤ deltaBase.toInt then zigzag (unZigzag prev + delta) else zigzag (unZigzag prev - delta)
  else
    if 0 ≤ deltaBase.toInt then prev + delta else prev - delta

/-- orc/encoding/int.go:167-199: the values after the second one. `ubase` is the first value, `prev`
the last one appended. -/
def readDeltas (signed : Bool) (width : Nat) (ubase deltaBase : U64) :
    Nat → BitState → U64 → Dec (List U64)
  | 0, _, _ => pure []
  | n + 1, st, prev =>
    if width = 0 then do
      let v := addDeltaBase signed ubase deltaBase
      let vs ← readDeltas signed width ubase deltaBase n st v
      pure (v :: vs)
    else do
      let (delta, st') ← readBits st width
      let v := addDelta signed deltaBase prev delta
      let vs ← readDeltas signed width ubase deltaBase n st' v
      pure (v :: vs)

/-- orc/encoding/int.go:119-199 `Encoding_DELTA`. -/
def decodeDelta (signed : Bool) (h0 : Byte) : Dec (List U64) := do
  let h1 ← Dec.byte
  let width ← Dec.ofRes (widthDecoding ((h0 >>> 1) &&& 0x1f#8) true)
  let length := (h0.toNat % 2) * 256 + h1.toNat + 1
  let ubase ← if signed then do let b ← readVarint; pure (zigzag b) else readUvarint
  let deltaBase ← readVarint
  let second := addDeltaBase signed ubase deltaBase
  let vs ← readDeltas signed width ubase deltaBase (length - 2) forgetBits second
  pure (ubase :: second :: vs)

/-- orc/encoding/int.go:86-107 `Encoding_DIRECT`. -/
def decodeDirect (h0 : Byte) : Dec (List U64) := do
  let h1 ← Dec.byte
  let width ← Dec.ofRes (widthDecoding ((h0 >>> 1) &&& 0x1f#8) false)
  let length := (h0.toNat % 2) * 256 + h1.toNat + 1
  readBitsN forgetBits width length

/-- orc/encoding/int.go:66-84 `Encoding_SHORT_REPEAT`. -/
def decodeShortRepeat (h0 : Byte) : Dec (List U64) := do
  let width := 1 + ((h0 >>> 3) &&& 0x07#8).toNat
  let repeatCount := 3 + (h0 &&& 0x07#8).toNat
  let v ← readBE width 0
  pure (List.replicate repeatCount v)

/-- orc/encoding/int.go:244-247: `ubase |= uint64(b[i]) << ((bw-i-1)*8)` over all bytes. -/
def beValue : Bytes → U64
  | [] => 0
  | b :: bs => (b.setWidth 64 <<< (8 * bs.length)) ||| beValue bs

/-- orc/encoding/int.go:237-251: the base of a patched block, big-endian with the sign in the most
significant bit. -/
def patchBase : Bytes → U64
  | [] => 0
  | b :: bs =>
    let ubase := beValue ((b &&& 0x7f#8) :: bs)
    if b >>> 7 = 1#8 then -ubase else ubase

/-- orc/encoding/int.go:270-288: apply `n` patches; `mark` is the running index. An index beyond the
values panics. -/
def readPatches (width pw pgw : Nat) (base : U64) : Nat → BitState → Nat → List U64 → Dec (List U64)
  | 0, _, _, uvs => pure uvs
  | n + 1, st, mark, uvs => do
    let (pp, st') ← readBits st (pgw + pw)
    let mark := mark + (pp >>> pw).toNat
    let patch := pp &&& ((1#64 <<< pw) - 1#64)
    match uvs[mark]? with
    | none => Dec.crash
    | some u =>
      let v := (((unZigzag u - base) ||| (patch <<< width)) + base)
      readPatches width pw pgw base n st' mark (uvs.set mark (zigzag v))

/-- orc/encoding/int.go:207-291 `readPatched` (`d.uvs` is empty on entry). -/
def decodePatched (h0 : Byte) : Dec (List U64) := do
  let h ← Dec.full 3
  let h1 := h.getD 0 0
  let h2 := h.getD 1 0
  let h3 := h.getD 2 0
  let width ← Dec.ofRes (widthDecoding ((h0 >>> 1) &&& 0x1f#8) false)
  let length := (h0.toNat % 2) * 256 + h1.toNat + 1
  let bw := ((h2 >>> 5) &&& 0x07#8).toNat + 1
  let pw ← Dec.ofRes (widthDecoding (h2 &&& 0x1f#8) false)
  let pgw := ((h3 >>> 5) &&& 0x07#8).toNat + 1
  if pw + pgw ≥ 64 then Dec.fail .other
  else do
    let pll := (h3 &&& 0x1f#8).toNat
    let baseBytes ← Dec.full bw
    let base := patchBase baseBytes
    let deltas ← readBitsN forgetBits width length
    readPatches width pw pgw base pll forgetBits 0 (deltas.map fun d => zigzag (base + d))

/-- orc/encoding/int.go:57-205 `decode`: one block, as raw (zigzag for signed) values. -/
def decodeRaw (signed : Bool) : Dec (List U64) := do
  let h0 ← Dec.byte
  let sub := (h0 >>> 6).toNat
  if sub = 0 then decodeShortRepeat h0
  else if sub = 1 then decodeDirect h0
  else if sub = 2 then (if signed then decodePatched h0 else Dec.fail .other)
  else decodeDelta signed h0

/-- orc/encoding/int.go:27-42 `DecodeInt` of a decoder made with `NewIntDecoder(signed)`. -/
def decodeInt (signed : Bool) : Dec (List U64) :=
  if signed then do let uvs ← decodeRaw true; pure (uvs.map unZigzag) else Dec.fail .other

/-- orc/encoding/int.go:44-53 `DecodeUInt`. -/
def decodeUInt (signed : Bool) : Dec (List U64) :=
  if signed then Dec.fail .other else decodeRaw false

/-! ### Encoder -/

/-- orc/encoding/int.go:327-336 `intRLV2Encoder` (the bit state is reset before every use and is kept
local, see `forgetBits`). -/
structure IntEnc where
  signed : Bool
  position : Int
  values : List U64
  deriving DecidableEq, Repr

/-- orc/encoding/int.go:319-324 `NewIntRLV2`. -/
def newIntRLV2 (signed doPosition : Bool) : IntEnc :=
  ⟨signed, if doPosition then 0 else -1, []⟩

/-- orc/encoding/int.go:377 `MaxIntRunLength` -/
def maxIntRunLength : Nat := 512

/-- The loop `for x != 0 { x >>= 1; n++ }` (int.go:1011-1017, 1022-1025); 64 iterations at most. -/
def bitsWidthLoop : Nat → U64 → Nat
  | 0, _ => 0
  | fuel + 1, x => if x ≠ 0 then bitsWidthLoop fuel (x >>> 1) + 1 else 0

/-- orc/encoding/int.go:1011-1017 `getBitsWidth`. -/
def getBitsWidth (x : U64) : Nat := bitsWidthLoop 64 x

/-- orc/encoding/int.go:1020-1051 `getAlignedWidth`. -/
def getAlignedWidth (x : U64) : Nat :=
  let n := bitsWidthLoop 64 x
  if n > 2 ∧ n ≤ 4 then 4
  else if n > 4 ∧ n ≤ 8 then 8
  else if n > 8 ∧ n ≤ 16 then (if n = 12 then 12 else 16)
  else if n > 16 ∧ n ≤ 24 then 24
  else if n > 24 ∧ n ≤ 32 then 32
  else if n > 32 ∧ n ≤ 40 then 40
  else if n > 40 ∧ n ≤ 48 then 48
  else if n > 48 ∧ n ≤ 56 then 56
  else if n > 56 ∧ n ≤ 64 then 64
  else n

/-- The maximum of the widths of the values, `0` for none (int.go:506-517, 795-801, 810-816, 885-890). -/
def maxWidth (w : U64 → Nat) : List U64 → Nat
  | [] => 0
  | v :: vs => max (w v) (maxWidth w vs)

/-- Number of leading values equal to `x`. The loop of orc/encoding/int.go:1054-1068. -/
def countEq (x : U64) : List U64 → Nat
  | [] => 0
  | v :: vs => if v = x then countEq x vs + 1 else 0

/-- orc/encoding/int.go:1054-1068 `getRepeats`: panics on no values. -/
def getRepeats : List U64 → Res Nat
  | [] => .panic
  | x :: vs => .ok (countEq x vs + 1)

/-- orc/encoding/int.go:1112-1122: the nonzero bytes of `x` from byte `j-1` down, and the index of the
first of them (0 if there is none). -/
def shortRepeatBytes (x : U64) : Nat → Nat × Bytes
  | 0 => (0, [])
  | j + 1 =>
    let b : Byte := (x >>> (8 * j)).setWidth 8
    let (w, bs) := shortRepeatBytes x j
    if b ≠ 0 then (max j w, b :: bs) else (w, bs)

/-- orc/encoding/int.go:1106-1131 `writeShortRepeat`. -/
def writeShortRepeat (count : Nat) (x : U64) : Bytes :=
  let (w, bs) := shortRepeatBytes x 8
  (BitVec.ofNat 8 (count % 8) ||| (BitVec.ofNat 8 w <<< 3)) :: bs

/-- The two header bytes of direct and delta blocks: 2 bits encoding, 5 bits width code, 9 bits
length minus one (int.go:504, 523-526, 882, 898-901). -/
def header2 (enc : Nat) (code : Byte) (l : Nat) : Bytes :=
  [(BitVec.ofNat 8 enc <<< 6) ||| ((code &&& 0x1f#8) <<< 1) ||| BitVec.ofNat 8 ((l >>> 8) % 2), BitVec.ofNat 8 l]

/-- orc/encoding/int.go:502-544 `writeDirect` with `widthAlign`. -/
def writeDirect (values : List U64) : Res Bytes := do
  let width := maxWidth getAlignedWidth values
  let code ← widthEncoding width
  let (st, body) ← writeBitsAll forgetBits values width
  pure (header2 1 code (values.length - 1) ++ body ++ writeLeftBits st)

/-- orc/encoding/int.go:922-929: deltas of width 2, four to a byte. -/
def packDeltas2 : List U64 → Bytes
  | [] => []
  | [a] => [((a &&& 3#64).setWidth 8 <<< 6)]
  | [a, b] => [((a &&& 3#64).setWidth 8 <<< 6) ||| ((b &&& 3#64).setWidth 8 <<< 4)]
  | [a, b, c] =>
    [((a &&& 3#64).setWidth 8 <<< 6) ||| ((b &&& 3#64).setWidth 8 <<< 4) ||| ((c &&& 3#64).setWidth 8 <<< 2)]
  | a :: b :: c :: d :: ds =>
    (((a &&& 3#64).setWidth 8 <<< 6) ||| ((b &&& 3#64).setWidth 8 <<< 4) ||| ((c &&& 3#64).setWidth 8 <<< 2) |||
      (d &&& 3#64).setWidth 8) :: packDeltas2 ds

/-- orc/encoding/int.go:930-939: deltas of width 4, two to a byte. -/
def packDeltas4 : List U64 → Bytes
  | [] => []
  | [a] => [(a &&& 0xf#64).setWidth 8 <<< 4]
  | a :: b :: ds => (((a &&& 0xf#64).setWidth 8 <<< 4) ||| (b &&& 0xf#64).setWidth 8) :: packDeltas4 ds

/-- The `n` low bytes of `v`, most significant first (int.go:940-1001). -/
def beBytes (v : U64) : Nat → Bytes
  | 0 => []
  | n + 1 => (v >>> (8 * n)).setWidth 8 :: beBytes v n

/-- orc/encoding/int.go:919-1005: the deltas of a delta block. -/
def packDeltas (width : Nat) (deltas : List U64) : Res Bytes :=
  if deltas = [] then .ok []
  else if width = 2 then .ok (packDeltas2 deltas)
  else if width = 4 then .ok (packDeltas4 deltas)
  else if width ∈ [8, 16, 24, 32, 40, 48, 56, 64] then .ok (deltas.flatMap fun d => beBytes d (width / 8))
  else .err .other

/-- orc/encoding/int.go:880-1008 `writeDelta`; `length` is a uint16. -/
def writeDelta (first : Bytes) (deltaBase : U64) (length : BitVec 16) (deltas : List U64) : Res Bytes := do
  let width := maxWidth getAlignedWidth deltas
  let width := if width = 1 then 2 else width
  let code ← widthEncoding width
  let length := length - 1
  let db ← putVarint 8 deltaBase
  let body ← packDeltas width deltas
  pure (header2 3 code length.toNat ++ first ++ db ++ body)

/-- The first value of a delta block in a buffer of eight bytes (int.go:445-451, 463-469). -/
def firstBytes (signed : Bool) (v : U64) : Res Bytes :=
  if signed then putVarint 8 (unZigzag v) else putUvarint 8 v

/-- orc/encoding/int.go:546-550 `deltaValues`. -/
structure DeltaValues where
  base : U64
  length : BitVec 16
  deltas : List U64
  deriving DecidableEq, Repr

/-- orc/encoding/int.go:606-640: the deltas after the third value while the values stay monotone;
`up` is `dv.base >= 0`, `prev` the value before. -/
def collectDeltas (signed up : Bool) : U64 → List U64 → List U64
  | _, [] => []
  | prev, v :: vs =>
    if signed then
      let vi := unZigzag v
      let vp := unZigzag prev
      if up then (if vi.toInt ≥ vp.toInt then (vi - vp) :: collectDeltas signed up v vs else [])
      else (if vi.toInt < vp.toInt then (vp - vi) :: collectDeltas signed up v vs else [])
    else
      if up then (if v.toNat ≥ prev.toNat then (v - prev) :: collectDeltas signed up v vs else [])
      else (if v.toNat < prev.toNat then (prev - v) :: collectDeltas signed up v vs else [])

/-- orc/encoding/int.go:554-642 `tryDeltaEncoding`: `none` is `false`. `dv.length` is a uint16. -/
def tryDelta (signed : Bool) : List U64 → Option DeltaValues
  | v0 :: v1 :: v2 :: vs =>
    if v0 = v1 then none
    else
      let base :=
        if signed then unZigzag v1 - unZigzag v0
        else if v0.toNat < v1.toNat then v1 - v0 else -(v0 - v1)
      let d2 : Option U64 :=
        if signed then
          let s2 := unZigzag v2
          let s1 := unZigzag v1
          if base.toInt > 0 then (if s2.toInt ≥ s1.toInt then some (s2 - s1) else none)
          else (if s2.toInt ≥ s1.toInt then none else some (s1 - s2))
        else
          if base.toInt > 0 then (if v2.toNat ≥ v1.toNat then some (v2 - v1) else none)
          else (if v2.toNat < v1.toNat then some (v1 - v2) else none)
      match d2 with
      | none => none
      | some d =>
        let ds := collectDeltas signed (decide (base.toInt ≥ 0)) v2 vs
        some ⟨base, BitVec.ofNat 16 (3 + ds.length), d :: ds⟩
  | _ => none

/-- orc/encoding/int.go:644-654 `patchedValues`. -/
structure PatchedValues where
  count : Nat
  values : List U64
  width : Nat
  base : U64
  gaps : List Nat
  patches : List U64
  deriving DecidableEq, Repr

/-- orc/encoding/int.go:660-672: the least signed value. -/
def minSigned : U64 → List U64 → U64
  | m, [] => m
  | m, v :: vs => minSigned (if v.toInt < m.toInt then v else m) vs

/-- orc/encoding/int.go:706-709: number of values of bit width `i`, as a byte (it wraps at 256). -/
def widthHist (ws : List Nat) (i : Nat) : Nat := (ws.filter (· = i)).length % 256

/-- orc/encoding/int.go:711-719: the first width at which 90% of the values are covered, 0 if the loop
ends without finding one. `i` counts up from 0, `fuel = 65 - i`, `l` is the running sum. -/
def findP90 (ws : List Nat) (p90len : Nat) : Nat → Nat → Nat → Nat
  | 0, _, _ => 0
  | fuel + 1, i, l =>
    let l := l + widthHist ws i
    if l ≥ p90len ∧ widthHist ws i ≠ 0 then i else findP90 ws p90len fuel (i + 1) l

/-- orc/encoding/int.go:732-739: gaps longer than 255 are split by empty patches of gap 255. `fuel` bounds
the number of splits (a gap of `g` needs fewer than `g`). -/
def splitGap : Nat → Nat → List Nat
  | 0, g => [g]
  | fuel + 1, g => if g > 255 then 255 :: splitGap fuel (g - 255) else [g]

/-- orc/encoding/int.go:729-746: walk over the values (index `i`, last patched index `prev`); returns the
masked values, the gaps and the patches. -/
def collectPatches (w : Nat) : Nat → Nat → List U64 → List U64 × List Nat × List U64
  | _, _, [] => ([], [], [])
  | i, prev, v :: vs =>
    if getBitsWidth v > w then
      let (vals, gaps, ps) := collectPatches w (i + 1) i vs
      let gs := splitGap (i - prev) (i - prev)
      ((v &&& ((1#64 <<< w) - 1#64)) :: vals, gs ++ gaps,
        List.replicate (gs.length - 1) 0#64 ++ (v >>> w) :: ps)
    else
      let (vals, gaps, ps) := collectPatches w (i + 1) prev vs
      (v :: vals, gaps, ps)

/-- orc/encoding/int.go:659-772 `tryPatch`: `ok none` is `false`; more than 31 patches panic.
`int(float64(count) * 0.9)` is `count * 9 / 10`. -/
def tryPatch : List U64 → Res (Option PatchedValues)
  | [] => .panic
  | [_] => .ok none
  | v0 :: vs =>
    let values := v0 :: vs
    let base := minSigned (unZigzag v0) (vs.map unZigzag)
    let deltas := values.map fun v => unZigzag v - base
    let ws := deltas.map getBitsWidth
    let width := maxWidth getBitsWidth deltas
    let w := findP90 ws (values.length * 9 / 10) 65 0 0
    if width > w then
      let (vals, gaps, patches) := collectPatches w 0 0 deltas
      if patches.length > 31 then .panic
      else .ok (some ⟨values.length, vals, w, base, gaps, patches⟩)
    else .ok none

/-- orc/encoding/int.go:832-834: the `bw` bytes of the base, big-endian. -/
def baseBytes (base : U64) (bw : Nat) : Bytes := beBytes base bw

/-- orc/encoding/int.go:774-864 `writePatch`. `math.Ceil((n+1)/8)` is `(n+8)/8`. -/
def writePatch (pvs : PatchedValues) : Res Bytes := do
  let code ← widthEncoding pvs.width
  let length := pvs.values.length - 1
  let neg := pvs.base.msb
  let base := if neg then -pvs.base else pvs.base
  let bw := (getBitsWidth base + 8) / 8
  let patchWidth := maxWidth getBitsWidth pvs.patches
  let pw ← widthEncoding patchWidth
  let pgw := maxWidth getBitsWidth (pvs.gaps.map (BitVec.ofNat 64))
  let h0 := 0x80#8 ||| (code <<< 1) ||| BitVec.ofNat 8 ((length >>> 8) % 2)
  let h1 := BitVec.ofNat 8 length
  let h2 := (BitVec.ofNat 8 (bw - 1) <<< 5) ||| (pw &&& 0x1f#8)
  let h3 := (((BitVec.ofNat 8 pgw - 1#8) &&& 7#8) <<< 5) ||| (BitVec.ofNat 8 pvs.patches.length &&& 0x1f#8)
  let base := if neg then base ||| (1#64 <<< ((bw - 1) * 8 + 7)) else base
  let (st, body) ← writeBitsAll forgetBits pvs.values pvs.width
  if pgw + patchWidth > 64 then .err .other
  else do
    let entries := List.zipWith (fun g p => (BitVec.ofNat 64 g <<< patchWidth) ||| p) pvs.gaps pvs.patches
    let (st2, body2) ← writeBitsAll forgetBits entries (pgw + patchWidth)
    pure ([h0, h1, h2, h3] ++ baseBytes base bw ++ body ++ writeLeftBits st ++ body2 ++ writeLeftBits st2)

/-- One iteration of the loop of `write` (int.go:433-498): the bytes written and the values left. -/
def writeStep (signed toEnd : Bool) (values : List U64) : Res (Bytes × List U64) := do
  let rep ← getRepeats values
  let v0 := values.headD 0
  if rep ≥ 3 then
    if rep ≤ 10 then pure (writeShortRepeat (rep - 3) v0, values.drop rep)
    else do
      let first ← firstBytes signed v0
      let out ← writeDelta first 0 (BitVec.ofNat 16 rep) []
      pure (out, values.drop rep)
  else do
    let (out, rest) ← (match tryDelta signed values with
      | some dv => do
        let first ← firstBytes signed v0
        let out ← writeDelta first dv.base dv.length dv.deltas
        pure (out, values.drop dv.length.toNat)
      | none =>
        if signed then do
          let r ← tryPatch values
          match r with
          | some pvs => do
            let out ← writePatch pvs
            pure (out, values.drop pvs.count)
          | none => pure ([], values)
        else pure ([], values) : Res (Bytes × List U64))
    if toEnd ∧ rest ≠ [] then do
      let out' ← writeDirect rest
      pure (out ++ out', [])
    else pure (out, rest)

/-- The loop of `write` (int.go:433-498) for `toEnd`; every iteration consumes a value, so `fuel`
is the number of values. -/
def writeLoop (signed : Bool) : Nat → List U64 → Res (Bytes × List U64)
  | _, [] => .ok ([], [])
  | 0, _ :: _ => .hang
  | fuel + 1, v :: vs => do
    let (out, rest) ← writeStep signed true (v :: vs)
    let (out', rest') ← writeLoop signed fuel rest
    pure (out ++ out', rest')

/-- orc/encoding/int.go:424-500 `write`. -/
def intWrite (signed toEnd : Bool) (values : List U64) : Res (Bytes × List U64) :=
  if values.length ≤ 3 then do
    let out ← writeDirect values
    pure (out, [])
  else if toEnd then writeLoop signed values.length values
  else writeStep signed false values

namespace IntEnc

/-- orc/encoding/int.go:380-393: the value to append; other dynamic types are an error. -/
def rawValue (signed : Bool) : GoVal → Res U64
  | .i64 v => if signed then .ok (zigzag v) else .err .other
  | .u64 v => if signed then .err .other else .ok v
  | _ => .err .other

/-- orc/encoding/int.go:379-407 `Encode`. -/
def encode (e : IntEnc) (v : GoVal) : Res (IntEnc × Bytes) := do
  let value ← rawValue e.signed v
  let values := e.values ++ [value]
  let (out, rest) ← (if values.length ≥ maxIntRunLength then intWrite e.signed false values
    else pure ([], values) : Res (Bytes × List U64))
  pure ({ e with values := rest, position := if e.position ≠ -1 then (rest.length : Int) else e.position }, out)

/-- orc/encoding/int.go:413-422 `Flush`. -/
def flush (e : IntEnc) : Res (IntEnc × Bytes) :=
  if e.values = [] then .ok (e, [])
  else do
    let (out, rest) ← intWrite e.signed true e.values
    pure ({ e with values := rest }, out)

/-- orc/encoding/int.go:409-411 `GetPosition`: `uint64(e.position)`. -/
def getPosition (e : IntEnc) : List Nat := [intToU64 e.position]

end IntEnc

/-- orc/encoding/int.go `intRLV2Encoder` as an `Encoder`. -/
def intEnc : Enc IntEnc := ⟨IntEnc.encode, IntEnc.flush, IntEnc.getPosition⟩

end Goorc
