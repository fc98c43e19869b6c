import Verif.Spec.BitStream
import Verif.Spec.Widths
/-
Integer run-length encoding version 2 as the ORC specification defines it: what the bits of a block are and
which integers a block stands for. Nothing here refers to the model of the code.
-/
namespace Goorc

/-- A block. Widths are given by their 5-bit codes, lengths by the lists. -/
inductive RleBlock where
  /-- `count` times the value stored in `bytes` bytes -/
  | shortRepeat (bytes count value : Nat)
  /-- values of the width with the given code -/
  | direct (code : Nat) (values : List Nat)
  /-- values of the width with code `code` relative to `base`, stored in `bw` bytes; a patch `(gap, bits)` is
  stored in `pgw` bits and the width with code `pcode` and gives the bits above the stored width of the value
  `gap` places after the previously patched one -/
  | patched (code bw pcode pgw : Nat) (base : Int) (values : List Nat) (patches : List (Nat × Nat))
  /-- a first value, a first difference, and the absolute values of the other differences -/
  | delta (code : Nat) (base deltaBase : Int) (deltas : List Nat)
  /-- an arithmetic progression -/
  | fixedDelta (length : Nat) (base deltaBase : Int)

/-- Width of a code. -/
def codeWidth (code : Nat) : Nat := orcWidths.getD code 0

/-- Filled up with zeros to whole bytes. -/
def padded (l : List Bool) : List Bool := l ++ List.replicate ((8 - l.length % 8) % 8) false

/-- Base-128 varint, least significant group first (ten bytes are enough for 64 bits). -/
def leb128 : Nat → Nat → List Nat
  | 0, n => [n % 256]
  | k + 1, n => if n < 128 then [n] else (n % 128 + 128) :: leb128 k (n / 128)

/-- Bits of a varint. -/
def varintBits (n : Nat) : List Bool := (leb128 9 n).flatMap (natBits 8)

/-- Zigzag on integers. -/
def zz (n : Int) : Nat := (zigzagSpec n).toNat

/-- The bits of a block in a signed or unsigned stream. -/
def RleBlock.bits (signed : Bool) : RleBlock → List Bool
  | .shortRepeat bytes count value =>
    natBits 2 0 ++ natBits 3 (bytes - 1) ++ natBits 3 (count - 3) ++ natBits (8 * bytes) value
  | .direct code values =>
    natBits 2 1 ++ natBits 5 code ++ natBits 9 (values.length - 1) ++
      padded (values.flatMap (natBits (codeWidth code)))
  | .patched code bw pcode pgw base values patches =>
    natBits 2 2 ++ natBits 5 code ++ natBits 9 (values.length - 1) ++
      natBits 3 (bw - 1) ++ natBits 5 pcode ++ natBits 3 (pgw - 1) ++ natBits 5 patches.length ++
      (decide (base < 0) :: natBits (8 * bw - 1) base.natAbs) ++
      padded (values.flatMap (natBits (codeWidth code))) ++
      padded (patches.flatMap fun p => natBits pgw p.1 ++ natBits (codeWidth pcode) p.2)
  | .delta code base deltaBase deltas =>
    natBits 2 3 ++ natBits 5 code ++ natBits 9 (deltas.length + 1) ++
      varintBits (if signed then zz base else base.toNat) ++ varintBits (zz deltaBase) ++
      padded (deltas.flatMap (natBits (codeWidth code)))
  | .fixedDelta length base deltaBase =>
    natBits 2 3 ++ natBits 5 0 ++ natBits 9 (length - 1) ++
      varintBits (if signed then zz base else base.toNat) ++ varintBits (zz deltaBase)

/-- The integer a stored number stands for. -/
def stored (signed : Bool) (n : Nat) : Int :=
  if signed then (if n % 2 = 0 then (n / 2 : Int) else -(n / 2 : Int) - 1) else n

/-- Add the patches: `pos` is the index patched last. -/
def addPatches (w : Nat) : Nat → List (Nat × Nat) → List Nat → List Nat
  | _, [], vs => vs
  | pos, (g, p) :: ps, vs => addPatches w (pos + g) ps (vs.modify (pos + g) (· + p * 2 ^ w))

/-- Running sums of differences. -/
def sums : Int → List Int → List Int
  | _, [] => []
  | x, d :: ds => (x + d) :: sums (x + d) ds

/-- The integers a block stands for. -/
def RleBlock.ints (signed : Bool) : RleBlock → List Int
  | .shortRepeat _ count value => List.replicate count (stored signed value)
  | .direct _ values => values.map (stored signed)
  | .patched code _ _ _ base values patches =>
    (addPatches (codeWidth code) 0 patches values).map fun v : Nat => base + (v : Int)
  | .delta _ base deltaBase deltas =>
    base :: (base + deltaBase) :: sums (base + deltaBase) (deltas.map fun d : Nat => if 0 ≤ deltaBase then (d : Int) else -(d : Int))
  | .fixedDelta length base deltaBase => (List.range length).map fun i : Nat => base + (i : Int) * deltaBase

/-- The patched indexes stay inside and increase. -/
def PatchesFit (n : Nat) : Nat → Nat → List (Nat × Nat) → Prop
  | _, _, [] => True
  | lo, pos, (g, _) :: ps => lo ≤ pos + g ∧ pos + g < n ∧ PatchesFit n (pos + g + 1) (pos + g) ps

/-- Range of the integers of a stream. -/
def InRange (signed : Bool) (x : Int) : Prop :=
  if signed then -(2 ^ 63) ≤ x ∧ x < 2 ^ 63 else 0 ≤ x ∧ x < 2 ^ 64

/-- Well-formed blocks. -/
def RleBlock.WF (signed : Bool) : RleBlock → Prop
  | .shortRepeat bytes count value => 1 ≤ bytes ∧ bytes ≤ 8 ∧ 3 ≤ count ∧ count ≤ 10 ∧ value < 256 ^ bytes
  | .direct code values => code < 32 ∧ 1 ≤ values.length ∧ values.length ≤ 512 ∧ ∀ v ∈ values, v < 2 ^ codeWidth code
  | .patched code bw pcode pgw base values patches =>
    code < 32 ∧ 1 ≤ values.length ∧ values.length ≤ 512 ∧ (∀ v ∈ values, v < 2 ^ codeWidth code) ∧
    1 ≤ bw ∧ bw ≤ 8 ∧ base.natAbs < 2 ^ (8 * bw - 1) ∧ pcode < 32 ∧ 1 ≤ pgw ∧ pgw ≤ 8 ∧ patches.length < 32 ∧
    (∀ p ∈ patches, p.1 < 2 ^ pgw ∧ p.2 < 2 ^ codeWidth pcode) ∧ PatchesFit values.length 0 0 patches
  | .delta code base deltaBase deltas =>
    1 ≤ code ∧ code < 32 ∧ deltas.length + 2 ≤ 512 ∧ (∀ d ∈ deltas, d < 2 ^ codeWidth code) ∧
    InRange signed base ∧ InRange true deltaBase
  | .fixedDelta length base deltaBase => 2 ≤ length ∧ length ≤ 512 ∧ InRange signed base ∧ InRange true deltaBase

/-- What the decoder handles of the format: everything but patched blocks in unsigned streams, patch entries
that are too wide, and progressions with a step (beyond two values). -/
def RleBlock.Handled (signed : Bool) : RleBlock → Prop
  | .shortRepeat .. => True
  | .direct .. => True
  | .delta .. => True
  | .patched _ _ pcode pgw _ _ patches =>
    signed = true ∧ pgw + codeWidth pcode < 64 ∧
      ∀ i, i < patches.length → (i * (pgw + codeWidth pcode)) % 8 + (pgw + codeWidth pcode) ≤ 64
  | .fixedDelta length _ deltaBase => length ≤ 2 ∨ deltaBase = 0

end Goorc
