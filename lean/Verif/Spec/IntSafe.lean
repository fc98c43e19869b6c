import Verif.Model.EncInt
/-
The side conditions under which the integer encoder writes blocks that can be read back. They are
conditions on the values handed to the encoder and on the block it chooses for them; the theorems of
`Verif.Props.EncInt` say that they are sufficient, and for each single condition that it is necessary.
-/
namespace Goorc

/-- From its most significant nonzero byte down, `x` has no zero byte (in particular `x ≠ 0`). -/
def NoZeroByte (x : U64) : Prop :=
  ∃ n, 1 ≤ n ∧ n ≤ 8 ∧ x.toNat < 256 ^ n ∧ ∀ i, i < n → x.toNat / 256 ^ i % 256 ≠ 0

/-- A direct block can hold the values: at most 512, not all zero. No values need no block. -/
def DirectSafe (vs : List U64) : Prop := vs = [] ∨ (vs.length ≤ 512 ∧ ∃ v ∈ vs, v ≠ 0)

/-- Number of leading values equal to the first. -/
def leadRun : List U64 → Nat
  | [] => 0
  | v :: vs => (vs.takeWhile (· = v)).length + 1

/-- Side conditions under which a patched block is written so that it can be read back. -/
structure PatchSafe (vals : List U64) (pvs : PatchedValues) : Prop where
  width : pvs.width ≠ 0
  gap : ∃ g ∈ pvs.gaps, g ≠ 0
  base : pvs.base ≠ 0x8000000000000000#64
  entry : maxWidth getBitsWidth (pvs.gaps.map (BitVec.ofNat 64)) + maxWidth getBitsWidth pvs.patches < 64
  length : vals.length ≤ 512

/-- Side conditions of one iteration of the block choice. -/
def StepSafe (signed toEnd : Bool) (values : List U64) : Prop :=
  if 3 ≤ leadRun values then
    if leadRun values ≤ 10 then NoZeroByte (values.headD 0) else leadRun values ≤ 512
  else
    match tryDelta signed values with
    | some dv => dv.deltas.length + 2 ≤ 512 ∧ (toEnd = true → DirectSafe (values.drop (dv.deltas.length + 2)))
    | none =>
      if signed then
        match tryPatch values with
        | .ok (some pvs) => PatchSafe values pvs
        | _ => toEnd = true → DirectSafe values
      else toEnd = true → DirectSafe values

/-- Side conditions of writing everything that is pending. -/
def LoopSafe (signed : Bool) : Nat → List U64 → Prop
  | _, [] => True
  | 0, _ :: _ => True
  | fuel + 1, v :: vs => StepSafe signed true (v :: vs) ∧
    ∀ out rest, writeStep signed true (v :: vs) = .ok (out, rest) → LoopSafe signed fuel rest

/-- Side conditions of one write of the pending values. -/
def WriteSafe (signed toEnd : Bool) (values : List U64) : Prop :=
  if values.length ≤ 3 then DirectSafe values
  else if toEnd then LoopSafe signed values.length values
  else StepSafe signed false values

/-- Side conditions along a history of calls. -/
def RunSafe : IntEnc → List EncOp → Prop
  | _, [] => True
  | e, .encode v :: ops =>
    (∀ raw, IntEnc.rawValue e.signed v = .ok raw → 512 ≤ e.values.length + 1 →
      WriteSafe e.signed false (e.values ++ [raw])) ∧
    ∀ e' out, e.encode v = .ok (e', out) → RunSafe e' ops
  | e, .flush :: ops =>
    (e.values ≠ [] → WriteSafe e.signed true e.values) ∧
    ∀ e' out, e.flush = .ok (e', out) → RunSafe e' ops

/-- The values passed to `Encode` in a history, as the encoder stores them. -/
def rawInts (signed : Bool) : List EncOp → List U64
  | [] => []
  | .encode (.i64 v) :: ops => (if signed then zigzag v else v) :: rawInts signed ops
  | .encode (.u64 v) :: ops => v :: rawInts signed ops
  | _ :: ops => rawInts signed ops

/-- The number a stored value stands for: `int64` (stored zigzagged) or `uint64`. -/
def intOf (signed : Bool) (v : U64) : Int := if signed then (unZigzag v).toInt else (v.toNat : Int)

/-- `R` holds between all neighbours. -/
def Steps {α : Type} (R : α → α → Prop) : List α → Prop
  | a :: b :: l => R a b ∧ Steps R (b :: l)
  | _ => True

/-- Differences of neighbours. -/
def diffs : List Int → List Int
  | a :: b :: l => (b - a) :: diffs (b :: l)
  | _ => []

end Goorc
