import Verif.Model.StreamTyped
/-
`IntRLV2Reader` of unsigned integers (orc/stream/int.go) and its decoder (orc/encoding/int.go) with the memory of their slices: the reader holds on to a slice of the decoder, and both append to theirs.
`IntReader` in Verif/Model/StreamTyped.lean is the same without memory; Verif/Props/SliceMem.lean shows that `NextUInt64` cannot tell.
-/
namespace Goorc

/-- The arrays slices of `uint64` are in; the capacity of a slice that starts with its array is the length of the array. For orc/stream/int.go:11-20 and orc/encoding/int.go:19-25. -/
abbrev Heap := List (List U64)

/-- A slice that starts with its array: which array, and how many elements. `nil` is a slice of an array without elements. For `uvalues` of orc/stream/int.go:16 and `uvs` of orc/encoding/int.go:23. -/
structure Sl where
  arr : Nat
  len : Nat
  deriving DecidableEq, Repr

/-- The array of a slice. For orc/stream/int.go:16, orc/encoding/int.go:23. -/
def Heap.array (h : Heap) (s : Sl) : List U64 := (h[s.arr]?).getD []

/-- The elements of a slice. For orc/stream/int.go:16, orc/encoding/int.go:23. -/
def Heap.read (h : Heap) (s : Sl) : List U64 := (h.array s).take s.len

/-- `append(s, vs...)`, as called in orc/stream/int.go:75 and orc/encoding/int.go:83, 106, 147-197. In place if there is room, else in a new array; how large that is depends on the Go version, `grow` says what it does
(at least as many elements as are needed). -/
def Heap.append (grow : Nat → Nat → Nat) (h : Heap) (s : Sl) (vs : List U64) : Heap × Sl :=
  let a := h.array s
  let need := s.len + vs.length
  if need ≤ a.length then (h.set s.arr (a.take s.len ++ vs ++ a.drop need), ⟨s.arr, need⟩)
  else (h ++ [a.take s.len ++ vs ++ List.replicate (grow a.length need - need) 0], ⟨h.length, need⟩)

/-- `append` one by one, as the loops of orc/encoding/int.go:82-84, 101-107, 147-198 do. -/
def Heap.appendEach (grow : Nat → Nat → Nat) : Heap → Sl → List U64 → Heap × Sl
  | h, s, [] => (h, s)
  | h, s, v :: vs => Heap.appendEach grow (h.append grow s [v]).1 (h.append grow s [v]).2 vs

/-- orc/stream/int.go:11-20 `IntRLV2Reader` with `signed` false, and its decoder: `uvs` is orc/encoding/int.go:23, `uvalues` and `pos` are orc/stream/int.go:16-17. -/
structure UIntReader where
  stream : StreamReader
  heap : Heap
  uvs : Sl
  uvalues : Sl
  pos : Nat

/-- orc/stream/int.go:22-25 `NewIntRLV2Reader(..., false, ...)`, orc/encoding/int.go:12-17 `NewIntDecoder(false)`: both slices are nil. -/
def newUIntReader (s : StreamReader) : UIntReader := ⟨s, [[]], ⟨0, 0⟩, ⟨0, 0⟩, 0⟩

namespace UIntReader

/-- orc/encoding/int.go:44-53 `DecodeUInt`: the values of a block are appended to `d.uvs[:0]`, which is what it returns. -/
def decode (grow : Nat → Nat → Nat) (c : Codec) (r : UIntReader) : Res UIntReader := do
  let (vs, s) ← (decodeUInt false).runStream c r.stream
  let m := r.heap.appendEach grow { r.uvs with len := 0 } vs
  pure { r with stream := s, heap := m.1, uvs := m.2 }

/-- orc/stream/int.go:44-62 `NextUInt64`. -/
def next (grow : Nat → Nat → Nat) (c : Codec) (r : UIntReader) : Res (U64 × UIntReader) := do
  let r ← if r.pos ≥ r.uvalues.len then do
      let r ← r.decode grow c
      if r.uvs.len = 0 then .err .other else pure { r with uvalues := r.uvs, pos := 0 }
    else pure r
  match (r.heap.read r.uvalues)[r.pos]? with
  | some v => pure (v, { r with pos := r.pos + 1 })
  | none => .panic

/-- orc/stream/int.go:65-78 `GetAllUInts`; `fuel` bounds the number of blocks. -/
def getAll (grow : Nat → Nat → Nat) (c : Codec) : Nat → UIntReader → Res (List U64 × UIntReader)
  | fuel, r =>
    if r.stream.finished then .ok (r.heap.read r.uvalues, r)
    else
      match fuel with
      | 0 => .hang
      | fuel + 1 => do
        let r ← r.decode grow c
        let m := r.heap.append grow r.uvalues (r.heap.read r.uvs)
        getAll grow c fuel { r with heap := m.1, uvalues := m.2 }

/-- orc/stream/int.go:80-86 `Finished`. -/
def finished (r : UIntReader) : Bool := r.stream.finished && decide (r.pos = r.uvalues.len)

end UIntReader

end Goorc
