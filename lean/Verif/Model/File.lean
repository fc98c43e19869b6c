import Verif.Go.Basic
/-
`orc/io/file.go`: the file in memory and the file of the operating system, and the two functions of the Go standard library all reads go
through, `io.ReadFull` and `io.CopyN` into a `bytes.Buffer`.
-/
namespace Goorc

/-- What a call of `Read` returns: the bytes, and the error that comes with them, if any. orc/io/file.go:66-72 and
120-128. -/
structure ReadResult (σ : Type) where
  bytes : Bytes
  err : Option Err
  file : σ

/-- At least one of `n`, and at most as many as the first of a list says. What `read(2)` under orc/io/file.go:66-72 may
do. -/
def portion (quotas : List Nat) (n : Nat) : Nat :=
  match quotas with
  | [] => n
  | k :: _ => min n (max 1 k)

/-! ### The file in memory -/

/-- orc/io/file.go:85-89 `MockFile`. The buffer never changes its length. -/
structure MockFile where
  buf : Bytes
  offset : Int
  waterMark : Nat
  deriving DecidableEq

namespace MockFile

/-- orc/io/file.go:91-93 `NewMockFile`. -/
def new (bb : Bytes) : MockFile := ⟨bb, 0, 0⟩

/-- orc/io/file.go:94-96 `Clone`. The clone shares the buffer; that a later `Write` of one of the two changes the
bytes of the other is not modelled (readers clone, and do not write). -/
def clone (m : MockFile) : MockFile := ⟨m.buf, m.offset, m.waterMark⟩

/-- orc/io/file.go:98-102 `Close`. -/
def close (m : MockFile) : MockFile := m

/-- orc/io/file.go:104-106 `Size`. -/
def size (m : MockFile) : Nat := m.waterMark

/-- orc/io/file.go:108-118 `Seek`; `io.SeekStart` is 0. -/
def seek (m : MockFile) (offset : Int) (whence : Nat) : Res MockFile :=
  if whence ≠ 0 then .err .other
  else if offset ≥ m.buf.length then .err .other
  else .ok { m with offset := offset }

/-- orc/io/file.go:120-128 `Read` into a slice of `n` bytes. The slice expression panics if the offset is negative or beyond the watermark. -/
def read (m : MockFile) (n : Nat) : Res (ReadResult MockFile) :=
  if m.offset < 0 ∨ m.offset > m.waterMark then .panic
  else
    let b := ((m.buf.take m.waterMark).drop m.offset.toNat).take n
    let m := { m with offset := m.offset + b.length }
    .ok ⟨b, if m.offset = (m.buf.length : Int) - 1 ∨ b.length = 0 then some .eof else none, m⟩

/-- orc/io/file.go:130-140 `Write`: the number of bytes written, whether it was an error, the file. -/
def write (m : MockFile) (p : Bytes) : Nat × Bool × MockFile :=
  let q := p.take (m.buf.length - m.waterMark)
  (q.length, decide (q.length < p.length), { m with buf := m.buf.take m.waterMark ++ q ++ m.buf.drop (m.waterMark + q.length), waterMark := m.waterMark + q.length })

end MockFile

/-! ### The file of the operating system -/

/-- orc/io/file.go:24-27 `osFile`, of a file that nobody changes meanwhile. The operating system may return fewer bytes than were asked for: at most as
many as the next of `quotas` says, and at least one; when the list is used up, as many as there are. -/
structure OsFile where
  contents : Bytes
  offset : Nat
  quotas : List Nat
  deriving DecidableEq

namespace OsFile

/-- orc/io/file.go:50-56 `Clone`: the file is opened again. -/
def clone (f : OsFile) : OsFile := { f with offset := 0 }

/-- orc/io/file.go:58-64 `Size`. -/
def size (f : OsFile) : Nat := f.contents.length

/-- orc/io/file.go:74-76 `Seek`, for `io.SeekStart`. -/
def seek (f : OsFile) (offset : Int) : Res OsFile := if offset < 0 then .err .other else .ok { f with offset := offset.toNat }

/-- orc/io/file.go:66-72 `Read` into a slice of `n` bytes, with `os.File.Read`: nothing read means the end, except for an empty slice. The error is
wrapped, so that it is not `io.EOF` any more. -/
def read (f : OsFile) (n : Nat) : Res (ReadResult OsFile) :=
  if n = 0 then .ok ⟨[], none, f⟩
  else
    let b := (f.contents.drop f.offset).take (portion f.quotas n)
    if b = [] then .ok ⟨[], some .other, f⟩
    else .ok ⟨b, none, { f with offset := f.offset + b.length, quotas := f.quotas.tail }⟩

end OsFile

/-! ### `io.ReadFull` and `io.CopyN` -/

/-- `io.ReadFull` of a slice of `n` bytes (`io.ReadAtLeast`): `Read` is called until the slice is full or there is an error; an error that comes with the
last bytes is dropped. Called in orc/stream/reader.go:129, orc/reader.go:278 and 300, orc/stripe.go:227,
orc/column/reader.go:40. -/
def readFull {σ : Type} (read : σ → Nat → Res (ReadResult σ)) : Nat → σ → Nat → Res (Bytes × σ)
  | 0, _, _ => .hang
  | fuel + 1, f, n =>
    if n = 0 then .ok ([], f)
    else do
      let r ← read f n
      if r.bytes.length ≥ n then .ok (r.bytes, r.file)
      else match r.err with
        | some e => .err e
        | none => do
          let (b, f) ← readFull read fuel r.file (n - r.bytes.length)
          .ok (r.bytes ++ b, f)

/-- The loop of `bytes.Buffer.ReadFrom`, reading from a `LimitedReader` with `n` bytes left: `rooms` are the free capacities of the buffer at each call (at
least one, in fact at least 512; without limit when the list is used up). `io.EOF` ends the loop without an error.
Called by `io.CopyN`, orc/stream/reader.go:120, 143, 148. -/
def readFrom {σ : Type} (read : σ → Nat → Res (ReadResult σ)) : Nat → List Nat → σ → Nat → Res (Bytes × σ)
  | 0, _, _, _ => .hang
  | fuel + 1, rooms, f, n =>
    if n = 0 then .ok ([], f)
    else do
      let r ← read f (portion rooms n)
      match r.err with
      | some .eof => .ok (r.bytes, r.file)
      | some .other => .err .other
      | none => do
        let (b, f) ← readFrom read fuel rooms.tail r.file (n - r.bytes.length)
        .ok (r.bytes ++ b, f)

/-- `io.CopyN` of `n` bytes: fewer are an error. Called in orc/stream/reader.go:120, 143, 148. -/
def copyN {σ : Type} (read : σ → Nat → Res (ReadResult σ)) (fuel : Nat) (rooms : List Nat) (f : σ) (n : Nat) : Res (Bytes × σ) := do
  let (b, f) ← readFrom read fuel rooms f n
  if b.length < n then .err .eof else .ok (b, f)

end Goorc
