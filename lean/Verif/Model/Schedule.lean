import Verif.Model.File
import Verif.Model.StreamReader
/-
Goroutines that read one file, each with streams of its own: what the calls of orc/stream/reader.go are as sequences of calls on file handles, which the
calls of other goroutines may come between. Handles are numbers; several streams could hold the same one. Calls on handles (`Seek`, `Read`) are atomic.
Other memory that goroutines share (options, schemas) is only written while a batch reader is created, orc/stripe.go:251, and is not modelled.
-/
namespace Goorc

/-- The open handles of a process, orc/io/file.go:24-27: all of the same file, each with its own offset. -/
abbrev Handles := List OsFile

/-- A goroutine: what it has to do, call by call. The calls are those of orc/io/file.go:66-76. -/
inductive Prog (α : Type) where
  | done (r : Res α)
  /-- `Seek(off, io.SeekStart)` of handle `h`. -/
  | seek (h : Nat) (off : Nat) (k : Prog α)
  /-- `Read` of handle `h` into a slice of `n` bytes. -/
  | read (h n : Nat) (k : Bytes → Option Err → Prog α)

namespace Prog

/-- One after the other; what is not a success ends it. Go's `if err != nil { return err }`. -/
def bind {α β : Type} : Prog α → (α → Prog β) → Prog β
  | done (.ok a), f => f a
  | done (.err e), _ => done (.err e)
  | done .panic, _ => done .panic
  | done .hang, _ => done .hang
  | seek h off k, f => seek h off (k.bind f)
  | read h n k, f => read h n fun b e => (k b e).bind f

/-- The next call of a goroutine; one that is done does nothing. A handle that does not exist is a nil pointer.
orc/io/file.go:66-76. -/
def step {α : Type} : Prog α → Handles → Prog α × Handles
  | done r, hs => (done r, hs)
  | seek h off k, hs =>
    match hs[h]? with
    | none => (done .panic, hs)
    | some f =>
      match f.seek off with
      | .ok f => (k, hs.set h f)
      | .err e => (done (.err e), hs)
      | .panic => (done .panic, hs)
      | .hang => (done .hang, hs)
  | read h n k, hs =>
    match hs[h]? with
    | none => (done .panic, hs)
    | some f =>
      match f.read n with
      | .ok r => (k r.bytes r.err, hs.set h r.file)
      | .err e => (done (.err e), hs)
      | .panic => (done .panic, hs)
      | .hang => (done .hang, hs)

/-- `io.ReadFull` of a slice of `n` bytes, see `Goorc.readFull`. Called in orc/stream/reader.go:110-158 and
orc/reader.go:254-343. -/
def readFull (h : Nat) : Nat → Nat → Prog Bytes
  | 0, _ => done .hang
  | fuel + 1, n =>
    if n = 0 then done (.ok [])
    else read h n fun b e =>
      if b.length ≥ n then done (.ok b)
      else match e with
        | some e => done (.err e)
        | none => (readFull h fuel (n - b.length)).bind fun b' => done (.ok (b ++ b'))

/-- The loop of `bytes.Buffer.ReadFrom`, see `Goorc.readFrom`. Called in orc/stream/reader.go:110-158. -/
def readFrom (h : Nat) : Nat → List Nat → Nat → Prog Bytes
  | 0, _, _ => done .hang
  | fuel + 1, rooms, n =>
    if n = 0 then done (.ok [])
    else read h (portion rooms n) fun b e =>
      match e with
      | some .eof => done (.ok b)
      | some .other => done (.err .other)
      | none => (readFrom h fuel rooms.tail (n - b.length)).bind fun b' => done (.ok (b ++ b'))

/-- `io.CopyN`, see `Goorc.copyN`. Called in orc/stream/reader.go:110-158. -/
def copyN (h fuel : Nat) (rooms : List Nat) (n : Nat) : Prog Bytes :=
  (readFrom h fuel rooms n).bind fun b => if b.length < n then done (.err .eof) else done (.ok b)

end Prog

/-- Goroutines, each at its place. The goroutines are the user's; the calls are orc/io/file.go:66-76. -/
def stepAt {α : Type} (i : Nat) (x : List (Prog α) × Handles) : List (Prog α) × Handles :=
  match x.1[i]? with
  | none => x
  | some p => (x.1.set i (p.step x.2).1, (p.step x.2).2)

/-- A schedule: which goroutine makes the next call, again and again. The goroutines are the user's; the calls are
orc/io/file.go:66-76. -/
def runSchedule {α : Type} : List Nat → List (Prog α) × Handles → List (Prog α) × Handles
  | [], x => x
  | i :: is, x => runSchedule is (stepAt i x)

/-! ### Streams -/

/-- orc/stream/reader.go:21-33 `reader`, see `StreamReader`; here the handle is a pointer. -/
structure HStream where
  kind : CompKind
  chunkSize : Nat
  start : Nat
  length : Nat
  handle : Nat
  readLength : Nat
  buf : Bytes
  deriving DecidableEq

/-- `InitStream`, for instance orc/column/int.go:187-200, orc/column/struct.go:31-48: a clone of the file, at the start of the stream, and orc/stream/reader.go:35-42
`newReader` on it. `quotas` is how the operating system will serve its reads. -/
def openStream (hs : Handles) (f : OsFile) (quotas : List Nat) (kind : CompKind) (chunkSize start length : Nat) : Handles × HStream :=
  (hs ++ [{ f.clone with offset := start, quotas := quotas }], ⟨kind, chunkSize, start, length, hs.length, 0, []⟩)

namespace HStream

/-- orc/stream/reader.go:109-158 `readAChunk`, see `StreamReader.readAChunk`. -/
def readAChunk (c : Codec) (rooms : List Nat) (r : HStream) : Prog HStream :=
  if r.kind = .none then
    let remaining := if r.readLength ≤ r.length then r.length - r.readLength else 2 ^ 64 - (r.readLength - r.length);
    let l := if remaining < r.chunkSize then remaining else r.chunkSize;
    (Prog.copyN r.handle (l + 1) rooms l).bind fun bs => .done (.ok { r with buf := r.buf ++ bs, readLength := r.readLength + l })
  else
    (Prog.readFull r.handle 4 3).bind fun head =>
      let chunk := decChunkHeader (head.getD 0 0) (head.getD 1 0) (head.getD 2 0);
      if chunk.1 > r.chunkSize then .done (.err .other)
      else (Prog.copyN r.handle (chunk.1 + 1) rooms chunk.1).bind fun bs =>
        (Prog.done (if chunk.2 then .ok bs else decompress c r.kind bs)).bind fun piece =>
          .done (.ok { r with buf := r.buf ++ piece, readLength := r.readLength + 3 + chunk.1 })

/-- orc/stream/reader.go:43-65 `ReadByte`. -/
def readByte (c : Codec) (rooms : List Nat) (r : HStream) : Prog (Byte × HStream) :=
  match r.buf with
  | b :: bs => .done (.ok (b, { r with buf := bs }))
  | [] =>
    if r.readLength ≥ r.length then .done (.err .eof)
    else (r.readAChunk c rooms).bind fun r =>
      match r.buf with
      | b :: bs => .done (.ok (b, { r with buf := bs }))
      | [] => .done (.err .eof)

/-- orc/stream/reader.go:78-82, the loop of `Read`. -/
def fill (c : Codec) (rooms : List Nat) (n : Nat) : Nat → HStream → Prog HStream
  | fuel, r =>
    if r.buf.length < n ∧ r.readLength < r.length then
      match fuel with
      | 0 => .done .hang
      | fuel + 1 => (r.readAChunk c rooms).bind fun r => fill c rooms n fuel r
    else .done (.ok r)

/-- `io.ReadFull` on orc/stream/reader.go:67-90 `Read`. -/
def readFull (c : Codec) (rooms : List Nat) (n : Nat) (r : HStream) : Prog (Bytes × HStream) :=
  if n = 0 then .done (.ok ([], r))
  else if r.buf.length ≥ n then .done (.ok (r.buf.take n, { r with buf := r.buf.drop n }))
  else if r.readLength ≥ r.length then .done (.err .other)
  else (r.fill c rooms n (r.length - r.readLength)).bind fun r =>
    if r.buf.length ≥ n then .done (.ok (r.buf.take n, { r with buf := r.buf.drop n }))
    else if r.buf = [] then .done (.err .eof)
    else .done (.err .other)

/-- orc/stream/reader.go:160-162 `finished`: no call on the handle. -/
def finished (r : HStream) : Bool := decide (r.readLength ≥ r.length) && r.buf.isEmpty

/-- orc/stream/reader.go:92-107 `seek`. -/
def seek (c : Codec) (rooms : List Nat) (r : HStream) (chunk chunkOffset : Nat) : Prog HStream :=
  .seek r.handle (r.start + chunk) <|
    (({ r with buf := [], readLength := chunk } : HStream).readAChunk c rooms).bind fun r => .done (.ok { r with buf := r.buf.drop chunkOffset })

end HStream

/-- orc/stripe.go:218-227, the first part of `readFooter`, on the handle `h` that all batch readers of a file share. -/
def readFooterBytes (h off n : Nat) : Prog Bytes := .seek h off (Prog.readFull h (n + 1) n)

end Goorc
