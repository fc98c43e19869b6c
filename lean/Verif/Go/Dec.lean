import Verif.Go.Basic
/-
Decoders as programs over two read primitives.

Every decoder of the package reads its input only through `ReadByte` (io.ByteReader) and
`io.ReadFull` (io.Reader). `Dec α` is the type of programs built from these two, so the same decoder
can be run against a `bytes.Buffer` (`runBuf`) and against the chunked stream reader
(`Verif.Model.StreamReader`).
-/
namespace Goorc

/-- A program that reads bytes and returns an `α`. The decoders read through orc/encoding/package.go:47-50
`BufferedReader`. -/
inductive Dec (α : Type) : Type where
  /-- return -/
  | ret (a : α)
  /-- return an error -/
  | fail (e : Err)
  /-- run-time panic -/
  | crash
  /-- `b, err := in.ReadByte()`, errors are returned to the caller -/
  | readByte (k : Byte → Dec α)
  /-- `io.ReadFull(in, make([]byte, n))`, errors are returned to the caller -/
  | readFull (n : Nat) (k : Bytes → Dec α)

namespace Dec

/-- Sequencing. As a Go function that calls `in` several times, for example orc/encoding/byte.go:80-105. -/
def bind {α β : Type} : Dec α → (α → Dec β) → Dec β
  | ret a, f => f a
  | fail e, _ => fail e
  | crash, _ => crash
  | readByte k, f => readByte fun b => bind (k b) f
  | readFull n k, f => readFull n fun bs => bind (k bs) f

instance : Monad Dec where
  pure := ret
  bind := bind

/-- `in.ReadByte()` orc/encoding/package.go:47-50 `BufferedReader`. -/
def byte : Dec Byte := readByte ret

/-- `io.ReadFull(in, buf)` with `len(buf) = n` orc/encoding/package.go:47-50 `BufferedReader`, for example
orc/encoding/float.go:44-51. -/
def full (n : Nat) : Dec Bytes := readFull n ret

/-- Run against a `bytes.Buffer` holding the given bytes; returns the unread rest. As the tests call the decoders, for
example orc/encoding/bool.go:68-83. -/
def runBuf {α : Type} : Dec α → Bytes → Res (α × Bytes)
  | ret a, s => .ok (a, s)
  | fail e, _ => .err e
  | crash, _ => .panic
  | readByte _, [] => .err .eof
  | readByte k, b :: s => runBuf (k b) s
  | readFull n k, s => if n ≤ s.length then runBuf (k (s.take n)) (s.drop n) else .err .eof

@[simp] theorem runBuf_ret {α : Type} (a : α) (s : Bytes) : runBuf (ret a) s = .ok (a, s) := rfl
@[simp] theorem runBuf_fail {α : Type} (e : Err) (s : Bytes) :
    runBuf (fail e : Dec α) s = .err e := rfl
@[simp] theorem runBuf_crash {α : Type} (s : Bytes) : runBuf (crash : Dec α) s = .panic := rfl
@[simp] theorem pure_eq {α : Type} (a : α) : (pure a : Dec α) = ret a := rfl
@[simp] theorem runBuf_byte_nil : runBuf byte [] = .err .eof := rfl
@[simp] theorem runBuf_byte_cons (b : Byte) (s : Bytes) : runBuf byte (b :: s) = .ok (b, s) := rfl

theorem runBuf_full (n : Nat) (s : Bytes) :
    runBuf (full n) s = if n ≤ s.length then .ok (s.take n, s.drop n) else .err .eof := by
  simp only [full, runBuf]

@[simp] theorem runBuf_full_append (n : Nat) (a s : Bytes) (h : a.length = n) :
    runBuf (full n) (a ++ s) = .ok (a, s) := by
  subst h
  simp [runBuf_full]

@[simp] theorem runBuf_bind {α β : Type} (d : Dec α) (f : α → Dec β) (s : Bytes) :
    runBuf (d >>= f) s = (runBuf d s >>= fun p => runBuf (f p.1) p.2) := by
  show runBuf (bind d f) s = _
  induction d generalizing s with
  | ret a => rfl
  | fail e => rfl
  | crash => rfl
  | readByte k ih =>
    cases s with
    | nil => rfl
    | cons b s => simp only [bind, runBuf]; exact ih b s
  | readFull n k ih =>
    simp only [bind, runBuf]
    split
    · exact ih _ _
    · rfl

@[simp] theorem ret_bind {α β : Type} (a : α) (f : α → Dec β) : (ret a >>= f) = f a := rfl
@[simp] theorem fail_bind {α β : Type} (e : Err) (f : α → Dec β) :
    ((fail e : Dec α) >>= f) = fail e := rfl
@[simp] theorem crash_bind {α β : Type} (f : α → Dec β) : ((crash : Dec α) >>= f) = crash := rfl

end Dec

/-- Run a block decoder again and again until the buffer is empty and collect all values, as the
tests and the column readers do. `fuel` bounds the number of blocks; running out of it is `hang`.
Every successful block decode consumes at least one byte, so `s.length` is enough. orc/stream/int.go:65-78 and
orc/stream/string.go:35-48 have such a loop. -/
def decodeAllFuel {α : Type} (d : Dec (List α)) : Nat → Bytes → Res (List α)
  | _, [] => .ok []
  | 0, _ :: _ => .hang
  | fuel + 1, b :: s => do
    let (vs, rest) ← d.runBuf (b :: s)
    let tail ← decodeAllFuel d fuel rest
    pure (vs ++ tail)

/-- Decode blocks until the buffer is empty. orc/stream/int.go:65-78. -/
def decodeAll {α : Type} (d : Dec (List α)) (s : Bytes) : Res (List α) :=
  decodeAllFuel d s.length s

end Goorc
