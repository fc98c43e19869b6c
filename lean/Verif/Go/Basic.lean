/-
The fragment of Go the model is written in.

Conventions (see DESIGN.md, "Trusted base"):
* `byte` is `BitVec 8`; `uint64` and `int64` are both `BitVec 64` (two's complement);
* a call that can fail yields `Res`: `ok`, `err` (a returned `error`), `panic`
  (a run-time panic) or `hang` (a loop that never ends);
* `bytes.Buffer` and `[]byte` are `List Byte`.
-/
namespace Goorc

/-- Go `byte` / `uint8`. Used throughout, for example orc/encoding/byte.go:11-14. -/
abbrev Byte := BitVec 8

/-- Go `uint64`, and `int64` as its two's complement bit pattern. Used throughout, for example
orc/encoding/int.go:19-25. -/
abbrev U64 := BitVec 64

/-- Go `[]byte` / the contents of a `bytes.Buffer`. For example the `bytes.Buffer`s of orc/stream/writer.go:14-27 and
orc/stream/reader.go:20-32. -/
abbrev Bytes := List Byte

/-- Errors: `io.EOF` (or `io.ErrUnexpectedEOF`) is told apart from all others. orc/stream/reader.go:53 and the functions
of package io give `io.EOF`; every other error of orc/ is only passed on. -/
inductive Err where
  | eof
  | other
  deriving DecidableEq, Repr

/-- Outcome of a Go call. Every function of orc/ that returns `error`, or panics, is modelled with it. -/
inductive Res (α : Type) where
  | ok (a : α)
  | err (e : Err)
  | panic
  | hang
  deriving DecidableEq, Repr

namespace Res

/-- Sequencing: the first error, panic or divergence wins. The code's `if err != nil { return err }`, for example
orc/stripe.go:37-59. -/
def bind {α β : Type} : Res α → (α → Res β) → Res β
  | ok a, f => f a
  | err e, _ => err e
  | panic, _ => panic
  | hang, _ => hang

instance : Monad Res where
  pure := ok
  bind := bind

@[simp] theorem ok_bind {α β : Type} (a : α) (f : α → Res β) : (ok a >>= f) = f a := rfl
@[simp] theorem err_bind {α β : Type} (e : Err) (f : α → Res β) : ((err e : Res α) >>= f) = err e := rfl
@[simp] theorem panic_bind {α β : Type} (f : α → Res β) : ((panic : Res α) >>= f) = panic := rfl
@[simp] theorem hang_bind {α β : Type} (f : α → Res β) : ((hang : Res α) >>= f) = hang := rfl
@[simp] theorem pure_eq {α : Type} (a : α) : (pure a : Res α) = ok a := rfl

theorem bind_eq_ok {α β : Type} {x : Res α} {f : α → Res β} {b : β} :
    (x >>= f) = ok b ↔ ∃ a, x = ok a ∧ f a = ok b := by
  cases x <;> simp

theorem bind_assoc {α β γ : Type} (x : Res α) (f : α → Res β) (g : β → Res γ) :
    ((x >>= f) >>= g) = (x >>= fun a => f a >>= g) := by
  cases x <;> simp

instance : LawfulMonad Res := LawfulMonad.mk' Res
  (id_map := fun x => by cases x <;> rfl)
  (pure_bind := fun _ _ => rfl)
  (bind_assoc := fun x _ _ => by cases x <;> rfl)

/-- Did the call succeed? That is `err == nil`, for example orc/writer.go:85-94. -/
def isOk {α : Type} : Res α → Bool
  | ok _ => true
  | _ => false

end Res

/-- A Go `interface{}` holding one of the value types that flow through encoders and batches.
Floats are their IEEE bit patterns. orc/api/vector.go:80-83 is where batches hold it, orc/encoding/package.go:30-45
where encoders take it. -/
inductive GoVal where
  | nil
  | bool (b : Bool)
  | u8 (b : Byte)
  | i16 (v : BitVec 16)
  | i32 (v : BitVec 32)
  | i64 (v : U64)
  | u64 (v : U64)
  | int (v : Int)
  | f32 (v : BitVec 32)
  | f64 (v : BitVec 64)
  | bytes (v : Bytes)
  | str (v : Bytes)
  /-- `api.Date` (a `time.Time` in UTC) as nanoseconds since 1970-01-01 00:00 UTC -/
  | date (ns : Int)
  /-- `api.Timestamp{Loc, Seconds, Nanos}`; `Loc` as in Verif/Model/Time.lean -/
  | ts (loc : Option Int) (secs : U64) (nanos : U64)
  /-- `api.Decimal64{Precision, Scale}` -/
  | dec (precision : U64) (scale : Int)
  deriving DecidableEq, Repr

end Goorc
