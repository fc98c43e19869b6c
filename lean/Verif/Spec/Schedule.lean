import Verif.Model.Schedule
/-
C97: what a goroutine does that reads from streams of its own.
-/
namespace Goorc

/-- Anything that reads from streams: bytes, and what it does next may depend on them. Streams are numbered. An error ends it. -/
inductive Client (α : Type) where
  | done (r : Res α)
  | readByte (i : Nat) (k : Byte → Client α)
  | readFull (i n : Nat) (k : Bytes → Client α)
  | seek (i chunk chunkOffset : Nat) (k : Client α)
  | finished (i : Nat) (k : Bool → Client α)

/-- What it gets if it is alone. -/
def Client.alone {α : Type} (c : Codec) : Client α → List StreamReader → Res α
  | .done r, _ => r
  | .readByte i k, ss =>
    match ss[i]? with
    | none => .panic
    | some s => (s.readByte c).bind fun x => (k x.1).alone c (ss.set i x.2)
  | .readFull i n k, ss =>
    match ss[i]? with
    | none => .panic
    | some s => (s.readFull c n).bind fun x => (k x.1).alone c (ss.set i x.2)
  | .seek i chunk chunkOffset k, ss =>
    match ss[i]? with
    | none => .panic
    | some s => (s.seek c chunk chunkOffset).bind fun x => k.alone c (ss.set i x)
  | .finished i k, ss =>
    match ss[i]? with
    | none => .panic
    | some s => (k s.finished).alone c ss

/-- The calls on file handles it makes, if its streams are these. -/
def Client.prog {α : Type} (c : Codec) (rooms : List Nat) : Client α → List HStream → Prog α
  | .done r, _ => .done r
  | .readByte i k, ss =>
    match ss[i]? with
    | none => .done .panic
    | some s => (s.readByte c rooms).bind fun x => (k x.1).prog c rooms (ss.set i x.2)
  | .readFull i n k, ss =>
    match ss[i]? with
    | none => .done .panic
    | some s => (s.readFull c rooms n).bind fun x => (k x.1).prog c rooms (ss.set i x.2)
  | .seek i chunk chunkOffset k, ss =>
    match ss[i]? with
    | none => .done .panic
    | some s => (s.seek c rooms chunk chunkOffset).bind fun x => k.prog c rooms (ss.set i x)
  | .finished i k, ss =>
    match ss[i]? with
    | none => .done .panic
    | some s => (k s.finished).prog c rooms ss

/-- The same outcome, but for which error it is. -/
def SameOutcome {α : Type} : Res α → Res α → Prop
  | .ok a, .ok b => a = b
  | .err _, .err _ => True
  | .panic, .panic => True
  | .hang, .hang => True
  | _, _ => False

/-- Decoders are such clients. -/
def Dec.client {α β : Type} (i : Nat) : Dec α → (α → Client β) → Client β
  | .ret a, k => k a
  | .fail e, _ => .done (.err e)
  | .crash, _ => .done .panic
  | .readByte f, k => .readByte i fun b => (f b).client i k
  | .readFull n f, k => .readFull i n fun bs => (f bs).client i k

/-- A stream a goroutine opens: how it is compressed, where it is, and how the operating system will split its reads. -/
structure StreamSpec where
  quotas : List Nat
  kind : CompKind
  chunkSize : Nat
  start : Nat
  length : Nat

/-- Streams are opened one after the other, each on a clone of the file `f`. -/
def openStreams (hs : Handles) (f : OsFile) : List StreamSpec → Handles × List HStream
  | [] => (hs, [])
  | x :: xs => ((openStreams (openStream hs f x.quotas x.kind x.chunkSize x.start x.length).1 f xs).1,
      (openStream hs f x.quotas x.kind x.chunkSize x.start x.length).2 :: (openStreams (openStream hs f x.quotas x.kind x.chunkSize x.start x.length).1 f xs).2)

/-- Those of several goroutines. -/
def openAll (hs : Handles) (f : OsFile) : List (List StreamSpec) → Handles × List (List HStream)
  | [] => (hs, [])
  | g :: gs => ((openAll (openStreams hs f g).1 f gs).1, (openStreams hs f g).2 :: (openAll (openStreams hs f g).1 f gs).2)

/-- The goroutines, before the first call. -/
def startAll {α : Type} (c : Codec) (rooms : List Nat) (hs : Handles) (f : OsFile) (gs : List (Client α × List StreamSpec)) : List (Prog α) × Handles :=
  ((gs.zip (openAll hs f (gs.map (·.2))).2).map fun x => x.1.1.prog c rooms x.2, (openAll hs f (gs.map (·.2))).1)

end Goorc
