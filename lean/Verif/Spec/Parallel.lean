import Verif.Spec.Schedule
import Verif.Spec.Tour
/-
C97: the calls on a batch reader as programs that read from streams. A batch reader has streams, in a certain order; the program may not look into them.
-/
namespace Goorc

/-- Which streams a reader has, and the same reader with other streams. `ok` says which readers are meant. -/
structure Wires (σ : Type) where
  get : σ → List StreamReader
  put : σ → List StreamReader → σ
  ok : σ → Prop

namespace Wires

variable {σ τ α : Type}

/-- The number of streams. -/
def size (H : Wires σ) (s : σ) : Nat := (H.get s).length

/-- A stream. -/
def stream : Wires StreamReader := ⟨fun s => [s], fun s l => l.headD s, fun _ => True⟩

/-- Nothing. -/
def void : Wires Unit := ⟨fun _ => [], fun s _ => s, fun _ => True⟩

/-- A value, and a reader. -/
def val (H : Wires σ) : Wires (α × σ) := ⟨fun p => H.get p.2, fun p l => (p.1, H.put p.2 l), fun p => H.ok p.2⟩

/-- Two readers. -/
def pair (H : Wires σ) (K : Wires τ) : Wires (σ × τ) :=
  ⟨fun p => H.get p.1 ++ K.get p.2, fun p l => (H.put p.1 (l.take (H.size p.1)), K.put p.2 (l.drop (H.size p.1))), fun p => H.ok p.1 ∧ K.ok p.2⟩

/-- A reader that may be nil. -/
def opt (H : Wires σ) : Wires (Option σ) :=
  ⟨fun p => match p with | none => [] | some a => H.get a, fun p l => match p with | none => none | some a => some (H.put a l),
    fun p => match p with | none => True | some a => H.ok a⟩

/-- The same under another name. -/
def via (H : Wires σ) (out : τ → σ) (back : τ → σ → τ) : Wires τ := ⟨fun t => H.get (out t), fun t l => back t (H.put (out t) l), fun t => H.ok (out t)⟩

/-- Other streams for several readers. -/
def putAll (H : Wires σ) : List σ → List StreamReader → List σ
  | [], _ => []
  | s :: ss, l => H.put s (l.take (H.size s)) :: putAll H ss (l.drop (H.size s))

/-- Several readers. -/
def list (H : Wires σ) : Wires (List σ) := ⟨fun ss => ss.flatMap H.get, H.putAll, fun ss => ∀ s ∈ ss, H.ok s⟩

def block : Wires (BlockReader α) := stream.via (·.stream) fun r s => { r with stream := s }
def bool : Wires BoolReader := block.via (·.reader) fun r s => { r with reader := s }
def int : Wires IntReader := block.via (·.block) fun r s => { r with block := s }
def float : Wires FloatReader := stream.via (·.stream) fun r s => { r with stream := s }
def text : Wires TextReader := (stream.pair int).via (fun r => (r.data, r.length)) fun _ p => ⟨p.1, p.2⟩
def ts : Wires TsReader := (int.pair int).via (fun r => (r.data, r.secondary)) fun _ p => ⟨p.1, p.2⟩
def dec : Wires DecReader := (stream.pair int).via (fun r => (r.data, r.secondary)) fun _ p => ⟨p.1, p.2⟩
def dict : Wires DictReader := (int.pair (stream.pair int)).via (fun r => (r.data, r.dict, r.length)) fun r p => ⟨p.1, p.2.1, p.2.2, r.strings, r.loaded⟩

/-- The reader of a column: present stream, and data streams. -/
def col (H : Wires σ) : Wires (ColReader σ) := (bool.opt.pair H).via (fun r => (r.present, r.data)) fun r p => { r with present := p.1, data := p.2 }

end Wires

/-- The data streams of the leaves. -/
def LeafTag.wires : (t : LeafTag) → Wires t.ρ
  | byte => .block
  | bool => .bool
  | int _ => .int
  | float _ => .float
  | string => .text
  | binary => .text
  | date => .block
  | timestamp => .ts
  | decimal => .dec

/-- The streams of a reader, and then those of its children. With `skips` there are no binary columns. -/
def RdNode.wires (skips : Prop) {χ : Type} (H : Wires χ) : Wires (RdNode χ) where
  get
    | .leaf t r => t.wires.col.get r
    | .dict r => Wires.dict.col.get r
    | .struct _ p _ cs => (Wires.bool.opt.pair H.list).get (p, cs)
    | .list _ p l _ x => (Wires.bool.opt.pair (Wires.int.opt.pair H.opt)).get (p, l, x)
    | .map _ p l _ x y => (Wires.bool.opt.pair (Wires.int.opt.pair (H.opt.pair H.opt))).get (p, l, x, y)
    | .bare _ r => Wires.void.col.get r
  put s l := match s with
    | .leaf t r => .leaf t (t.wires.col.put r l)
    | .dict r => .dict (Wires.dict.col.put r l)
    | .struct k p i cs => .struct k ((Wires.bool.opt.pair H.list).put (p, cs) l).1 i ((Wires.bool.opt.pair H.list).put (p, cs) l).2
    | .list k p n i x =>
      let q := (Wires.bool.opt.pair (Wires.int.opt.pair H.opt)).put (p, n, x) l
      .list k q.1 q.2.1 i q.2.2
    | .map k p n i x y =>
      let q := (Wires.bool.opt.pair (Wires.int.opt.pair (H.opt.pair H.opt))).put (p, n, x, y) l
      .map k q.1 q.2.1 i q.2.2.1 q.2.2.2
    | .bare t r => .bare t (Wires.void.col.put r l)
  ok
    | .leaf t _ => skips → t ≠ .binary
    | .dict _ => True
    | .struct _ _ _ cs => H.list.ok cs
    | .list _ _ _ _ x => H.opt.ok x
    | .map _ _ _ _ x y => H.opt.ok x ∧ H.opt.ok y
    | .bare _ _ => True

/-- The streams of a tree of readers. -/
def Rd.wires (skips : Prop) : (n : Nat) → Wires (Rd n)
  | 0 => ⟨fun _ => [], fun s _ => s, fun _ => True⟩
  | n + 1 => RdNode.wires skips (Rd.wires skips n)

/-- The streams of a stripe. -/
def StripeReader.wires {χ : Type} (H : Wires χ) : Wires (StripeReader χ) := H.opt.via (·.reader) fun s r => { s with reader := r }

/-- The streams of a batch reader. -/
def BatchReader.wires {χ : Type} (H : Wires χ) : Wires (BatchReader χ) := (StripeReader.wires H).list.via (·.stripes) fun b ss => { b with stripes := ss }

/-- The streams of a batch reader, as they are. -/
def BatchReader.streams {n : Nat} (br : BatchReader (Rd n)) : List StreamReader := (BatchReader.wires (Rd.wires False n)).get br

/-- The same batch reader with other streams. -/
def BatchReader.withStreams {n : Nat} (br : BatchReader (Rd n)) (ss : List StreamReader) : BatchReader (Rd n) := (BatchReader.wires (Rd.wires False n)).put br ss

/-- A goroutine that has a batch reader: calls of `Next` and `Seek`, which may depend on what was read. An error ends it. -/
inductive Caller (α : Type) where
  | done (r : Res α)
  | next (v : Vec) (k : Bool → Vec → Caller α)
  | seek (row : Nat) (k : Caller α)

/-- What it gets. -/
def Caller.run {α χ : Type} (X : RdOps χ) (fuel : Nat) : Caller α → BatchReader χ → Res α
  | .done r, _ => r
  | .next v k, br => (br.next X fuel v).bind fun x => (k x.1 x.2.1).run X fuel x.2.2
  | .seek row k, br => (br.seek X row).bind fun br => k.run X fuel br

/-- It calls `Next` only. -/
def Caller.NextOnly {α : Type} : Caller α → Prop
  | .done _ => True
  | .next _ k => ∀ b v, (k b v).NextOnly
  | .seek _ _ => False

/-- The program `cl` does what the goroutine `k` does with the batch reader `br`, whatever is in its streams. -/
def Client.Acts {α : Type} {n : Nat} (c : Codec) (fuel : Nat) (cl : Client α) (k : Caller α) (br : BatchReader (Rd n)) : Prop :=
  ∀ ss : List StreamReader, ss.length = br.streams.length → cl.alone c ss = k.run (rdOps c fuel n) fuel (br.withStreams ss)

/-- The program `g.1`, with streams opened as `g.2` says on handles of its own, is the goroutine `k` with the batch reader `br` of a file with these bytes. -/
structure Embodies {α : Type} {n : Nat} (c : Codec) (fuel : Nat) (file : Bytes) (k : Caller α × BatchReader (Rd n)) (g : Client α × List StreamSpec) : Prop where
  acts : g.1.Acts c fuel k.1 k.2
  streams : k.2.streams = g.2.map fun x => newStreamReader x.kind x.chunkSize x.start x.length file

end Goorc
