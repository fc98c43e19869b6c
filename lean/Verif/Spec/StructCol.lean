import Verif.Spec.RowGroups
import Verif.Spec.Tables
/-
Struct columns: what a client does with their writers.
-/
namespace Goorc

/-- A client writing several rows to a struct column. -/
def StructWriter.writes (c : Codec) (o : COpts) : StructWriter → List Value → Res StructWriter
  | w, [] => .ok w
  | w, v :: vs => do
    let w ← w.write c o v
    StructWriter.writes c o w vs

/-- The flags of rows: true for those that are not null. -/
def flagsOf (rows : List Value) : List Bool := rows.map fun v => !v.null

/-- The stripes of a struct column: for each the rows are written, the column is flushed and written out, and before the next
one it is reset. The bytes of every stripe. -/
def StructWriter.stripes (c : Codec) (o : COpts) : StructWriter → List (List Value) → Res (List Bytes)
  | _, [] => .ok []
  | w, rows :: rest => do
    let w ← StructWriter.writes c o w rows
    let w ← w.flush c o
    let (w, body) ← w.writeOut o
    match rest with
    | [] => pure [body]
    | r :: rest => do
      let w ← w.reset o
      let bodies ← StructWriter.stripes c o w (r :: rest)
      pure (body :: bodies)

/-- Wherever the bytes are in a file, a present stream opened there has these flags. -/
def FlagsIn (c : Codec) (o : WOpts) (body : Bytes) (flags : List Bool) : Prop :=
  ∀ pre post, ∃ r', Yields (BoolReader.next c) (newBoolReader (streamAt o pre body post)) flags r'

end Goorc
