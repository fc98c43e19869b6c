import Verif.Spec.Tables
import Verif.Spec.WriteLocal
/-
A program that copies a file with the library, and the rows of the stripes of a file.
-/
namespace Goorc

/-- Rows, cut into pieces of the given numbers of rows. -/
def cutRows {α : Type} : List Nat → List α → List (List α)
  | [], _ => []
  | n :: ns, rows => rows.take n :: cutRows ns (rows.drop n)

/-- The loop of a program that copies a table, at most `k` turns of it: what `Next` delivers is handed to `Write`, with the same vector all the time, until
`Next` reports the end. -/
def copyBatches {χ : Type} (X : RdOps χ) (fuel : Nat) (E : Env) (o : FOpts) : Nat → BatchReader χ → Vec → FileWriter → Res (FileWriter × Bool)
  | 0, _, _, w => .ok (w, false)
  | k + 1, br, vec, w => do
    let (stop, vec, br) ← br.next X fuel vec
    let w ← w.write E o vec
    if stop then pure (w, true) else copyBatches X fuel E o k br vec w

/-- The program: it opens the file, creates a batch reader and a vector, and a writer with the options `o` for the same schema; it copies the rows, and closes the new
file. The new file, and whether the end of the old one was reported. -/
def copyFile (E : Env) (fuel : Nat) (s : Schema) (bo : BatchOption) (o : FOpts) (k : Nat) (file : Bytes) : Res (Bytes × Bool) := do
  let r ← newReader E file
  let br ← r.createBatchReader E bo
  let v ← createVector s bo
  let w ← newWriter E o s
  let (w, stop) ← copyBatches (rdOps E.c fuel r.schemas.length) (fuel + 1) E o k br v w
  let f ← w.close E o
  pure (f, stop)

end Goorc
