import Verif.Spec.Files
import Verif.Spec.Rows
/-
One column of what is written, and its bytes in a file.
-/
namespace Goorc

/-- Column `j` of batches that are written one after the other, row by row: the value, or that it is null, and nothing at all if the batch has
no vector for this column. -/
def columnWritten (j : Nat) (batches : List Vec) : List Row := (batches.flatMap Vec.tableRows).map fun r => r.filter fun x => x.1 = j

/-- The streams of column `j` in a stripe: as they are listed in the footer of the stripe, with their bytes. -/
def StripeParts.streamsOf (j : Nat) (p : StripeParts) : List (StreamInfo × Bytes) := p.streams.filter fun s => s.1.column = j

/-- How many rows each stripe of a file has, as the footer of the file says. -/
def FileFooter.cuts (ft : FileFooter) : List Nat := ft.stripes.map (·.numberOfRows)

end Goorc
