import Verif.Spec.Files
/-
A program that stops before `Close` has returned, and what it leaves on the disk.
-/
namespace Goorc

/-- A program that creates a writer and writes batches. -/
def writeBatches (E : Env) (o : FOpts) (schema : Schema) (batches : List Vec) : Res FileWriter :=
  (newWriter E o schema).bind fun w => w.writes E o batches

/-- The program stops when the batches `done` have been written: during the next call, which may be a `Write` or `Close` (or none at
all, when nothing of that call has reached the disk). Any part of what this call adds to the file may have reached the disk. -/
inductive CutShort (E : Env) (o : FOpts) (schema : Schema) (done : List Vec) (disk : Bytes) : Prop
  | inWrite (w w' : FileWriter) (next : Vec) (hw : writeBatches E o schema done = .ok w) (hn : w.write E o next = .ok w')
      (h1 : w.stripe.out <+: disk) (h2 : disk <+: w'.stripe.out)
  | inClose (w : FileWriter) (file : Bytes) (hw : writeBatches E o schema done = .ok w) (hc : w.close E o = .ok file)
      (h1 : w.stripe.out <+: disk) (h2 : disk <+: file)

/-- The bytes of the stripe that `i` describes. -/
def StripeInfo.cut (i : StripeInfo) (file : Bytes) : Bytes := (file.drop i.offset).take (i.indexLength + i.dataLength + i.footerLength)

end Goorc
