import Verif.Spec.Robust
import Verif.Model.FileReader
/-
What it takes to open a file that may be anything: the tail the specification of ORC asks for, and what can be said against it.
-/
namespace Goorc

/-- The file ends with `footer`, then the postscript `ps`, then one byte with the length of the postscript. -/
def EndsIn (file footer ps : Bytes) : Prop :=
  ps.length < 256 ∧ ∃ before, file = before ++ footer ++ ps ++ [BitVec.ofNat 8 ps.length]

/-- What the file has for a footer once it is decompressed. -/
def Inflates (c : Codec) (kind : CompKind) (stored flat : Bytes) : Prop :=
  (kind = .none ∧ flat = stored) ∨ (kind = .zlib ∧ decompressChunks c .zlib stored = .ok flat)

/-- The types can be made into descriptions: subtypes exist, fields of structs have names. -/
def TypesSound (types : List PbType) : Prop :=
  ∀ t ∈ types, (∀ i ∈ t.subtypes, i < types.length) ∧ (t.kind = .struct → t.subtypes.length ≤ t.names.length)

instance (types : List PbType) : Decidable (TypesSound types) := by unfold TypesSound; infer_instance

/-- The bytes have a tail that can be read: a postscript, and a footer that is within the last 16384 bytes; and the file is as long as the postscript says. -/
structure TailReads (E : Env) (file : Bytes) (ps : PostScript) (ft : FileFooter) (footer psBytes flat : Bytes) : Prop where
  long : 4 ≤ file.length
  ends : EndsIn file footer psBytes
  postScript : E.P.readPostScript psBytes = some ps
  footerLength : footer.length = ps.footerLength
  within : footer.length + psBytes.length + 1 ≤ 16384
  whole : ps.metadataLength + footer.length + psBytes.length + 1 ≤ file.length
  inflates : Inflates E.c ps.compression footer flat
  footer : E.P.readFileFooter flat = some ft

/-- What `newReader` makes of type `i`. -/
def typeAt (ft : FileFooter) (i : Nat) (t : PbType) : RdType :=
  ⟨⟨i, t.kind, if t.kind = .struct then t.names.take t.subtypes.length else List.replicate t.subtypes.length "", t.subtypes⟩,
    ((ft.statistics[i]?).map (·.hasNull)).getD false⟩

/-- A cause for a panic of `newReader`. -/
inductive OpenPanics (E : Env) (file : Bytes) : Prop
  /-- There is nothing at all. -/
  | empty (h : file = [])
  /-- The last byte says that the postscript starts before the file does. -/
  | postScript (h : 4 ≤ file.length) (last : Byte) (hl : file.getLast? = some last) (hp : file.length ≤ last.toNat)
  /-- The footer starts more than 16384 bytes before the end, although the file is long enough. -/
  | footer (h : 4 ≤ file.length) (psBytes : Bytes) (ps : PostScript) (he : EndsIn file [] psBytes) (hp : E.P.readPostScript psBytes = some ps)
      (hw : ps.metadataLength + ps.footerLength + psBytes.length + 1 ≤ file.length) (hf : 16384 < ps.footerLength + psBytes.length + 1)
  /-- The types refer to types or names that are not there, or there are more statistics than types. -/
  | types (ps : PostScript) (ft : FileFooter) (footer psBytes flat : Bytes) (h : TailReads E file ps ft footer psBytes flat)
      (hn : ft.numberOfRows ≠ 0) (ht : ¬ TypesSound ft.types ∨ ft.types.length < ft.statistics.length)

end Goorc
