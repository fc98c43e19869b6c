import Verif.Model.Disk
import Verif.Spec.Crash
/-
Files that fail, for Verif/Props/Disk.lean.
-/
namespace Goorc

/-- None of the file's `Write`s fails. -/
def Disk.Sound (k : Disk) : Prop := ∀ a ∈ k.answers, a = none

/-- A new file. -/
def Disk.new (answers : List (Option Nat)) : Disk := ⟨answers, [], 0⟩

end Goorc
