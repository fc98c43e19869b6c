/-
The 5-bit width codes of the ORC specification ("Run Length Encoding, version 2": closest fixed bits),
as a literal table: entry `c` is the width of code `c`. For delta blocks code 0 means width 0.
-/
namespace Goorc

/-- Widths of codes 0..31 in short repeat, direct and patched base blocks. -/
def orcWidths : List Nat :=
  [1, 2, 3, 4, 5, 6, 7, 8, 9, 10, 11, 12, 13, 14, 15, 16, 17, 18, 19, 20, 21, 22, 23, 24,
   26, 28, 30, 32, 40, 48, 56, 64]

/-- Widths of codes 0..31 in delta blocks. -/
def orcDeltaWidths : List Nat := 0 :: orcWidths.tail

/-- Numeric zigzag: 0, -1, 1, -2, 2, ... ↦ 0, 1, 2, 3, 4, ... -/
def zigzagSpec (n : Int) : Int := if 0 ≤ n then 2 * n else -2 * n - 1

end Goorc
