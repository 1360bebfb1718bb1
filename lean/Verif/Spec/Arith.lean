import Verif.Py.Number
/-!
# Decimal numbers of 28 digits
-/

namespace Verif

/-- A number of at most 28 digits whose last digit is at the 1000026th place after the point or before. -/
def Digits28 (q : Rat) : Prop := ∃ m e : Int, q = m * Num.pow10 e ∧ m.natAbs < 10 ^ 28 ∧ -1000026 ≤ e

/-- `r` is the number of 28 digits closest to `s`; of two equally close ones it is that with the even last digit. -/
structure Rounds (s r : Rat) : Prop where
  digits : Digits28 r
  near : ∀ y, Digits28 y → Num.mag (r - s) ≤ Num.mag (y - s)
  even : ∀ y, Digits28 y → y ≠ r → Num.mag (r - s) = Num.mag (y - s) →
    ∃ m e : Int, r = (2 * m : Int) * Num.pow10 e ∧ (y = (2 * m + 1 : Int) * Num.pow10 e ∨ y = (2 * m - 1 : Int) * Num.pow10 e)

/-- The sums too large for the context: 10^1000000 less half a unit of the 28th digit, or more. -/
def TooLarge (s : Rat) : Prop := (10 ^ 28 - 1 / 2) * Num.pow10 999972 ≤ Num.mag s

end Verif
