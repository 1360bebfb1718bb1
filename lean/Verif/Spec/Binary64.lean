import Verif.Py.Binary64
/-!
# Binary numbers of 53 bits
-/

namespace Verif.Flo
open Verif Num

/-- A number of at most 53 bits whose last bit is at the 1074th place after the point or before. -/
def Double (q : Rat) : Prop := ∃ m e : Int, q = m * pow2 e ∧ m.natAbs < 2 ^ 53 ∧ -1074 ≤ e

/-- `r` is the number of 53 bits closest to `s`; of two equally close ones it is that with the even last bit. -/
structure Nearest (s r : Rat) : Prop where
  double : Double r
  near : ∀ y, Double y → mag (r - s) ≤ mag (y - s)
  even : ∀ y, Double y → y ≠ r → mag (r - s) = mag (y - s) →
    ∃ m e : Int, r = (2 * m : Int) * pow2 e ∧ (y = (2 * m + 1 : Int) * pow2 e ∨ y = (2 * m - 1 : Int) * pow2 e)

end Verif.Flo
