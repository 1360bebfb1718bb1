import Verif.Py.Basic
/-!
# Decimals in range
-/

namespace Verif

/-- A numeral with digits `i` before and `f` after the point and the exponent `x` is in the range of `Decimal` (64 bits): there are fewer
than 10^18 digits after the point; the place of the last digit is not below -1999999999999999997; every digit that counts (it is not 0, or
the last one) has fewer than 10^18 digits after it and its place is not above 999999999999999999. -/
def DecimalRange (i f : Str) (x : Int) : Prop :=
  f.length < 10 ^ 18 ∧ -1999999999999999997 ≤ x - f.length ∧
    ∀ z c r, i ++ f = z ++ c :: r → (c ≠ '0' ∨ r = []) → r.length + 1 < 10 ^ 18 ∧ x - f.length + r.length ≤ 999999999999999999

end Verif
