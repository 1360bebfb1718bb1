import Verif.Py.Basic
/-!
# The range of `Decimal(text)`

`Decimal(text)` of CPython (`PyDecType_FromCStringExact` in Modules/_decimal/_decimal.c) reads a numeral with `mpd_qset_string`
(Modules/_decimal/libmpdec/io.c) in the largest context, on machines with words of 64 bits, and raises `InvalidOperation` if anything
would have to be rounded or clamped.
-/

namespace Verif.DecimalText
open Verif

/-- `MPD_MAX_PREC` -/
def maxPrec : Nat := 999999999999999999

/-- `MPD_MAX_EMAX` -/
def maxEmax : Int := 999999999999999999

/-- `MPD_MIN_ETINY` -/
def minEtiny : Int := -1999999999999999997

/-- The digits of the coefficient (`scan_dpoint_exp`): zeros before others do not count, the last digit does. -/
def coeffLen (ds : Str) : Nat := max 1 (ds.dropWhile fun c => c == '0').length

/-- The numeral with digits `ip` before and `fr` after the point and the exponent `e` is read exactly. -/
def fits (ip fr : Str) (e : Int) : Bool :=
  decide (fr.length ≤ maxPrec) && decide (coeffLen (ip ++ fr) ≤ maxPrec) && decide (minEtiny ≤ e - fr.length) &&
    decide (e - fr.length + (coeffLen (ip ++ fr) - 1 : Nat) ≤ maxEmax)

end Verif.DecimalText
