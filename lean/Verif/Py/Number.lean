import Verif.Py.Basic
/-!
# Numbers

Python's `int`, `float` and `Decimal` are compared by exact mathematical value.  A `Decimal` is represented by that
value (its exponent and sign of zero are not modelled).  Comparisons are exact.  Sums and remainders are rounded by the default context of
Python 3.11: 28 digits, half to even, exponents from -999999 to 999999; which value comes out depends only on the exact value.
A `float` carries two exact values: its own, and the one of the shortest decimal text `f"{x}"` prints for it, because
`JsonNumber` goes through that text.  Signalling NaNs are not modelled.
-/

namespace Verif

/-- A number by exact value. -/
inductive Num where
  | fin (q : Rat)
  | inf (neg : Bool)
  | nan
deriving DecidableEq, Repr

/-- A `float`: exact value and value of its printed form. -/
inductive Flt where
  | fin (exact shown : Rat)
  | inf (neg : Bool)
  | nan
deriving DecidableEq, Repr

namespace Flt

/-- The float's own value. -/
def exactNum : Flt → Num
  | fin q _ => .fin q
  | inf s => .inf s
  | nan => .nan

/-- `Decimal(f"{x}")` -/
def shownNum : Flt → Num
  | fin _ q => .fin q
  | inf s => .inf s
  | nan => .nan

end Flt

namespace Num

/-- `a == b` on Python numbers: NaN equals nothing. -/
def eq : Num → Num → Bool
  | fin q, fin r => q = r
  | inf s, inf t => s = t
  | _, _ => false

/-- `a < b` where one side is a `Decimal`: NaN raises `decimal.InvalidOperation`. -/
def lt : Num → Num → Res Bool
  | nan, _ => .err .invalidOperation
  | _, nan => .err .invalidOperation
  | fin q, fin r => .ok (decide (q < r))
  | fin _, inf t => .ok (!t)
  | inf s, fin _ => .ok s
  | inf s, inf t => .ok (s && !t)

/-- `a <= b` where one side is a `Decimal`. -/
def le : Num → Num → Res Bool
  | nan, _ => .err .invalidOperation
  | _, nan => .err .invalidOperation
  | fin q, fin r => .ok (decide (q ≤ r))
  | fin _, inf t => .ok (!t)
  | inf s, fin _ => .ok s
  | inf s, inf t => .ok (s || !t)

/-- `int(x)` on a `Decimal`: truncation towards zero. -/
def toInt : Num → Res Int
  | fin q => .ok (q.num.tdiv q.den)
  | inf _ => .err .overflowError
  | nan => .err .valueError

/-- The power of ten with an integer exponent. -/
@[irreducible] def pow10 (e : Int) : Rat := 10 ^ e

/-- The absolute value. -/
def mag (q : Rat) : Rat := if q < 0 then -q else q

/-- The number of decimal digits. -/
def numDigits (n : Nat) : Nat := (natStr n).length

/-- The exponent of the first digit of a number that is not 0 (`Decimal.adjusted`). -/
def adjusted (q : Rat) : Int :=
  let a : Int := (numDigits q.num.natAbs : Int) - numDigits q.den
  if pow10 a ≤ mag q then a else a - 1

/-- The exponent of the last digit that is kept (`exp_min` in `_pydecimal.py` 1702-1714): 28 digits, but none after the 1000026th after
the point. -/
def quantum (q : Rat) : Int := max (-1000026) (adjusted q - 27)

/-- Rounding to an integer, halves to the even one (`ROUND_HALF_EVEN`). -/
def halfEven (q : Rat) : Int :=
  let f := q.floor
  if q - f < 1 / 2 then f else if 1 / 2 < q - f then f + 1 else if f % 2 = 0 then f else f + 1

/-- The result of an operation with the exact value `q`, in the default context (`_pydecimal.py` 1671-1760, `Decimal._fix`): `Overflow` is
raised, an underflow is not. -/
def fix (q : Rat) : Res Rat :=
  if q = 0 then .ok 0
  else
    let e := quantum q
    let y := halfEven (q / pow10 e) * pow10 e
    if pow10 1000000 ≤ mag y then .err .decimalOverflow else .ok y

/-- `v % m` on `Decimal`s under the default context (precision 28, traps for invalid operations on).
The result has the sign of `v`; `InvalidOperation` for a zero divisor, for an infinite dividend and when the integer
quotient does not fit in 28 digits; a finite number modulo an infinity is itself. -/
def rem : Num → Num → Res Num
  | nan, _ => .ok nan
  | _, nan => .ok nan
  | inf _, _ => .err .invalidOperation
  | fin q, inf _ => do .ok (fin (← fix q))
  | fin q, fin m =>
    if m = 0 then .err .invalidOperation
    else
      let k := (q / m).num.tdiv (q / m).den
      if k.natAbs ≥ 10 ^ 28 then .err .invalidOperation
      else do .ok (fin (← fix (q - m * k)))

end Num

end Verif
