import Verif.Py.Number
/-!
# Numbers of Python's type `float`

CPython's `float` is the binary64 of IEEE 754: numbers of 53 bits.  A finite `float` is represented by its value, the sign of zero is left
out.  The result of an operation is the `float` closest to the exact result, of two equally close ones the one with the even last bit.
Conversions from decimal texts and divisions of integers are rounded in the same way, and `repr` writes as few digits as tell the `float` from
all others.
-/

namespace Verif.Flo
open Verif Num

/-- The power of two with an integer exponent. -/
@[irreducible] def pow2 (e : Int) : Rat := 2 ^ e

/-- The number of bits. -/
def numBits (n : Nat) : Nat := (Nat.toDigits 2 n).length

/-- The exponent of the first bit of a number that is not 0. -/
def expo (q : Rat) : Int :=
  let a : Int := (numBits q.num.natAbs : Int) - numBits q.den
  if pow2 a ≤ mag q then a else a - 1

/-- The exponent of the last bit that is kept: 53 bits, but none after the 1074th after the point. -/
def lastBit (q : Rat) : Int := max (-1074) (expo q - 52)

/-- The closest `float`, whether it is in range or not. -/
def fl (q : Rat) : Rat := if q = 0 then 0 else halfEven (q / pow2 (lastBit q)) * pow2 (lastBit q)

/-- Numbers that are rounded to infinity. -/
def tooLarge (q : Rat) : Bool := pow2 1024 ≤ mag (fl q)

/-- `divmod(x, w)` for `float`s `0 <= x` and `0 < w` (CPython 3.11, `_float_div_mod` in Objects/floatobject.c): `fmod` is exact, the quotient
is computed from it with rounding and brought to the nearest integer. -/
def divmod (x w : Rat) : Rat × Rat :=
  let mod := x - w * (x / w).floor
  let div := fl (fl (x - mod) / w)
  let q := div.floor
  (if (1 : Rat) / 2 < fl (div - q) then fl (q + 1) else q, mod)

/-- `round(x, 6)` (`double_round` in Objects/floatobject.c): the exact value is rounded to 6 decimal places, halves to even, and the result
read as a `float`. -/
def round6 (x : Rat) : Rat := fl (halfEven (x * 1000000) / 1000000)

/-- The closest decimal number of `k` digits with the first digit at the place `e`, as an integer for the last place.  If it is another
`float` than `x`, its neighbour on the other side of `x` is tried: below a power of two `float`s are closer together than above. -/
def cand (x : Rat) (e : Int) (k : Nat) : Option Nat :=
  let p := e - k + 1
  let s := x / pow10 p
  let a := halfEven s
  let b := if a = s.floor then a + 1 else a - 1
  if fl (a * pow10 p) = x then some a.toNat else if fl (b * pow10 p) = x then some b.toNat else none

/-- The shortest decimal number that is read as `x`, `0 < x`: `n * 10^p`.  It has 17 digits at most. -/
def shortest (x : Rat) : Nat → Nat → Nat × Int
  | 0, k => ((halfEven (x / pow10 (adjusted x - k + 1))).toNat, adjusted x - k + 1)
  | more + 1, k => match cand x (adjusted x) k with
    | some n => (n, adjusted x - k + 1)
    | none => shortest x more (k + 1)

/-- Without the zeros at the end. -/
def stripZeros (ds : Str) : Str := (ds.reverse.dropWhile (· == '0')).reverse

/-- `repr(x)` for a `float` `0 < x` (`format_float_short` in Python/pystrtod.c with the format `r`): the digits with a point, with an
exponent if there are more than three zeros between point and first digit or more than 16 digits before the point. -/
def reprPos (x : Rat) : Str :=
  let (n, p) := shortest x 16 1
  let ds := stripZeros (natStr n)
  let point : Int := (natStr n).length + p
  if -4 < point ∧ point ≤ 16 then
    if point ≤ 0 then '0' :: '.' :: (List.replicate (-point).toNat '0' ++ ds)
    else if (ds.length : Int) ≤ point then ds ++ List.replicate (point.toNat - ds.length) '0' ++ c!".0"
    else ds.take point.toNat ++ '.' :: ds.drop point.toNat
  else
    let e := point - 1
    let es := natStr e.natAbs
    ds.take 1 ++ (if ds.length = 1 then [] else '.' :: ds.drop 1) ++ 'e' :: (if e < 0 then '-' else '+') ::
      (List.replicate (2 - es.length) '0' ++ es)

end Verif.Flo
