import Verif.Model.IsoDatetime
/-!
# Durations (`jsoned/iso_datetime.py` 14-17, 60-85, 124-156)

A `timedelta` is its length in microseconds.  Durations that are not whole seconds are printed with binary
floating point arithmetic; printing is modelled for whole seconds only, where all the `float`s involved are integers
below 2^53 and the arithmetic is exact.  What `timedelta(seconds=float(text))` makes of a text with a fraction is a
parameter.  `Model/Microseconds.lean` fills both gaps, with the `float`s of `Py/Binary64.lean`.
-/

namespace Verif.Iso
open Verif Re

/-- The unit letters under `re.I` (iso_datetime.py 14-17). -/
def isP (c : Char) : Bool := c == 'p' || c == 'P'
/-- `W` under `re.I` (iso_datetime.py 14-17) -/
def isW (c : Char) : Bool := c == 'w' || c == 'W'
/-- `D` under `re.I` (iso_datetime.py 14-17) -/
def isD (c : Char) : Bool := c == 'd' || c == 'D'
/-- `T` under `re.I` (iso_datetime.py 14-17) -/
def isT (c : Char) : Bool := c == 't' || c == 'T'
/-- `H` under `re.I` (iso_datetime.py 14-17) -/
def isH (c : Char) : Bool := c == 'h' || c == 'H'
/-- `M` under `re.I` (iso_datetime.py 14-17) -/
def isM (c : Char) : Bool := c == 'm' || c == 'M'
/-- `S` under `re.I` (iso_datetime.py 14-17) -/
def isS (c : Char) : Bool := c == 's' || c == 'S' || c == 'ſ'

/-- `(?:(?P<name>\d+)L)?` (iso_datetime.py 14-17) -/
def unitRe (u : UDB) (n : Nat) (L : Char → Bool) : Re := opt (seq (grp n (plus (cls u.isDigit))) (cls L))

/-- `(?:(?P<seconds>\d+(?:\.\d+)?)S)?` (iso_datetime.py 14-17) -/
def secRe (u : UDB) : Re :=
  opt (seq (grp 6 (seq (plus (cls u.isDigit)) (opt (seq (chr '.') (plus (cls u.isDigit)))))) (cls isS))

/-- `ISO_8601_TIME_DURATION_REGEX` (iso_datetime.py 14-17); groups: 1 sign, 2 weeks, 3 days, 4 hours, 5 minutes,
6 seconds -/
def durationRe (u : UDB) : Re :=
  seqs [grp 1 (opt (chr '-')), cls isP, look (alt (cls u.isDigit) (seq (cls isT) (cls u.isDigit))), unitRe u 2 isW,
    unitRe u 3 isD, opt (seqs [cls isT, unitRe u 4 isH, unitRe u 5 isM, secRe u]), eol]

/-- `float(text)` seconds in microseconds, as `timedelta` rounds them; `none` if the `float` is infinite.  A text of
digits only whose value is below 2^53 is converted exactly (used at iso_datetime.py 80 and 85). -/
structure Secs (u : UDB) where
  micros : Str → Option Int
  whole : ∀ ds, (∀ c ∈ ds, u.isDigit c = true) → u.natOf ds < 9007199254740992 → micros ds = some (u.natOf ds * 1000000)

/-- `int(group) if group else 0` (iso_datetime.py 74-79) -/
def intOr (u : UDB) : Option Str → Res Nat
  | some s => u.intText s
  | none => .ok 0

/-- `float(group) if group else 0` as microseconds; an infinity makes `timedelta` raise (iso_datetime.py 80-82) -/
def secOr {u : UDB} (F : Secs u) : Option Str → Res Int
  | some s => match F.micros s with
    | some n => .ok n
    | none => .err .overflowError
  | none => .ok 0

/-- `timedelta` refuses more than 999999999 days either way (Python 3.11, datetime.py 731-732). -/
def mkDelta (us : Int) : Res Int :=
  if -999999999 * 86400000000 ≤ us ∧ us < 1000000000 * 86400000000 then .ok us else .err .overflowError

/-- `parse_iso_duration` (iso_datetime.py 60-85) -/
def parseDuration (u : UDB) (F : Secs u) (s : Str) : Res Int :=
  match pyMatch (durationRe u) s with
  | none => .err .valueError
  | some _ => match pyFullmatch (durationRe u) s with
    | none => .err .attributeError
    | some st => do
      let sign : Int := if (group st 1).getD [] = [] then 1 else -1
      let w ← intOr u (group st 2)
      let d ← intOr u (group st 3)
      let h ← intOr u (group st 4)
      let m ← intOr u (group st 5)
      let us ← secOr F (group st 6)
      mkDelta (sign * w * 604800000000 + sign * d * 86400000000 + sign * h * 3600000000 + sign * m * 60000000 + us * sign)

/-- `f"{n}L"` if `n` is not 0 (iso_datetime.py 138-148) -/
def unitText (n : Nat) (l : Char) : Str := if n = 0 then [] else natStr n ++ [l]

/-- `timedelta_to_iso_duration(timedelta(seconds=t))` (iso_datetime.py 124-156) -/
def durationText (t : Int) : Str :=
  let sign : Str := if t < 0 then ['-'] else []
  let seconds := t.natAbs
  let minutes := seconds / 60
  let seconds := seconds % 60
  let hours := minutes / 60
  let minutes := minutes % 60
  let days := hours / 24
  let hours := hours % 24
  let weeks := days / 7
  let days := days % 7
  let date := unitText weeks 'W' ++ unitText days 'D'
  let time := unitText hours 'H' ++ (unitText minutes 'M' ++ unitText seconds 'S')
  sign ++ ['P'] ++ date ++ (if time = [] then [] else 'T' :: time)

end Verif.Iso
