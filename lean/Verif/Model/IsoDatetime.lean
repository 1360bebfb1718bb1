import Verif.Py.Regex
import Verif.Py.Unicode
import Verif.Py.Calendar
/-!
# `jsoned/iso_datetime.py`

Matching is modelled by `Verif.Re`; the patterns begin with `^`, so `findall(value)[0]` is what `match(value)` found.
Under `re.I` a letter of these patterns stands for its lower and upper case forms (for `s` also for `ſ`).
-/

namespace Verif.Iso
open Verif Re

/-- Characters from `a` to `b` (a class `[a-b]` of the patterns, iso_datetime.py 4-12). -/
def rng (a b : Char) : Re := cls fun c => a ≤ c && c ≤ b

/-- `ISO_8601_DATE_REGEX` without the end (iso_datetime.py 5, 8) -/
def dateRe (u : UDB) : Re :=
  seqs [grp 1 (rep (cls u.isDigit) 4), opt (chr '-'), grp 2 (seq (rng '0' '1') (cls u.isDigit)), opt (chr '-'),
    grp 3 (seq (rng '0' '3') (cls u.isDigit))]

/-- `[0-2]\d:?[0-5]\d:?[0-5]\d|23:59:60|235960` (iso_datetime.py 5, 10) -/
def clockRe (u : UDB) : Re :=
  alts [seqs [rng '0' '2', cls u.isDigit, opt (chr ':'), rng '0' '5', cls u.isDigit, opt (chr ':'), rng '0' '5',
    cls u.isDigit], lit c!"23:59:60", lit c!"235960"]

/-- `(\.\d+)?(z|[+-]\d{2}:\d{2})?` with the groups 5 and 6 (iso_datetime.py 5, 10) -/
def tailRe (u : UDB) : Re :=
  seqs [opt (grp 5 (seq (chr '.') (plus (cls u.isDigit)))),
    opt (grp 6 (alt (cls fun c => c == 'z' || c == 'Z') (seqs [cls fun c => c == '+' || c == '-', cls u.isDigit,
      cls u.isDigit, chr ':', cls u.isDigit, cls u.isDigit])))]

/-- `ISO_8601_DATETIME_REGEX` (iso_datetime.py 4-7) -/
def datetimeRe (u : UDB) : Re :=
  seqs [dateRe u, opt (cls fun c => c == 't' || c == 'T' || u.space c), grp 4 (clockRe u), tailRe u, eol]

/-- `ISO_8601_TIME_REGEX` (iso_datetime.py 9-12), its named groups numbered 4, 5, 6 -/
def timeRe (u : UDB) : Re := seqs [grp 4 (clockRe u), tailRe u, eol]

/-- `list(map("".join, zip(*[iter(s)] * 2)))` (iso_datetime.py 30 and 97) -/
def pairs : Str → List Str
  | a :: b :: r => [a, b] :: pairs r
  | _ => []

/-- The two ways to cut the time (iso_datetime.py 27-30, 94-97). -/
def cut (s : Str) : List Str := if ':' ∈ s then strSplit ':' s else pairs s

/-- `xs[i]` (iso_datetime.py 45-47 and 116-118) -/
def nth (xs : List Str) (i : Nat) : Res Str :=
  match xs[i]? with
  | some x => .ok x
  | none => .err .indexError

/-- The offset (iso_datetime.py 32-39, 106-113); a group that took no part is empty or `None`. -/
def zone (u : UDB) (z : Option Str) : Res (Option Int) :=
  match z.getD [] with
  | [] => .ok none
  | c :: r =>
    if (c = 'z' ∨ c = 'Z') ∧ r = [] then .ok (some 0)
    else match strSplit ':' r with
      | [h, m] => do
        let h ← u.intText h
        let m ← u.intText m
        let t ← mkZone (if c = '+' then (h : Int) * 60 + m else -((h : Int) * 60 + m))
        .ok (some t)
      | _ => .err .valueError

/-- `parse_iso_date` (iso_datetime.py 52-57) -/
def parseDate (u : UDB) (s : Str) : Res Date :=
  match pyMatch (seq (dateRe u) eol) s with
  | none => .err .valueError
  | some st => do
    let y ← u.intText ((group st 1).getD [])
    let m ← u.intText ((group st 2).getD [])
    let d ← u.intText ((group st 3).getD [])
    mkDate y m d

/-- `parse_iso_datetime` (iso_datetime.py 20-49) -/
def parseDatetime (u : UDB) (s : Str) : Res (Date × Clock × Option Int) :=
  match pyMatch (datetimeRe u) s with
  | none => .err .valueError
  | some st => do
    let parts := cut ((group st 4).getD [])
    let off ← zone u (group st 6)
    let y ← u.intText ((group st 1).getD [])
    let m ← u.intText ((group st 2).getD [])
    let d ← u.intText ((group st 3).getD [])
    let h ← u.intText (← nth parts 0)
    let mi ← u.intText (← nth parts 1)
    let sec ← u.intText (← nth parts 2)
    let date ← mkDate y m d
    let clock ← mkClock h mi sec 0
    .ok (date, clock, off)

/-- `iso_datetime.py:99-103`: the microseconds argument, from the fraction group (with its point) or 0. -/
def micros (u : UDB) : Option Str → Res Nat
  | some f => u.intText (f.drop 1)
  | none => .ok 0

/-- `parse_iso_time` (iso_datetime.py 88-121); when only `match` succeeds, `fullmatch` is `None`. -/
def parseTime (u : UDB) (s : Str) : Res (Clock × Option Int) :=
  match pyMatch (timeRe u) s with
  | none => .err .valueError
  | some _ => match pyFullmatch (timeRe u) s with
    | none => .err .attributeError
    | some st => do
      let parts := cut ((group st 4).getD [])
      let us ← micros u (group st 5)
      let off ← zone u (group st 6)
      let h ← u.intText (← nth parts 0)
      let mi ← u.intText (← nth parts 1)
      let sec ← u.intText (← nth parts 2)
      let clock ← mkClock h mi sec us
      .ok (clock, off)

end Verif.Iso
