import Verif.Model.Schema
import Verif.Py.Unicode
import Verif.Py.DecimalText
/-!
# The library functions behind the formats `uuid`, `byte` and `decimal`

`UUID(text)`, `base64.b64decode(text)` and `Decimal(text)` of Python 3.11, of which only success or failure is kept.
-/

namespace Verif.Formats
open Verif

/-! ## `UUID` -/

/-- The loop of `removeAll`; the number of characters still to be dropped (not a function of the code). -/
def removeAux (pat : Str) : Nat → Str → Str
  | _, [] => []
  | n + 1, _ :: r => removeAux pat n r
  | 0, x :: r => if pat.isPrefixOf (x :: r) then removeAux pat (pat.length - 1) r else x :: removeAux pat 0 r

/-- `s.replace(pat, "")`, `pat` not empty (used by `UUID`, validators/format_validators.py 230-235). -/
def removeAll (pat s : Str) : Str := removeAux pat 0 s

/-- `s.strip("{}")` (used by `UUID`, validators/format_validators.py 230-235) -/
def stripBraces (s : Str) : Str :=
  ((s.dropWhile fun c => c == '{' || c == '}').reverse.dropWhile fun c => c == '{' || c == '}').reverse

/-- One of `0-9a-fA-F`. -/
def hexChar (c : Char) : Bool := ('0' ≤ c && c ≤ '9') || ('a' ≤ c && c ≤ 'f') || ('A' ≤ c && c ≤ 'F')

/-- What `int` reads a character as: white space and decimal digits beyond ASCII become those of ASCII (used by `UUID`, validators/format_validators.py 230-235). -/
def asciiChar (u : UDB) (c : Char) : Char :=
  if c.toNat < 127 then c
  else if u.space c then ' '
  else match u.digit c with
    | some d => Char.ofNat (48 + d)
    | none => '?'

/-- Hexadecimal digits with single underscores between them, then white space; the flag says that a digit came last.
(part of `int`, used by `UUID`, validators/format_validators.py 230-235.) -/
def hexRun : Bool → Str → Bool
  | p, [] => p
  | p, c :: cs =>
    if hexChar c then hexRun true cs
    else if c = '_' then p && hexRun false cs
    else p && (stripL (c :: cs)).isEmpty

/-- The sign (part of `int`, used by `UUID`, validators/format_validators.py 230-235). -/
def dropSign : Str → Str
  | c :: r => if c = '+' ∨ c = '-' then r else c :: r
  | [] => []

/-- `0x` or `0X`, and an underscore after it (part of `int`, used by `UUID`, validators/format_validators.py 230-235). -/
def drop0x : Str → Str
  | '0' :: x :: r => if x = 'x' ∨ x = 'X' then (match r with
    | '_' :: r' => r'
    | _ => r) else '0' :: x :: r
  | s => s

/-- `int(s, 16)` succeeds (used by `UUID`, validators/format_validators.py 230-235). -/
def int16Ok (u : UDB) (s : Str) : Bool := hexRun false (drop0x (dropSign (stripL (s.map (asciiChar u)))))

/-- The digits `UUID` looks at (uuid.py 175-176). -/
def uuidCore (s : Str) : Str := removeAll c!"-" (stripBraces (removeAll c!"uuid:" (removeAll c!"urn:" s)))

/-- `UUID(s)` succeeds (uuid.py 174-179): the number is always in range, as a minus is never read. -/
def uuidOk (u : UDB) (s : Str) : Bool := (uuidCore s).length == 32 && int16Ok u (uuidCore s)

/-! ## `b64decode` -/

/-- One of the 64 characters (used by `b64decode`, validators/format_validators.py 45-50). -/
def b64Char (c : Char) : Bool := ('A' ≤ c && c ≤ 'Z') || ('a' ≤ c && c ≤ 'z') || ('0' ≤ c && c ≤ '9') || c == '+' || c == '/'

/-- The loop of `binascii.a2b_base64` (binascii.c, not strict): the position in the group of four and the padding seen in it.
(used by `b64decode`, validators/format_validators.py 45-50.) -/
def b64Run : Nat → Nat → Str → Bool
  | q, _, [] => q == 0
  | q, p, c :: cs =>
    if c = '=' then
      if 2 ≤ q then if 4 ≤ q + p + 1 then true else b64Run q (p + 1) cs
      else b64Run q p cs
    else if b64Char c then b64Run ((q + 1) % 4) 0 cs
    else b64Run q p cs

/-- `base64.b64decode(s)` succeeds (base64.py 34-39, 83, 88). -/
def b64Ok (s : Str) : Bool := isAscii s && b64Run 0 0 s

/-! ## `Decimal` -/

/-- White space around the text does not count, underscores anywhere do not, and decimal digits beyond ASCII are those of ASCII
(`numeric_as_ascii`, _decimal.c) (part of `Decimal`, validators/format_validators.py 148-160). -/
def decimalText (u : UDB) (s : Str) : Str :=
  (((s.dropWhile u.space).reverse.dropWhile u.space).reverse.filter fun c => c != '_').map fun c => match u.digit c with
    | some d => Char.ofNat (48 + d)
    | none => c

/-- After the digits: nothing, or an exponent (part of `Decimal`, validators/format_validators.py 148-160). -/
def exponentOf : Str → Option Int
  | [] => some 0
  | e :: r =>
    if e = 'e' ∨ e = 'E' then
      let d := dropSign r
      let n : Nat := d.foldl (fun n c => n * 10 + (c.toNat - 48)) 0
      if d ≠ [] ∧ d.all asciiDigit then some (if r.head? = some '-' then -(n : Int) else n) else none
    else none

/-- Digits with a point, one digit at least, and perhaps an exponent: the digits before and after the point, and the exponent
(`scan_dpoint_exp`, io.c; `Infinity` and `NaN` are left out, as they are not finite) (part of `Decimal`, validators/format_validators.py 148-160). -/
def decimalParts (t : Str) : Option (Str × Str × Int) :=
  let s := dropSign t
  let i := s.takeWhile asciiDigit
  match s.dropWhile asciiDigit with
  | '.' :: r =>
    let f := r.takeWhile asciiDigit
    if i = [] ∧ f = [] then none else (exponentOf (r.dropWhile asciiDigit)).map fun e => (i, f, e)
  | r => if i = [] then none else (exponentOf r).map fun e => (i, [], e)

/-- `Decimal(s).is_finite()` is true (validators/format_validators.py 148-160). -/
def decimalOk (u : UDB) (s : Str) : Bool :=
  match decimalParts (decimalText u s) with
  | none => false
  | some (i, f, e) => DecimalText.fits i f e

end Verif.Formats
