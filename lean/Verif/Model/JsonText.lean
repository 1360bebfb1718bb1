import Verif.Model.Types
import Verif.Py.DecimalText
/-!
# JSON files (`jsoned/uri_loader.py` 15-16, 68-77)

`load_json` is `json.load` with `parse_float=Decimal`.  The reader is the one of CPython 3.11 (`json/decoder.py` with the scanner of
`Modules/_json.c`).  All its errors are `JSONDecodeError`, a `ValueError`, except that `Decimal` raises
`InvalidOperation` for numbers out of its range.  Not modelled: texts with escapes for one half of a surrogate pair, and the limit on the
depth of recursion.
-/

namespace Verif.JsonText
open Verif Num

/-- White space between tokens (part of `json.load`, uri_loader.py 16 and 75). -/
def isWs (c : Char) : Bool := c == ' ' || c == '\t' || c == '\n' || c == '\r'

/-- White space is skipped (`WHITESPACE` in json/decoder.py). -/
def skipWs (s : Str) : Str := s.dropWhile isWs

/-- `int()` of a text of digits (part of `json.load`, uri_loader.py 16 and 75). -/
def natOf (s : Str) : Nat := s.foldl (fun n c => n * 10 + (c.toNat - 48)) 0

/-- The digits of a number up to the point (`_match_number_unicode` in Modules/_json.c): no more than one if the first is 0.
(part of `json.load`, uri_loader.py 16 and 75.) -/
def intPart : Str → Res (Str × Str)
  | [] => .err .valueError
  | c :: r =>
    if c = '0' then .ok (['0'], r)
    else if c.isDigit then .ok ((c :: r).takeWhile Char.isDigit, (c :: r).dropWhile Char.isDigit)
    else .err .valueError

/-- Point and digits; without digits the point is left (part of `json.load`, uri_loader.py 16 and 75). -/
def fracPart (s : Str) : Str × Str :=
  match s with
  | '.' :: r => if r.takeWhile Char.isDigit = [] then ([], s) else (r.takeWhile Char.isDigit, r.dropWhile Char.isDigit)
  | _ => ([], s)

/-- The sign of an exponent (part of `json.load`, uri_loader.py 16 and 75). -/
def expSign : Str → Bool × Str
  | '-' :: r => (true, r)
  | '+' :: r => (false, r)
  | r => (false, r)

/-- The exponent, if there is one; without digits the letter is left (part of `json.load`, uri_loader.py 16 and 75). -/
def expPart (s : Str) : Option Int × Str :=
  match s with
  | [] => (none, s)
  | c :: r =>
    if c = 'e' ∨ c = 'E' then
      let (neg, r) := expSign r
      let ds := r.takeWhile Char.isDigit
      if ds = [] then (none, s) else (some (if neg then -(natOf ds : Int) else natOf ds), r.dropWhile Char.isDigit)
    else (none, s)

/-- The sign of a number (part of `json.load`, uri_loader.py 16 and 75). -/
def sign : Str → Bool × Str
  | '-' :: r => (true, r)
  | r => (false, r)

/-- A number: without fraction and exponent `int(text)`, which refuses more than 4300 digits, otherwise `Decimal(text)`, which
refuses what is out of its range (part of `json.load`, uri_loader.py 16 and 75). -/
def number (s : Str) : Res (Val × Str) := do
  let (neg, s) := sign s
  let (ip, s) ← intPart s
  let (fr, s) := fracPart s
  let (ex, s) := expPart s
  if fr = [] ∧ ex = none then
    if 4300 < ip.length then .err .valueError else .ok (.int (if neg then -(natOf ip : Int) else natOf ip), s)
  else
    let e := ex.getD 0
    if DecimalText.fits ip fr e = false then .err .invalidOperation
    else
      let q := (natOf (ip ++ fr) : Rat) * pow10 (e - fr.length)
      .ok (.dec (.fin (if neg then -q else q)), s)

/-- Anything but texts, arrays and objects (`scan_once_unicode` in Modules/_json.c) (part of `json.load`, uri_loader.py 16 and 75). -/
def literal (s : Str) : Res (Val × Str) :=
  match s with
  | 'n' :: 'u' :: 'l' :: 'l' :: r => .ok (.null, r)
  | 't' :: 'r' :: 'u' :: 'e' :: r => .ok (.bool true, r)
  | 'f' :: 'a' :: 'l' :: 's' :: 'e' :: r => .ok (.bool false, r)
  | 'N' :: 'a' :: 'N' :: r => .ok (.flt .nan, r)
  | 'I' :: 'n' :: 'f' :: 'i' :: 'n' :: 'i' :: 't' :: 'y' :: r => .ok (.flt (.inf false), r)
  | '-' :: 'I' :: 'n' :: 'f' :: 'i' :: 'n' :: 'i' :: 't' :: 'y' :: r => .ok (.flt (.inf true), r)
  | s => number s

/-- A hexadecimal digit (part of `json.load`, uri_loader.py 16 and 75). -/
def hexVal (c : Char) : Option Nat :=
  if c.isDigit then some (c.toNat - 48)
  else if 'a' ≤ c ∧ c ≤ 'f' then some (c.toNat - 87)
  else if 'A' ≤ c ∧ c ≤ 'F' then some (c.toNat - 55)
  else none

/-- Four hexadecimal digits (part of `json.load`, uri_loader.py 16 and 75). -/
def hex4 : Str → Option (Nat × Str)
  | a :: b :: c :: d :: r => do
    some (((← hexVal a) * 16 + (← hexVal b)) * 256 + ((← hexVal c) * 16 + (← hexVal d)), r)
  | _ => none

/-- The letters after a backslash (`scanstring_unicode` in Modules/_json.c) (part of `json.load`, uri_loader.py 16 and 75). -/
def shortEscape (c : Char) : Option Char :=
  if c = '"' then some '"' else if c = '\\' then some '\\' else if c = '/' then some '/' else if c = 'b' then some '\x08'
  else if c = 'f' then some '\x0c' else if c = 'n' then some '\n' else if c = 'r' then some '\r' else if c = 't' then some '\t' else none

/-- The second half of a surrogate pair (part of `json.load`, uri_loader.py 16 and 75). -/
def lowHalf (n : Nat) : Str → Res (Char × Str)
  | '\\' :: 'u' :: r => match hex4 r with
    | none => .err .valueError
    | some (m, r) =>
      if 0xDC00 ≤ m ∧ m ≤ 0xDFFF then .ok (Char.ofNat (0x10000 + (n - 0xD800) * 0x400 + (m - 0xDC00)), r) else .err .unmodelled
  | _ => .err .unmodelled

/-- What follows a backslash (part of `json.load`, uri_loader.py 16 and 75). -/
def escape : Str → Res (Char × Str)
  | [] => .err .valueError
  | c :: r =>
    if c = 'u' then
      match hex4 r with
      | none => .err .valueError
      | some (n, r) =>
        if 0xD800 ≤ n ∧ n ≤ 0xDBFF then lowHalf n r
        else if 0xDC00 ≤ n ∧ n ≤ 0xDFFF then .err .unmodelled
        else .ok (Char.ofNat n, r)
    else match shortEscape c with
      | some d => .ok (d, r)
      | none => .err .valueError

/-- The rest of a text after the quotation mark; control characters are refused (part of `json.load`, uri_loader.py 16 and 75). -/
def chars : Nat → Str → Res (Str × Str)
  | 0, _ => .timeout
  | _ + 1, [] => .err .valueError
  | f + 1, c :: r =>
    if c = '"' then .ok ([], r)
    else if c = '\\' then do
      let (d, r) ← escape r
      let (t, r) ← chars f r
      .ok (d :: t, r)
    else if c.toNat < 32 then .err .valueError
    else do
      let (t, r) ← chars f r
      .ok (c :: t, r)

mutual

/-- A value (`scan_once_unicode`, `_parse_array_unicode`, `_parse_object_unicode` in Modules/_json.c) (part of `json.load`, uri_loader.py 16 and 75). -/
def value : Nat → Str → Res (Val × Str)
  | 0, _ => .timeout
  | _ + 1, [] => .err .valueError
  | f + 1, c :: r =>
    if c = '"' then do
      let (t, r) ← chars f r
      .ok (.str t, r)
    else if c = '[' then
      match skipWs r with
      | ']' :: r => .ok (.list [], r)
      | r => do
        let (vs, r) ← elements f r
        .ok (.list vs, r)
    else if c = '{' then
      match skipWs r with
      | '}' :: r => .ok (.dict [], r)
      | r => do
        let (d, r) ← members f r []
        .ok (.dict d, r)
    else literal (c :: r)

/-- The elements of an array and the bracket (part of `json.load`, uri_loader.py 16 and 75). -/
def elements : Nat → Str → Res (List Val × Str)
  | 0, _ => .timeout
  | f + 1, s => do
    let (v, r) ← value f s
    match skipWs r with
    | ']' :: r => .ok ([v], r)
    | ',' :: r => do
      let (vs, r) ← elements f (skipWs r)
      .ok (v :: vs, r)
    | _ => .err .valueError

/-- The members of an object and the brace; a name that comes again replaces the value (part of `json.load`, uri_loader.py 16 and 75). -/
def members : Nat → Str → List (Str × Val) → Res (List (Str × Val) × Str)
  | 0, _, _ => .timeout
  | f + 1, s, d =>
    match s with
    | '"' :: r => do
      let (k, r) ← chars f r
      match skipWs r with
      | ':' :: r => do
        let (v, r) ← value f (skipWs r)
        match skipWs r with
        | '}' :: r => .ok (dictSet k v d, r)
        | ',' :: r => members f (skipWs r) (dictSet k v d)
        | _ => .err .valueError
      | _ => .err .valueError
    | _ => .err .valueError

end

/-- `json.load(file, parse_float=Decimal)` on the text of the file (json/decoder.py, `decode` and `raw_decode`).  A byte order mark is
refused like any other character that begins no value. -/
def loads (s : Str) : Res Val := do
  let (v, r) ← value (2 * s.length + 1) (skipWs s)
  if skipWs r = [] then .ok v else .err .valueError

end Verif.JsonText
