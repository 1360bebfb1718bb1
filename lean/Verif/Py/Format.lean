import Verif.Py.Basic
/-!
# `str.format(**fields)`

Only the question whether formatting raises, and what, is modelled, not the resulting text.  Replacement fields with
a conversion, a format specification, an attribute or an index (`!`, `:`, `.`, `[` inside braces) are modelled as far as they
are malformed or ask for a field that is not there; what they make of a field that is there is not modelled.  Nor are names
in which a character outside ASCII follows only digits or comes first (it may be a digit of another script).
-/

namespace Verif

/-- Whether a field name is a number: no positional arguments are ever passed, so a number is out of range, and one that does not fit into 63 bits is refused as soon as
that is seen; `none` if the name is not a number (CPython `get_integer`; Python 3.11).  `n` is the number read so far. -/
def fmtInt (n : Nat) : Str → Option PyErr
  | [] => some .indexError
  | c :: r =>
    if '0' ≤ c && c ≤ '9' then
      if 9223372036854775807 < n * 10 + (c.toNat - 48) then some .valueError else fmtInt (n * 10 + (c.toNat - 48)) r
    else if 127 < c.toNat then some .unmodelled
    else none

/-- The exceptions of numbers as field names. -/
theorem fmtInt_errs {n : Nat} {s : Str} {e : PyErr} (h : fmtInt n s = some e) : e = .indexError ∨ e = .valueError ∨ e = .unmodelled := by
  fun_induction fmtInt n s <;> simp_all

/-- Lookup of a replacement field: no positional arguments are ever passed (CPython `get_field_object`). -/
def fmtField (known : List Str) (name : Str) : Option PyErr :=
  match fmtInt 0 name with
  | some e => some e
  | none => if name ∈ known then none else some .keyError

/-- Where in a replacement field the reader is: in the name, in an index, at a conversion, behind one, or in a format specification with so many braces open. -/
inductive FmtAt
  | name | index | conv | convEnd
  | spec (depth : Nat)

/-- Whether the replacement field is closed and in order (CPython `parse_field`; Python 3.11). -/
def fmtCloses : FmtAt → Str → Bool
  | _, [] => false
  | .name, c :: r =>
    if c = '{' then false
    else if c = '}' then true
    else if c = '[' then fmtCloses .index r
    else if c = '!' then fmtCloses .conv r
    else if c = ':' then fmtCloses (.spec 0) r
    else fmtCloses .name r
  | .index, c :: r => if c = ']' then fmtCloses .name r else fmtCloses .index r
  | .conv, _ :: r => fmtCloses .convEnd r
  | .convEnd, c :: r => if c = '}' then true else if c = ':' then fmtCloses (.spec 0) r else false
  | .spec 0, c :: r => if c = '}' then true else if c = '{' then fmtCloses (.spec 1) r else fmtCloses (.spec 0) r
  | .spec (n + 1), c :: r =>
    if c = '}' then fmtCloses (.spec n) r else if c = '{' then fmtCloses (.spec (n + 2)) r else fmtCloses (.spec (n + 1)) r

/-- A replacement field with an attribute, an index, a conversion or a format specification, `rest` being what follows the name: first it is parsed, then the field is looked up
(CPython `output_markup`, `get_field_object`). -/
def fmtOdd (known : List Str) (name rest : Str) : PyErr :=
  if fmtCloses .name rest then
    match fmtInt 0 name with
    | some e => e
    | none => if name ∈ known then .unmodelled else .keyError
  else .valueError

theorem fmtOdd_errs (known : List Str) (name rest : Str) :
    fmtOdd known name rest = .indexError ∨ fmtOdd known name rest = .valueError ∨ fmtOdd known name rest = .keyError ∨ fmtOdd known name rest = .unmodelled := by
  unfold fmtOdd
  split
  · split
    · rename_i e he
      rcases fmtInt_errs he with rfl | rfl | rfl <;> simp
    · split <;> simp
  · simp

/-- `text.format(**fields)` where `known` are the names of the fields: `none` if it succeeds, else the exception
(CPython `MarkupIterator_next`, `parse_field`).  The second argument is the field name read so far, reversed, when
inside braces. -/
def fmtGo (known : List Str) : Option Str → Str → Option PyErr
  | none, [] => none
  | none, ['{'] => some .valueError
  | none, '{' :: '{' :: r => fmtGo known none r
  | none, '{' :: '}' :: _ => fmtField known []
  | none, '{' :: c :: r =>
    if c = '!' ∨ c = ':' ∨ c = '.' ∨ c = '[' then some (fmtOdd known [] (c :: r)) else fmtGo known (some [c]) r
  | none, '}' :: '}' :: r => fmtGo known none r
  | none, '}' :: _ => some .valueError
  | none, _ :: r => fmtGo known none r
  | some _, [] => some .valueError
  | some acc, c :: r =>
    if c = '}' then
      match fmtField known acc.reverse with
      | some e => some e
      | none => fmtGo known none r
    else if c = '{' then some .valueError
    else if c = '!' ∨ c = ':' ∨ c = '.' ∨ c = '[' then some (fmtOdd known acc.reverse (c :: r))
    else fmtGo known (some (c :: acc)) r

/-- `text.format(**fields)` -/
def pyFormat (known : List Str) (text : Str) : Option PyErr := fmtGo known none text

end Verif
