import Verif.Model.Repr
/-! # Data whose `repr` can be read back -/

namespace Verif.Spec
open Verif Verif.Repr

/-- The texts of `Decimal`s: digits, signs, a point, an exponent; or a special value. -/
def Numeral (t : Str) : Prop :=
  (t ≠ [] ∧ ∀ c ∈ t, c ∈ c!"0123456789.+-E") ∨ t ∈ [c!"NaN", c!"Infinity", c!"-Infinity"]

/-- A text that is neither the text of a number, `None`, a boolean nor the beginning of a container, and has no closing bracket. -/
structure Unmistakable (s : Str) : Prop where
  closed : ')' ∉ s
  number : ¬ Numeral s
  none : s ≠ c!"None"
  true : s ≠ c!"JsonBool(True"
  false : s ≠ c!"JsonBool(False"
  head : ∀ c ∈ s.head?, c ∉ c!"[]{"

/-- All texts among the values (not the names of members) are unmistakable. -/
inductive Clear : RawDoc → Prop
  | null : Clear .null
  | bool (b : Bool) : Clear (.bool b)
  | num {t : Str} : Numeral t → Clear (.num t)
  | str {s : Str} : Unmistakable s → Clear (.str s)
  | list {xs : List RawDoc} : (∀ x ∈ xs, Clear x) → Clear (.list xs)
  | dict {kvs : List (Str × RawDoc)} : (∀ kv ∈ kvs, Clear kv.2) → Clear (.dict kvs)

/-- What SHA-256 prints: 64 hexadecimal digits. -/
def HexDigest (t : Str) : Prop := t.length = 64 ∧ ∀ c ∈ t, c ∈ c!"0123456789abcdef"

end Verif.Spec
