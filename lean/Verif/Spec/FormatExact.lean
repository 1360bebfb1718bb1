import Verif.Spec.FormatTexts
import Verif.Py.Unicode
/-!
# All texts taken as `uuid` and as `decimal`, for C73 and C75

What `uuid.UUID`, `int(_, 16)` and `decimal.Decimal` of Python ask of a text, as grammars.
-/

namespace Verif.Spec
open Verif

/-- `t` is `s` without the occurrences of `pat`, looked for from the left. -/
inductive Removed (pat : Str) : Str → Str → Prop
  | nil : Removed pat [] []
  | hit {s t : Str} (h : Removed pat s t) : Removed pat (pat ++ s) t
  | miss {c : Char} {s t : Str} (hn : ¬ pat <+: c :: s) (h : Removed pat s t) : Removed pat (c :: s) (c :: t)

/-- `t` is `s` without the characters in `P` at both ends. -/
def Trimmed (P : Char → Prop) (s t : Str) : Prop :=
  ∃ a b, s = a ++ t ++ b ∧ (∀ c ∈ a, P c) ∧ (∀ c ∈ b, P c) ∧ (∀ c, t.head? = some c → ¬ P c) ∧ ∀ c, t.getLast? = some c → ¬ P c

/-- The white space `int` skips. -/
def Gap (c : Char) : Prop := c ∈ [' ', '\n', '\t', '\r', '\x0b', '\x0c']

/-- The ASCII character `d` that a character `c` counts as in a number: itself, a blank for white space beyond ASCII, a digit for a digit beyond
ASCII. -/
def CountsAs (u : UDB) (c d : Char) : Prop :=
  (c.toNat < 127 ∧ d = c) ∨ (127 ≤ c.toNat ∧ u.space c = true ∧ d = ' ') ∨ (127 ≤ c.toNat ∧ ∃ n, u.digit c = some n ∧ d = Char.ofNat (48 + n))

/-- The same for the characters of a text. -/
inductive Reads (u : UDB) : Str → Str → Prop
  | nil : Reads u [] []
  | cons {c d : Char} {s t : Str} (h : CountsAs u c d) (hs : Reads u s t) : Reads u (c :: s) (d :: t)

/-- Hexadecimal digits with single underscores between them. -/
inductive HexGroups : Str → Prop
  | one {c : Char} (h : HexDigit c) : HexGroups [c]
  | digit {c : Char} {s : Str} (h : HexDigit c) (hs : HexGroups s) : HexGroups (c :: s)
  | under {c : Char} {s : Str} (h : HexDigit c) (hs : HexGroups s) : HexGroups (c :: '_' :: s)

/-- `0x` or `0X`, perhaps with an underscore, or nothing. -/
def HexPrefix (p : Str) : Prop := p = [] ∨ ∃ x, (x = 'x' ∨ x = 'X') ∧ (p = ['0', x] ∨ p = ['0', x, '_'])

/-- A hexadecimal number as `int(_, 16)` reads it. -/
def HexNumeral (t : Str) : Prop :=
  ∃ a sg p d b, t = a ++ (sg ++ (p ++ (d ++ b))) ∧ (∀ c ∈ a, Gap c) ∧ SignText sg ∧ HexPrefix p ∧ HexGroups d ∧ ∀ c ∈ b, Gap c

/-- All texts `UUID` takes: without `urn:`, then without `uuid:`, without the braces around and without hyphens there are 32 characters, which count as a
hexadecimal number. -/
def UuidTaken (u : UDB) (s : Str) : Prop :=
  ∃ s₁ s₂ s₃ t, Removed c!"urn:" s s₁ ∧ Removed c!"uuid:" s₁ s₂ ∧ Trimmed (fun c => c = '{' ∨ c = '}') s₂ s₃ ∧
    (s₃.filter fun c => c != '-').length = 32 ∧ Reads u (s₃.filter fun c => c != '-') t ∧ HexNumeral t

/-- All texts `Decimal` takes as finite numbers, if they are in range: without the white space around and without underscores the
characters count as a numeral `t`. -/
def DecimalOf (u : UDB) (s t : Str) : Prop :=
  ∃ s₁, Trimmed (fun c => u.space c = true) s s₁ ∧ Reads u (s₁.filter fun c => c != '_') t

end Verif.Spec
