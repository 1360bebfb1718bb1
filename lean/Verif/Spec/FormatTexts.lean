import Verif.Py.Basic
import Verif.Spec.DecimalRange
/-! # The texts the formats `uuid`, `byte` and `decimal` are for -/

namespace Verif.Spec
open Verif

/-- A hexadecimal digit. -/
def HexDigit (c : Char) : Prop := c ∈ c!"0123456789abcdefABCDEF"

/-- `n` hexadecimal digits. -/
def HexText (n : Nat) (s : Str) : Prop := s.length = n ∧ ∀ c ∈ s, HexDigit c

/-- The form of RFC 4122: groups of 8, 4, 4, 4 and 12 hexadecimal digits with hyphens between them. -/
def UuidText (s : Str) : Prop :=
  ∃ a b c d e, HexText 8 a ∧ HexText 4 b ∧ HexText 4 c ∧ HexText 4 d ∧ HexText 12 e ∧
    s = a ++ '-' :: (b ++ '-' :: (c ++ '-' :: (d ++ '-' :: e)))

/-- One of the 64 characters of base64 (RFC 4648). -/
def In64 (c : Char) : Prop := c ∈ c!"ABCDEFGHIJKLMNOPQRSTUVWXYZabcdefghijklmnopqrstuvwxyz0123456789+/"

instance (c : Char) : Decidable (In64 c) := inferInstanceAs (Decidable (c ∈ _))

/-- Groups of four characters, the last filled up with one or two `=`. -/
inductive Base64Text : Str → Prop
  | nil : Base64Text []
  | two {a b : Char} (ha : In64 a) (hb : In64 b) : Base64Text [a, b, '=', '=']
  | three {a b c : Char} (ha : In64 a) (hb : In64 b) (hc : In64 c) : Base64Text [a, b, c, '=']
  | four {a b c d : Char} {s : Str} (ha : In64 a) (hb : In64 b) (hc : In64 c) (hd : In64 d) (hs : Base64Text s) : Base64Text (a :: b :: c :: d :: s)

/-- How many of the characters count for base64. -/
def count64 (s : Str) : Nat := s.countP fun c => decide (In64 c)

/-- What the decoder of the code asks of a text of these characters and `=`: the groups are full at the end, or at some place a group of
three is followed by `=`, or a group of two by `==`, whatever comes after. -/
def Enough (t : Str) : Prop :=
  count64 t % 4 = 0 ∨ (∃ a r, t = a ++ '=' :: r ∧ count64 a % 4 = 3) ∨ ∃ a r, t = a ++ '=' :: '=' :: r ∧ count64 a % 4 = 2

/-- White space of ASCII, as Python sees it. -/
def Blank (c : Char) : Prop := c ∈ ['\t', '\n', '\x0b', '\x0c', '\r', '\x1c', '\x1d', '\x1e', '\x1f', ' ']

/-- Decimal digits. -/
def DigitText (s : Str) : Prop := ∀ c ∈ s, c ∈ c!"0123456789"

/-- A sign or nothing. -/
def SignText (s : Str) : Prop := s = [] ∨ s = c!"+" ∨ s = c!"-"

/-- Digits with a decimal point, or without; one digit at least. -/
def PointText (s : Str) : Prop := (DigitText s ∧ s ≠ []) ∨ ∃ i f, DigitText i ∧ DigitText f ∧ (i ≠ [] ∨ f ≠ []) ∧ s = i ++ '.' :: f

/-- A numeral: a sign, digits with a point, and perhaps an exponent with its sign. -/
def NumeralText (s : Str) : Prop :=
  ∃ sg m e, SignText sg ∧ PointText m ∧ s = sg ++ m ++ e ∧
    (e = [] ∨ ∃ x sg' d, (x = 'e' ∨ x = 'E') ∧ SignText sg' ∧ DigitText d ∧ d ≠ [] ∧ e = x :: (sg' ++ d))

/-- The number digits stand for. -/
def digitNumber : Str → Nat
  | [] => 0
  | c :: s => (c.toNat - '0'.toNat) * 10 ^ s.length + digitNumber s

/-- An exponent and its value; no exponent is 0. -/
def ExponentText (s : Str) (x : Int) : Prop :=
  (s = [] ∧ x = 0) ∨ ∃ c sg d, (c = 'e' ∨ c = 'E') ∧ SignText sg ∧ DigitText d ∧ d ≠ [] ∧ s = c :: (sg ++ d) ∧
    x = if sg = c!"-" then -(digitNumber d : Int) else digitNumber d

/-- A numeral with the digits before and after its point and its exponent. -/
def NumeralParts (s i f : Str) (x : Int) : Prop :=
  ∃ sg e, SignText sg ∧ DigitText i ∧ DigitText f ∧ (i ≠ [] ∨ f ≠ []) ∧ ExponentText e x ∧
    (f = [] ∧ s = sg ++ (i ++ e) ∨ s = sg ++ (i ++ '.' :: (f ++ e)))

/-- A numeral in the range of `Decimal`. -/
def RangedNumeral (s : Str) : Prop := ∃ i f x, NumeralParts s i f x ∧ DecimalRange i f x

end Verif.Spec
