import Verif.Model.Types
import Verif.Spec.DecimalRange
/-!
# JSON texts (RFC 8259)

The grammar of RFC 8259, with the data a text stands for.  A dialect may have words for numbers that are none, and limits for numbers.
-/

namespace Verif.JsonText
open Verif Num

/-- What a reader of JSON may do otherwise. -/
structure Dialect where
  /-- the words NaN, Infinity, -Infinity are values -/
  constants : Bool
  /-- the number of digits an integer may have -/
  digits : Option Nat
  /-- numbers with a fraction or an exponent must be in the range of `Decimal` -/
  ranged : Bool

/-- RFC 8259. -/
def rfc8259 : Dialect := ⟨false, none, false⟩

/-- What `json.load` of Python 3.11 takes. -/
def python : Dialect := ⟨true, some 4300, true⟩

/-- At most as large as the limit says. -/
def within (n : Nat) : Option Nat → Prop
  | none => True
  | some m => n ≤ m

/-- `ws` -/
def Ws (s : Str) : Prop := ∀ c ∈ s, c = ' ' ∨ c = '\t' ∨ c = '\n' ∨ c = '\r'

/-- A sequence of digits. -/
def Digits (s : Str) : Prop := s ≠ [] ∧ ∀ c ∈ s, '0' ≤ c ∧ c ≤ '9'

/-- The number digits stand for. -/
def decimal : Str → Nat
  | [] => 0
  | c :: s => (c.toNat - '0'.toNat) * 10 ^ s.length + decimal s

/-- `int`: no zero before other digits. -/
def IntPart (s : Str) : Prop := s = ['0'] ∨ Digits s ∧ s.head? ≠ some '0'

/-- `[ frac ]` with its digits -/
def FracPart (s ds : Str) : Prop := s = [] ∧ ds = [] ∨ s = '.' :: ds ∧ Digits ds

/-- `[ exp ]` with its value -/
def ExpPart (s : Str) (e : Option Int) : Prop :=
  s = [] ∧ e = none ∨ ∃ c ds, (c = 'e' ∨ c = 'E') ∧ Digits ds ∧
    ((s = c :: ds ∨ s = c :: '+' :: ds) ∧ e = some (decimal ds : Int) ∨ s = c :: '-' :: ds ∧ e = some (-(decimal ds : Int)))

/-- `number`: an integer if there is neither fraction nor exponent, otherwise a decimal with its exact value. -/
def Numeral (δ : Dialect) (s : Str) (v : Val) : Prop :=
  ∃ (neg : Bool) (ip fr ds ex : Str) (e : Option Int), IntPart ip ∧ FracPart fr ds ∧ ExpPart ex e ∧
    s = (if neg then ['-'] else []) ++ ip ++ fr ++ ex ∧
    ((fr = [] ∧ ex = [] ∧ within ip.length δ.digits ∧ v = .int (if neg then -(decimal ip : Int) else decimal ip)) ∨
      (¬ (fr = [] ∧ ex = []) ∧ (δ.ranged = true → DecimalRange ip ds (e.getD 0)) ∧
        v = .dec (.fin ((if neg then -1 else 1) * (decimal (ip ++ ds) : Rat) * pow10 (e.getD 0 - ds.length)))))

/-- A hexadecimal digit and its value. -/
def HexDigit (c : Char) (n : Nat) : Prop := n < 16 ∧ (c = (c!"0123456789abcdef").getD n ' ' ∨ c = (c!"0123456789ABCDEF").getD n ' ')

/-- Four of them. -/
def Hex4 (s : Str) (n : Nat) : Prop :=
  ∃ a b c d w x y z, HexDigit a w ∧ HexDigit b x ∧ HexDigit c y ∧ HexDigit d z ∧ s = [a, b, c, d] ∧ n = w * 16 ^ 3 + x * 16 ^ 2 + y * 16 + z

/-- The two-character escapes: the letter and the character. -/
def shortEscapes : List (Char × Char) :=
  [('"', '"'), ('\\', '\\'), ('/', '/'), ('b', Char.ofNat 8), ('f', Char.ofNat 12), ('n', Char.ofNat 10), ('r', Char.ofNat 13), ('t', Char.ofNat 9)]

/-- `*char`, and the characters meant. -/
inductive Chars : Str → Str → Prop
  | nil : Chars [] []
  | plain {c t s} : c ≠ '"' → c ≠ '\\' → 32 ≤ c.toNat → Chars t s → Chars (c :: t) (c :: s)
  | short {e c t s} : (e, c) ∈ shortEscapes → Chars t s → Chars ('\\' :: e :: t) (c :: s)
  | unicode {h n t s} : Hex4 h n → ¬ (0xD800 ≤ n ∧ n ≤ 0xDFFF) → Chars t s → Chars ('\\' :: 'u' :: (h ++ t)) (Char.ofNat n :: s)
  | pair {h n l m t s} : Hex4 h n → 0xD800 ≤ n → n ≤ 0xDBFF → Hex4 l m → 0xDC00 ≤ m → m ≤ 0xDFFF → Chars t s →
      Chars ('\\' :: 'u' :: (h ++ ('\\' :: 'u' :: (l ++ t)))) (Char.ofNat (0x10000 + (n - 0xD800) * 0x400 + (m - 0xDC00)) :: s)

/-- The last value given for a name. -/
def lastOf (k : Str) : List (Str × Val) → Option Val
  | [] => none
  | (k', v) :: ms => (lastOf k ms).or (if k' = k then some v else none)

/-- The members of an object: each name once, where it came first, with the value that came last. -/
def collect (ms : List (Str × Val)) : List (Str × Val) :=
  (ms.map Prod.fst).eraseDups.filterMap fun k => (lastOf k ms).map fun v => (k, v)

mutual

/-- A `value` without white space around it. -/
inductive Text (δ : Dialect) : Str → Val → Prop
  | null : Text δ c!"null" .null
  | true : Text δ c!"true" (.bool Bool.true)
  | false : Text δ c!"false" (.bool Bool.false)
  | nan : δ.constants = Bool.true → Text δ c!"NaN" (.flt .nan)
  | inf : δ.constants = Bool.true → Text δ c!"Infinity" (.flt (.inf Bool.false))
  | negInf : δ.constants = Bool.true → Text δ c!"-Infinity" (.flt (.inf Bool.true))
  | num {s v} : Numeral δ s v → Text δ s v
  | str {t s} : Chars t s → Text δ ('"' :: (t ++ ['"'])) (.str s)
  | noElements {w} : Ws w → Text δ ('[' :: (w ++ [']'])) (.list [])
  | arr {w t vs} : Ws w → Elements δ t vs → Text δ ('[' :: (w ++ (t ++ [']']))) (.list vs)
  | noMembers {w} : Ws w → Text δ ('{' :: (w ++ ['}'])) (.dict [])
  | obj {w t ms} : Ws w → Members δ t ms → Text δ ('{' :: (w ++ (t ++ ['}']))) (.dict (collect ms))

/-- `value *( value-separator value )` -/
inductive Elements (δ : Dialect) : Str → List Val → Prop
  | one {t v w} : Text δ t v → Ws w → Elements δ (t ++ w) [v]
  | more {t v w w' u vs} : Text δ t v → Ws w → Ws w' → Elements δ u vs → Elements δ (t ++ (w ++ (',' :: (w' ++ u)))) (v :: vs)

/-- `member *( value-separator member )` -/
inductive Members (δ : Dialect) : Str → List (Str × Val) → Prop
  | one {k s w1 w2 t v w3} : Chars k s → Ws w1 → Ws w2 → Text δ t v → Ws w3 →
      Members δ ('"' :: (k ++ ('"' :: (w1 ++ (':' :: (w2 ++ (t ++ w3))))))) [(s, v)]
  | more {k s w1 w2 t v w3 w4 u ms} : Chars k s → Ws w1 → Ws w2 → Text δ t v → Ws w3 → Ws w4 → Members δ u ms →
      Members δ ('"' :: (k ++ ('"' :: (w1 ++ (':' :: (w2 ++ (t ++ (w3 ++ (',' :: (w4 ++ u)))))))))) ((s, v) :: ms)

end

/-- `JSON-text = ws value ws` -/
def Document (δ : Dialect) (s : Str) (v : Val) : Prop := ∃ w t w', Ws w ∧ Ws w' ∧ Text δ t v ∧ s = w ++ (t ++ w')

/-- RFC 8259 with integers of at most `m` digits and other numbers in the range of `Decimal`. -/
def limited (m : Nat) : Dialect := ⟨false, some m, true⟩

/-- No run of digits in the text is longer. -/
def ShortDigits (n : Nat) (s : Str) : Prop := ∀ a ds b, s = a ++ ds ++ b → Digits ds → ds.length ≤ n

/-- Neither word occurs. -/
def NoConstants (s : Str) : Prop := ¬ c!"NaN" <:+: s ∧ ¬ c!"Infinity" <:+: s

/-- The text holds something the model leaves out: the beginning of an escape for half a surrogate pair. -/
def Unusual (s : Str) : Prop := ∃ a b, s = a ++ '\\' :: 'u' :: b ∧ (b.head? = some 'd' ∨ b.head? = some 'D')

/-- The text holds a number with fraction or exponent that is out of the range of `Decimal`. -/
def Enormous (s : Str) : Prop :=
  ∃ a ip fr ds ex e b, s = a ++ (ip ++ fr ++ ex) ++ b ∧ IntPart ip ∧ FracPart fr ds ∧ ExpPart ex e ∧ ¬ (fr = [] ∧ ex = []) ∧
    ¬ DecimalRange ip ds (e.getD 0)

/-- Data without binary floating point numbers, and without NaN and infinities. -/
inductive Exact : Val → Prop
  | null : Exact .null
  | bool (b) : Exact (.bool b)
  | int (n) : Exact (.int n)
  | dec (q) : Exact (.dec (.fin q))
  | str (s) : Exact (.str s)
  | list {vs} : (∀ v ∈ vs, Exact v) → Exact (.list vs)
  | dict {kvs : List (Str × Val)} : (kvs.map Prod.fst).Nodup → (∀ p ∈ kvs, Exact p.2) → Exact (.dict kvs)

end Verif.JsonText
