import Verif.Py.Format
/-!
# What is wrong with a text that is to be formatted (C33)

The faults of a format string without positional arguments (Python documentation, "Format String Syntax"), with the exceptions they make `str.format` raise: the first fault decides.
-/

namespace Verif.Spec
open Verif

/-- One more digit. -/
def addDigit (a : Nat) (c : Char) : Nat := a * 10 + (c.toNat - 48)

/-- The number that digits stand for. -/
def decimal (s : Str) : Nat := s.foldl addDigit 0

/-- Text that is nothing but a name, in braces. -/
def Inner (s : Str) : Prop := ∀ c ∈ s, c ∉ c!"{}!:.["

/-- Text in which every brace has its counterpart. -/
def Balanced (b : Str) : Prop := b.count '}' = b.count '{' ∧ ∀ q, q <+: b → q.count '}' ≤ q.count '{'

/-- What may follow the name up to the closing brace: attributes and indices, then a conversion, then a format specification (which may have fields of its own). -/
inductive Behind : Str → Prop
  | nil : Behind []
  | char {c : Char} {r : Str} (h : c ∉ c!"{}!:[") (hr : Behind r) : Behind (c :: r)
  | index {i r : Str} (h : ']' ∉ i) (hr : Behind r) : Behind ('[' :: (i ++ ']' :: r))
  | conv (x : Char) : Behind ['!', x]
  | convSpec (x : Char) {b : Str} (h : Balanced b) : Behind ('!' :: x :: ':' :: b)
  | spec {b : Str} (h : Balanced b) : Behind (':' :: b)

/-- Text behind the name of a field, that field being closed. -/
def Complete (x : Str) : Prop := ∃ t r, x = t ++ '}' :: r ∧ Behind t

/-- Text that begins with an attribute, an index, a conversion or a format specification. -/
def Odd (x : Str) : Prop := ∃ c r, x = c :: r ∧ c ∈ c!"!:.["

/-- Looking up a field that is not there: numbers, also no number at all, ask for positional arguments, of which there are none; they have to fit into 63 bits. -/
inductive Missing (known : List Str) : Str → PyErr → Prop
  | number {n : Str} (hd : ∀ c ∈ n, c.isDigit) (h : decimal n < 2 ^ 63) : Missing known n .indexError
  | huge {d m : Str} (hd : ∀ c ∈ d, c.isDigit) (h : 2 ^ 63 ≤ decimal d) : Missing known (d ++ m) .valueError
  | unknown {d m : Str} {c : Char} (hd : ∀ x ∈ d, x.isDigit) (h : decimal d < 2 ^ 63) (hc : c.isDigit = false) (ha : c.toNat < 128) (hk : d ++ c :: m ∉ known) :
      Missing known (d ++ c :: m) .keyError

/-- Texts that begin with a fault: a closing brace alone, a brace within braces, braces that are not closed, a field that is not there. -/
inductive Fault (known : List Str) : Str → PyErr → Prop
  | lone {r : Str} (h : ∀ t, r ≠ '}' :: t) : Fault known ('}' :: r) .valueError
  | nested {n r : Str} (hn : Inner n) (h : n ≠ []) : Fault known ('{' :: (n ++ '{' :: r)) .valueError
  | unclosed {n : Str} (hn : Inner n) : Fault known ('{' :: n) .valueError
  | broken {n x : Str} (hn : Inner n) (hx : Odd x) (h : ¬ Complete x) : Fault known ('{' :: (n ++ x)) .valueError
  | missing {n r : Str} {e : PyErr} (hn : Inner n) (h : Missing known n e) : Fault known ('{' :: (n ++ '}' :: r)) e
  | missingOdd {n x : Str} {e : PyErr} (hn : Inner n) (hx : Odd x) (hc : Complete x) (h : Missing known n e) : Fault known ('{' :: (n ++ x)) e

end Verif.Spec
