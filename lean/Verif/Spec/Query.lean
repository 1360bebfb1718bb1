import Verif.Model.Types
/-! # RFC 6901 evaluation of pointers, independent of the code -/

namespace Verif.Spec
open Verif

/-- RFC 6901 section 4: an array index is `0` or digits without a leading zero. -/
def ArrayIndex (t : Str) (i : Nat) : Prop :=
  (t = c!"0" ∨ (∃ c r, t = c :: r ∧ c ≠ '0')) ∧ (∀ c ∈ t, '0' ≤ c ∧ c ≤ '9') ∧
    i = t.foldl (fun n c => 10 * n + (c.toNat - '0'.toNat)) 0

/-- RFC 6901 section 4: from a value, each token selects the member of that name or the element of that index. -/
inductive Eval : Node → List Str → Node → Prop
  | here (n : Node) : Eval n [] n
  | member {kvs : List (Str × Node)} {k : Str} {x m : Node} {ks : List Str}
      (hx : (k, x) ∈ kvs) (h : Eval x ks m) : Eval (.obj kvs) (k :: ks) m
  | index {xs : List Node} {t : Str} {i : Nat} {x m : Node} {ks : List Str}
      (hi : ArrayIndex t i) (hx : xs[i]? = some x) (h : Eval x ks m) : Eval (.arr xs) (t :: ks) m

/-- Digits, single underscores between them. -/
inductive Digits : Str → Prop
  | one {c : Char} (h : '0' ≤ c ∧ c ≤ '9') : Digits [c]
  | more {c : Char} {r : Str} (h : '0' ≤ c ∧ c ≤ '9') (hr : Digits r) : Digits (c :: r)
  | under {c : Char} {r : Str} (h : '0' ≤ c ∧ c ≤ '9') (hr : Digits r) : Digits (c :: '_' :: r)

/-- White space of C. -/
def CSpace (c : Char) : Prop := c = ' ' ∨ c = '\n' ∨ c = '\t' ∨ c = '\r' ∨ c = '\x0b' ∨ c = '\x0c'

/-- The ASCII texts Python's `int` understands: spaces, a sign, digits with single underscores between them, spaces. -/
def IntText (t : Str) : Prop :=
  ∃ a s d b, t = a ++ s ++ d ++ b ∧ (∀ c ∈ a, CSpace c) ∧ (s = [] ∨ s = c!"-" ∨ s = c!"+") ∧ Digits d ∧ ∀ c ∈ b, CSpace c

/-- The pointer leads as far as an object without the member, or a value without members. -/
def MissesKey (n : Node) (ptr : List Str) : Prop :=
  ∃ a k b m, ptr = a ++ k :: b ∧ Eval n a m ∧ (∀ xs, m ≠ .arr xs) ∧ ∀ kvs, m = .obj kvs → k ∉ kvs.map Prod.fst

/-- The pointer leads as far as an array shorter than the index. -/
def MissesIndex (n : Node) (ptr : List Str) : Prop :=
  ∃ a t i b xs, ptr = a ++ t :: b ∧ Eval n a (.arr xs) ∧ ArrayIndex t i ∧ xs.length ≤ i

/-- The pointer leads as far as an array, where it goes on with something that is not an index. -/
def NotAnIndex (n : Node) (ptr : List Str) : Prop :=
  ∃ a t b xs, ptr = a ++ t :: b ∧ Eval n a (.arr xs) ∧ ¬ ∃ i, ArrayIndex t i

end Verif.Spec
