import Verif.Spec.Query
/-! # What `query` makes of a pointer: indices as Python's `int` reads them, negative ones counted from the end (C10) -/

namespace Verif.Spec
open Verif

/-- The number a sequence of digits stands for, underscores left out. -/
def numeral (d : Str) : Nat := (d.filter (· ≠ '_')).foldl (fun n c => 10 * n + (c.toNat - '0'.toNat)) 0

/-- How many digits a text has. -/
def digitCount (t : Str) : Nat := (t.filter fun c => decide ('0' ≤ c ∧ c ≤ '9')).length

/-- The ASCII text `t` denotes `i` for Python's `int`: spaces, a sign, digits with single underscores between them, spaces. -/
def Spells (t : Str) (i : Int) : Prop :=
  ∃ a s d b, t = a ++ s ++ d ++ b ∧ (∀ c ∈ a, CSpace c) ∧ Digits d ∧ (∀ c ∈ b, CSpace c) ∧
    (((s = [] ∨ s = c!"+") ∧ i = numeral d) ∨ (s = c!"-" ∧ i = -(numeral d : Int)))

/-- `x` is at `i`, counted from 0 at the front or from -1 at the end. -/
def ElementAt {α : Type} (xs : List α) (i : Int) (x : α) : Prop :=
  ∃ pre post, xs = pre ++ x :: post ∧ (i = pre.length ∨ i = -((post.length : Int) + 1))

/-- Following the pointer: each token selects the member of that name, or the element it denotes for Python. -/
inductive Follows : Node → List Str → Node → Prop
  | here (n : Node) : Follows n [] n
  | member {kvs : List (Str × Node)} {k : Str} {x m : Node} {ks : List Str} (hx : (k, x) ∈ kvs) (h : Follows x ks m) : Follows (.obj kvs) (k :: ks) m
  | element {xs : List Node} {t : Str} {i : Int} {x m : Node} {ks : List Str} (hi : Spells t i) (hl : digitCount t ≤ 4300) (hx : ElementAt xs i x)
      (h : Follows x ks m) : Follows (.arr xs) (t :: ks) m

/-- Where following the pointer ends, and with which error. -/
inductive Stops : Node → List Str → PyErr → Prop
  | key {n : Node} {k : Str} {ks : List Str} (hn : ∀ xs, n ≠ .arr xs) (hk : ∀ kvs, n = .obj kvs → k ∉ kvs.map Prod.fst) : Stops n (k :: ks) .keyError
  | index {xs : List Node} {t : Str} {i : Int} {ks : List Str} (hi : Spells t i) (hl : digitCount t ≤ 4300) (hx : ∀ x, ¬ ElementAt xs i x) :
      Stops (.arr xs) (t :: ks) .indexError
  | number {xs : List Node} {t : Str} {ks : List Str} (h : ∀ i, Spells t i → 4300 < digitCount t) : Stops (.arr xs) (t :: ks) .valueError
  | member {kvs : List (Str × Node)} {k : Str} {x : Node} {ks : List Str} {e : PyErr} (hx : (k, x) ∈ kvs) (h : Stops x ks e) :
      Stops (.obj kvs) (k :: ks) e
  | element {xs : List Node} {t : Str} {i : Int} {x : Node} {ks : List Str} {e : PyErr} (hi : Spells t i) (hl : digitCount t ≤ 4300)
      (hx : ElementAt xs i x) (h : Stops x ks e) : Stops (.arr xs) (t :: ks) e

end Verif.Spec
