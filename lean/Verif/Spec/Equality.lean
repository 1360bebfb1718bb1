import Verif.Spec.Compare
/-!
# Equality and order of JSON values, for C09, C81 and C92
-/

namespace Verif.Spec
open Verif

/-- JSON equality: numbers by value (NaN equals nothing), objects whatever the order of their members. -/
inductive Same : Node → Node → Prop
  | null : Same .null .null
  | boolean (b : Bool) : Same (.bool b) (.bool b)
  | number (n : Num) (h : n ≠ .nan) : Same (.num n) (.num n)
  | string (s : Str) : Same (.str s) (.str s)
  | array {xs ys : List Node} (hl : xs.length = ys.length) (h : ∀ (i : Nat) x y, xs[i]? = some x → ys[i]? = some y → Same x y) : Same (.arr xs) (.arr ys)
  | object {xs ys : List (Str × Node)} (hk : ∀ k, k ∈ xs.map Prod.fst ↔ k ∈ ys.map Prod.fst)
      (h : ∀ k x y, dictGet k xs = some x → dictGet k ys = some y → Same x y) : Same (.obj xs) (.obj ys)

/-- Going through `a` and `b` in step, the first thing that is not the same is a number or a boolean of `a` against something that is neither. -/
inductive Clash : Node → Node → Prop
  | number (n : Num) {b : Node} (h : ∀ m, b ≠ .num m) : Clash (.num n) b
  | boolean (x : Bool) {b : Node} (h : ∀ y, b ≠ .bool y) : Clash (.bool x) b
  | array {xs ys : List Node} {i : Nat} {x y : Node} (hl : xs.length = ys.length) (hx : xs[i]? = some x) (hy : ys[i]? = some y) (h : Clash x y)
      (hb : ∀ j < i, ∀ u v, xs[j]? = some u → ys[j]? = some v → Same u v) : Clash (.arr xs) (.arr ys)
  | object {pre post ys : List (Str × Node)} {k : Str} {x y : Node} (hl : (pre ++ (k, x) :: post).length = ys.length) (hy : dictGet k ys = some y)
      (h : Clash x y) (hb : ∀ p ∈ pre, ∃ v, dictGet p.1 ys = some v ∧ Same p.2 v) : Clash (.obj (pre ++ (k, x) :: post)) (.obj ys)

/-- What comparing two values comes to. -/
inductive Outcome where
  | first | equal | second | typeError | nan
deriving DecidableEq

/-- The type of a value, for comparisons. -/
def sort : Node → Kind
  | .null => .null
  | .bool _ => .boolean
  | .num _ => .number
  | .str _ => .string
  | .arr _ => .array
  | .obj _ | .ref .. => .object

/-- How two values compare: numbers, texts and booleans by `Before`; a boolean before a number as 0 or 1; arrays by the first items that are not the
same, or by length; everything else raises `TypeError`, NaN raises `InvalidOperation`. -/
inductive Compares : Node → Node → Outcome → Prop
  | before {a b : Node} (hs : sort a ∈ [.number, .string, .boolean]) (h : Before a b) : Compares a b .first
  | after {a b : Node} (hs : sort a ∈ [.number, .string, .boolean]) (h : Before b a) : Compares a b .second
  | same {a : Node} (hs : sort a ∈ [.number, .string, .boolean]) (h : a ≠ .num .nan) : Compares a a .equal
  | nanLeft (n : Num) : Compares (.num .nan) (.num n) .nan
  | nanRight (n : Num) : Compares (.num n) (.num .nan) .nan
  | truth {b : Bool} {n : Num} {o : Outcome} (h : Compares (.num (.fin (if b then 1 else 0))) (.num n) o) : Compares (.bool b) (.num n) o
  | item {xs ys : List Node} {i : Nat} {x y : Node} {o : Outcome} (hx : xs[i]? = some x) (hy : ys[i]? = some y)
      (hb : ∀ j < i, ∀ u v, xs[j]? = some u → ys[j]? = some v → Same u v) (hs : ¬ Same x y) (hc : ¬ Clash x y) (h : Compares x y o) :
    Compares (.arr xs) (.arr ys) o
  | clash {xs ys : List Node} {i : Nat} {x y : Node} (hx : xs[i]? = some x) (hy : ys[i]? = some y)
      (hb : ∀ j < i, ∀ u v, xs[j]? = some u → ys[j]? = some v → Same u v) (hc : Clash x y) : Compares (.arr xs) (.arr ys) .typeError
  | shorter {xs ys : List Node} (h : ∀ (i : Nat) x y, xs[i]? = some x → ys[i]? = some y → Same x y) (hl : xs.length < ys.length) : Compares (.arr xs) (.arr ys) .first
  | longer {xs ys : List Node} (h : ∀ (i : Nat) x y, xs[i]? = some x → ys[i]? = some y → Same x y) (hl : ys.length < xs.length) : Compares (.arr xs) (.arr ys) .second
  | equal {xs ys : List Node} (h : ∀ (i : Nat) x y, xs[i]? = some x → ys[i]? = some y → Same x y) (hl : xs.length = ys.length) : Compares (.arr xs) (.arr ys) .equal
  | types {a b : Node} (h : sort a ≠ sort b) (hb : ¬ (sort a = .boolean ∧ sort b = .number)) : Compares a b .typeError
  | null : Compares .null .null .typeError
  | objects (xs ys : List (Str × Node)) : Compares (.obj xs) (.obj ys) .typeError

end Verif.Spec
