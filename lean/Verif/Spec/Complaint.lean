import Verif.Spec.Validate
import Verif.Spec.Compare
import Verif.Model.Keywords
/-!
# What is wrong with a value, by the code of the error (C98)

`its` are the members of an object schema.  `sees n m`: the node `n` is `m`, or a reference to it.  `passes s y`, `fails s y`: the schema `s` accepts or rejects
`y`; `counts s y`: it accepts `y` as an item of a list looked at by `contains`.  From the model only data types are used, and what `World` says about regular
expressions and formats.
-/

namespace Verif.Spec
open Verif

section
variable (w : World) (voc : List Kw) (sees : Node → Node → Prop) (passes fails counts : Node → Val → Prop) (its : List (Str × Node))

/-- The schema has the keyword, the vocabulary knows it, and this is its value. -/
def HasKw (k : Kw) (n : Node) : Prop := k ∈ voc ∧ dictGet k.key its = some n

/-- The member name is neither listed in `properties` nor found by a pattern of `patternProperties`. -/
def Unlisted (k : Str) : Prop :=
  (∀ n ps, HasKw voc its .properties n → sees n (.obj ps) → k ∉ ps.map Prod.fst) ∧
  ∀ n ps p s m, HasKw voc its .patternProperties n → sees n (.obj ps) → (p, s) ∈ ps → w.search p = some m → m k = false

/-- The schema `s`, inside the schema with members `its`, says something about `z`, which is found in `y` at the place `q`. -/
inductive Speaks : Val → Node → Val → List Str → Prop
  | allOf {n s : Node} {xs : List Node} (y : Val) (h : HasKw voc its .allOf n) (hn : sees n (.arr xs)) (hs : s ∈ xs) : Speaks y s y []
  | anyOf {n s : Node} {xs : List Node} (y : Val) (h : HasKw voc its .anyOf n) (hn : sees n (.arr xs)) (hs : s ∈ xs) : Speaks y s y []
  | oneOf {n s : Node} {xs : List Node} (y : Val) (h : HasKw voc its .oneOf n) (hn : sees n (.arr xs)) (hs : s ∈ xs) : Speaks y s y []
  | then {i s : Node} {y : Val} (hi : HasKw voc its .if i) (hp : passes i y) (h : HasKw voc its .then s) : Speaks y s y []
  | else {i s : Node} {y : Val} (hi : HasKw voc its .if i) (hp : fails i y) (h : HasKw voc its .else s) : Speaks y s y []
  | dependent {n s : Node} {m : List (Str × Node)} {kvs : List (Str × Val)} {k : Str} (h : HasKw voc its .dependentSchemas n) (hn : sees n (.obj m))
    (hs : (k, s) ∈ m) (hk : k ∈ kvs.map Prod.fst) : Speaks (.dict kvs) s (.dict kvs) []
  /-- `prefixItems`, or `items` given as an array -/
  | prefix {n s : Node} {xs : List Node} {ys : List Val} {i : Nat} {y : Val} (h : HasKw voc its .prefixItems n ∨ HasKw voc its .items n)
    (hn : sees n (.arr xs)) (hs : xs[i]? = some s) (hy : ys[i]? = some y) : Speaks (.list ys) s y [natStr i]
  /-- where the list is too short, the code puts `null` in place of the first missing item -/
  | missing {n s : Node} {xs : List Node} {ys : List Val} (h : HasKw voc its .prefixItems n ∨ HasKw voc its .items n)
    (hn : sees n (.arr xs)) (hs : xs[ys.length]? = some s) : Speaks (.list ys) s .null [natStr ys.length]
  | items {s : Node} {ys : List Val} {i : Nat} {y : Val} (h : HasKw voc its .items s) (hn : ∀ xs, ¬ sees s (.arr xs)) (hy : ys[i]? = some y) :
    Speaks (.list ys) s y [natStr i]
  | additionalItems {n s : Node} {xs : List Node} {ys : List Val} {i : Nat} {y : Val} (h : HasKw voc its .items n) (hn : sees n (.arr xs))
    (hs : dictGet c!"additionalItems" its = some s) (hi : xs.length ≤ i) (hy : ys[i]? = some y) : Speaks (.list ys) s y [natStr i]
  | property {n s : Node} {ps : List (Str × Node)} {kvs : List (Str × Val)} {k : Str} {y : Val} (h : HasKw voc its .properties n) (hn : sees n (.obj ps))
    (hs : (k, s) ∈ ps) (hy : (k, y) ∈ kvs) : Speaks (.dict kvs) s y [k]
  | pattern {n s : Node} {ps : List (Str × Node)} {p : Str} {m : Str → Bool} {kvs : List (Str × Val)} {k : Str} {y : Val}
    (h : HasKw voc its .patternProperties n) (hn : sees n (.obj ps)) (hs : (p, s) ∈ ps) (hp : w.search p = some m) (hm : m k = true) (hy : (k, y) ∈ kvs) :
    Speaks (.dict kvs) s y [k]
  | additional {s : Node} {kvs : List (Str × Val)} {k : Str} {y : Val} (h : HasKw voc its .additionalProperties s) (hk : Unlisted w voc sees its k)
    (hy : (k, y) ∈ kvs) : Speaks (.dict kvs) s y [k]
  | name {s : Node} {kvs : List (Str × Val)} {k : Str} {y : Val} (h : HasKw voc its .propertyNames s) (hy : (k, y) ∈ kvs) :
    Speaks (.dict kvs) s (.str k) [k]

/-- The number a value is compared as: booleans count as numbers, floats are exact, or as they print if the bound is given by reference. -/
def Worth (n : Node) (y : Val) (x : Num) : Prop := y.num? = some x ∨ n.isRef = true ∧ ∃ f, y = .flt f ∧ x = f.shownNum

/-- The number of characters, items or members. -/
inductive Size : Val → Nat → Prop
  | str (s : Str) : Size (.str s) s.length
  | list (xs : List Val) : Size (.list xs) xs.length
  | dict (kvs : List (Str × Val)) : Size (.dict kvs) kvs.length

/-- The keyword is a lower limit for the size, and the value is smaller. -/
def Short (k : Kw) (y : Val) : Prop := ∃ n m l, HasKw voc its k n ∧ sees n (.num (.fin m)) ∧ Size y l ∧ (l : Rat) < m

/-- The keyword is an upper limit for the size, and the value is larger. -/
def Long (k : Kw) (y : Val) : Prop := ∃ n m l, HasKw voc its k n ∧ sees n (.num (.fin m)) ∧ Size y l ∧ m < (l : Rat)

/-- The name `d` is in the list `n`; where that is not a list of strings nothing is said. -/
def Lists (n : Node) (d : Str) : Prop := ∀ ds : List Str, n = .arr (ds.map .str) → d ∈ ds

/-- The items a value consists of; the characters of a string count as items. -/
inductive Items : Val → List Val → Prop
  | list (xs : List Val) : Items (.list xs) xs
  | str (s : Str) : Items (.str s) (s.map fun c => .str [c])
  | dict (kvs : List (Str × Val)) : Items (.dict kvs) (kvs.map fun p => .str p.1)

/-- The decimal number a value stands for: floats as they print, strings as `Decimal` reads them. -/
inductive AsDecimal : Val → Num → Prop
  | int (n : Int) : AsDecimal (.int n) (.fin n)
  | flt (x : Flt) : AsDecimal (.flt x) x.shownNum
  | dec (d : Num) : AsDecimal (.dec d) d
  | str {s : Str} {d : Num} (h : w.parseDec s = some d) : AsDecimal (.str s) d

/-- The value is no multiple; no number is one of an infinity. -/
def NotMultiple (y : Val) (m : Num) : Prop :=
  ∃ d, AsDecimal w y d ∧ (d = .nan ∨ m = .nan ∨ ∃ q, d = .fin q ∧ q ≠ 0 ∧ ((∃ s, m = .inf s) ∨ ∃ b, m = .fin b ∧ ¬ ∃ k : Int, q = b * k))

/-- The name is no member; for a list: no item, for a string: no part of it. -/
inductive Lacks : Val → Str → Prop
  | dict {kvs : List (Str × Val)} {d : Str} (h : d ∉ kvs.map Prod.fst) : Lacks (.dict kvs) d
  | list {xs : List Val} {d : Str} (h : .str d ∉ xs) : Lacks (.list xs) d
  | str {s d : Str} (h : ¬ d <:+: s) : Lacks (.str s) d

open Classical in
/-- What an error with this code and detail says of `y`, at the place `r` in it. -/
inductive Complaint (y : Val) : List Str → Str → Str → Prop
  | type {n : Node} {ts : List Str} (h : HasKw voc its .type n) (hn : (∃ t, n = .str t ∧ ts = [t]) ∨ sees n (.arr (ts.map .str)))
    (hy : ∀ t ∈ ts, t ∈ jsonTypeNames ∧ t ∉ typeNamesOf y) : Complaint y [] c!"type_error" []
  /-- `items` and `prefixItems` refuse what is not a list -/
  | notList (h : ∃ n, HasKw voc its .prefixItems n ∨ HasKw voc its .items n) (hy : ∀ xs, y ≠ .list xs) : Complaint y [] c!"type_error" []
  /-- members that cannot be compared with the value: see C84 -/
  | enum {xs : List Node} (h : HasKw voc its .enum (.arr xs)) (hy : ∀ x ∈ xs, x.Scalar ∨ Comparable x y → ¬ SameJson x y) :
    Complaint y [] c!"enum_error" []
  /-- given by reference, `const` accepts no boolean, and compares floats as they print: see C87 -/
  | const {n x : Node} (h : HasKw voc its .const n) (hn : sees n x)
    (hy : ¬ SameJson x y ∨ n.isRef = true ∧ ((∃ b, y = .bool b) ∨ ∃ e s, y = .flt (.fin e s) ∧ e ≠ s)) : Complaint y [] c!"const_error" []
  /-- 1 counts as true: see C17 -/
  | maximum {n : Node} {m x : Num} (h : HasKw voc its .maximum n) (hn : sees n (.num m)) (hx : Worth n y x)
    (hy : NumBefore m x ∨ m = x ∧ ∃ e, dictGet c!"exclusiveMaximum" its = some e ∧ (sees e (.bool true) ∨ sees e (.num (.fin 1)))) :
    Complaint y [] c!"maximum_error" []
  | exclusiveMaximum {n : Node} {m x : Num} (h : HasKw voc its .exclusiveMaximum n) (hn : sees n (.num m)) (hx : Worth n y x)
    (hy : NumBefore m x ∨ m = x) : Complaint y [] c!"maximum_error" []
  | minimum {n : Node} {m x : Num} (h : HasKw voc its .minimum n) (hn : sees n (.num m)) (hx : Worth n y x)
    (hy : NumBefore x m ∨ m = x ∧ ∃ e, dictGet c!"exclusiveMinimum" its = some e ∧ (sees e (.bool true) ∨ sees e (.num (.fin 1)))) :
    Complaint y [] c!"minimum_error" []
  | exclusiveMinimum {n : Node} {m x : Num} (h : HasKw voc its .exclusiveMinimum n) (hn : sees n (.num m)) (hx : Worth n y x)
    (hy : NumBefore x m ∨ m = x) : Complaint y [] c!"minimum_error" []
  | multipleOf {n : Node} {m : Num} (h : HasKw voc its .multipleOf n) (hn : sees n (.num m))
    (hy : NotMultiple w y m) : Complaint y [] c!"multiple_of_error" []
  | minLength (h : Short voc sees its .minLength y) : Complaint y [] c!"min_length_error" []
  | maxLength (h : Long voc sees its .maxLength y) : Complaint y [] c!"max_length_error" []
  | minItems (h : Short voc sees its .minItems y) : Complaint y [] c!"minimum_items_error" []
  | maxItems (h : Long voc sees its .maxItems y) : Complaint y [] c!"maximum_items_error" []
  | minProperties (h : Short voc sees its .minProperties y) : Complaint y [] c!"minimum_properties_error" []
  | maxProperties (h : Long voc sees its .maxProperties y) : Complaint y [] c!"maximum_properties_error" []
  /-- two items that are equal in Python -/
  | uniqueItems {n : Node} {xs : List Val} {i j : Nat} {a b : Val} (h : HasKw voc its .uniqueItems n) (hn : sees n (.bool true)) (hx : Items y xs)
    (hj : j < i) (ha : xs[j]? = some a) (hb : xs[i]? = some b) (he : pyScalarEq b a = true) : Complaint y [natStr i] c!"unique_items_error" []
  | tooFew {s : Node} {xs : List Val} (h : HasKw voc its .contains s) (hx : Items y xs)
    (hy : dictGet c!"minContains" its = none ∧ (∀ x ∈ xs, ¬ counts s x) ∨
      ∃ n m, dictGet c!"minContains" its = some n ∧ sees n (.num (.fin m)) ∧ ((xs.filter fun x => counts s x).length : Rat) < m) :
    Complaint y [] c!"contains_error" []
  | tooMany {s n : Node} {m : Rat} {xs : List Val} (h : HasKw voc its .contains s) (hx : Items y xs) (hn : dictGet c!"maxContains" its = some n)
    (hm : sees n (.num (.fin m))) (hy : m < ((xs.filter fun x => counts s x).length : Rat)) : Complaint y [] c!"contains_error" []
  /-- `d` is the name of the missing member -/
  | required {n : Node} {xs : List Node} {d : Str} (h : HasKw voc its .required n) (hn : sees n (.arr xs)) (hd : Lists (.arr xs) d)
    (hy : Lacks y d) : Complaint y [] c!"required_property_error" d
  | dependentRequired {n l : Node} {m : List (Str × Node)} {kvs : List (Str × Val)} {k d : Str} (h : HasKw voc its .dependentRequired n)
    (hn : sees n (.obj m)) (hl : (k, l) ∈ m) (hd : Lists l d) (hy : y = .dict kvs) (hk : k ∈ kvs.map Prod.fst) (hm : d ∉ kvs.map Prod.fst) :
    Complaint y [] c!"dependent_error" d
  /-- `d` is the name of the format; given by reference it is the text of the reference: see C87 -/
  | format {n : Node} {d : Str} {check : Val → Res Bool} (h : HasKw voc its .format n) (hn : n = .str d ∨ n.isRef = true) (hc : w.formats d = some check)
    (hy : check y = .ok false) : Complaint y [] c!"format_error" d
  /-- `d` is the pattern -/
  | pattern {n : Node} {d s : Str} {m : Str → Bool} (h : HasKw voc its .pattern n) (hn : n = .str d ∨ n.isRef = true) (hm : w.search d = some m) (hs : y = .str s) (hy : m s = false) :
    Complaint y [] c!"format_error" d
  | not {s : Node} (h : HasKw voc its .not s) (hy : passes s y) : Complaint y [] c!"error" []
  | oneOf {n s t : Node} {xs : List Node} {i j : Nat} (h : HasKw voc its .oneOf n) (hn : sees n (.arr xs)) (hij : i < j) (hs : xs[i]? = some s)
    (ht : xs[j]? = some t) (hy : passes s y ∧ passes t y) : Complaint y [] c!"error" []
  | unexpected {n : Node} {kvs : List (Str × Val)} {k : Str} {x : Val} (h : HasKw voc its .additionalProperties n ∨ HasKw voc its .unevaluatedProperties n)
    (hn : sees n (.bool false)) (hy : y = .dict kvs) (hk : (k, x) ∈ kvs) (hu : Unlisted w voc sees its k) : Complaint y [k] c!"error" []

/-- The schema `S`, reached from `n`, says something about `z`, found in `v` at the place `q`. -/
inductive Spoken : Node → Val → Node → Val → List Str → Prop
  | here (n : Node) (v : Val) : Spoken n v n v []
  | inside {n s S : Node} {v u z : Val} {its : List (Str × Node)} {r q : List Str} (hn : sees n (.obj its)) (hs : Speaks w voc sees passes fails its v s u r)
    (h : Spoken s u S z q) : Spoken n v S z (r ++ q)

end

end Verif.Spec
