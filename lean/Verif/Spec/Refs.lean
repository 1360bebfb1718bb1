import Verif.Model.Schema
/-!
# References, for C39 and C45

What a reference shows, and which references are looked through to follow another one.
-/

namespace Verif.Spec
open Verif

/-- `all` is `theirs` and those of `own` that `theirs` does not define, without `$ref`. -/
def Merged {β : Type} (own theirs all : List (Str × β)) : Prop :=
  (all.map Prod.fst).Nodup ∧ ∀ k, dictGet k all = (dictGet k theirs).or (if k = c!"$ref" then none else dictGet k own)

/-- From the node `n`, what is reached by one more name; a reference is first replaced by what it shows. -/
def Next (docs : List Doc) (n : Node) (k : Str) (n' : Node) : Prop :=
  ∃ f v, view docs f n = .ok v ∧ queryStep n v k = .ok n'

/-- To follow the names from the node `n` and look at what is there, the reference to `x` has to be followed. -/
inductive Meets (docs : List Doc) : Node → List Str → Nat × List Str → Prop
  | here (own : List (Str × Node)) (x : Nat × List Str) (ks : List Str) : Meets docs (.ref own x.1 x.2) ks x
  | next {n n' : Node} {k : Str} {ks : List Str} {x : Nat × List Str} (h : Next docs n k n') (h' : Meets docs n' ks x) : Meets docs n (k :: ks) x

/-- Where the pointer starts in a document, and what remains of it: a single name may be an anchor, and a single empty name is the
document itself. -/
def startOf (doc : Doc) (p : List Str) : Node × List Str :=
  match p with
  | [k] => match dictGet k doc.anchors with
    | some n => (n, [])
    | none => if k = [] then (doc.root, []) else (doc.root, [k])
  | p => (doc.root, p)

/-- To see what a reference to `y` shows, the reference to `x` has to be followed. -/
def Needs (docs : List Doc) (x y : Nat × List Str) : Prop :=
  ∃ doc, docs[y.1]? = some doc ∧ Meets docs (startOf doc y.2).1 (startOf doc y.2).2 x

/-! ## Where a schema has subschemas -/

/-- Keywords whose value is a schema. -/
def valueKeys : List Str :=
  [c!"contains", c!"items", c!"additionalItems", c!"additionalProperties", c!"propertyNames", c!"not", c!"if", c!"then", c!"else"]
/-- Keywords whose value is an array of schemas. -/
def elementKeys : List Str := [c!"items", c!"prefixItems", c!"allOf", c!"anyOf", c!"oneOf"]
/-- Keywords whose value is an object of schemas. -/
def mapKeys : List Str := [c!"properties", c!"patternProperties", c!"dependentSchemas"]

/-- The schema object with these members has the subschema `n` under the keyword `k`.  `view` tells what a reference shows. -/
def SubAt (view : Node → Res Node) (items : List (Str × Node)) (k : Str) (n : Node) : Prop :=
  ∃ m, dictGet k items = some m ∧
    ((k ∈ valueKeys ∧ n = m) ∨ (k ∈ elementKeys ∧ ∃ xs, view m = .ok (.arr xs) ∧ n ∈ xs) ∨
      (k ∈ mapKeys ∧ ∃ kvs s, view m = .ok (.obj kvs) ∧ (s, n) ∈ kvs))

/-- Keywords whose subschemas are applied to the value itself.  `contains` iterates over whatever it is given; the characters
of a text are texts again. -/
def inPlaceKeys : List Str :=
  [c!"allOf", c!"anyOf", c!"oneOf", c!"not", c!"if", c!"then", c!"else", c!"dependentSchemas", c!"contains"]

end Verif.Spec

namespace Verif

mutual
/-- How deep lists and dictionaries are nested in a value. -/
def Val.nest : Val → Nat
  | .list xs => 1 + Val.nestL xs
  | .dict kvs => 1 + Val.nestD kvs
  | _ => 0
def Val.nestL : List Val → Nat
  | [] => 0
  | x :: xs => max x.nest (Val.nestL xs)
def Val.nestD : List (Str × Val) → Nat
  | [] => 0
  | (_, x) :: xs => max x.nest (Val.nestD xs)
end

/-- A set `S` of schemas with their subschemas: what each of them and each of their members shows can be found out; a subschema that a keyword of the
vocabulary applies to the value itself is of lower rank; and no array of schemas under `items` or `prefixItems` has more than `B` elements. -/
structure Spec.Ranked (docs : List Doc) (voc : List Kw) (B : Nat) (S : Node → Prop) (rank : Node → Nat) : Prop where
  shows : ∀ n, S n → ∃ f, view docs f n ≠ .timeout
  member : ∀ n f items k m, S n → view docs f n = .ok (.obj items) → dictGet k items = some m → ∃ g, view docs g m ≠ .timeout
  sub : ∀ n f items k m, S n → view docs f n = .ok (.obj items) → SubAt (view docs f) items k m → S m
  inPlace : ∀ n f items k m, S n → view docs f n = .ok (.obj items) →
    k ∈ inPlaceKeys → k ∈ voc.map Kw.key → SubAt (view docs f) items k m → rank m < rank n
  short : ∀ n f items, S n → view docs f n = .ok (.obj items) → ∀ k ∈ voc, k = .items ∨ k = .prefixItems →
    ∀ m xs, dictGet k.key items = some m → view docs f m = .ok (.arr xs) → xs.length ≤ B

end Verif
