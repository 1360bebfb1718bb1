import Verif.Model.Schema
/-!
# Schemas that differ in the order of members only (C99)

An object is an unordered collection of members (RFC 8259, section 1): two objects are the same if they have the same names, and the same under each name.
-/

namespace Verif.Spec
open Verif

/-- The same JSON, with the members of the objects inside possibly in another order.  The members beside a `$ref` may change places as well. -/
inductive Shuffled : Node → Node → Prop
  | null : Shuffled .null .null
  | bool (b : Bool) : Shuffled (.bool b) (.bool b)
  | num (x : Num) : Shuffled (.num x) (.num x)
  | str (s : Str) : Shuffled (.str s) (.str s)
  | arr {xs ys : List Node} (hl : xs.length = ys.length) (h : ∀ (i : Nat) (x y : Node), xs[i]? = some x → ys[i]? = some y → Shuffled x y) :
    Shuffled (.arr xs) (.arr ys)
  | obj {a b : List (Str × Node)} (ha : (a.map Prod.fst).Nodup) (hb : (b.map Prod.fst).Nodup) (hk : ∀ k, k ∈ a.map Prod.fst ↔ k ∈ b.map Prod.fst)
    (h : ∀ k x y, (k, x) ∈ a → (k, y) ∈ b → Shuffled x y) : Shuffled (.obj a) (.obj b)
  | ref {a b : List (Str × Node)} {doc : Nat} {ptr : List Str} (ha : (a.map Prod.fst).Nodup) (hb : (b.map Prod.fst).Nodup)
    (hk : ∀ k, k ∈ a.map Prod.fst ↔ k ∈ b.map Prod.fst) (h : ∀ k x y, (k, x) ∈ a → (k, y) ∈ b → Shuffled x y) : Shuffled (.ref a doc ptr) (.ref b doc ptr)

/-- The same documents, each up to the order of members. -/
structure ShuffledDocs (docs docs' : List Doc) : Prop where
  len : docs.length = docs'.length
  root : ∀ (i : Nat) (d d' : Doc), docs[i]? = some d → docs'[i]? = some d' → Shuffled d.root d'.root
  names : ∀ (i : Nat) (d d' : Doc), docs[i]? = some d → docs'[i]? = some d' → ∀ k, dictGet k d.anchors = none ↔ dictGet k d'.anchors = none
  anchors : ∀ (i : Nat) (d d' : Doc), docs[i]? = some d → docs'[i]? = some d' → ∀ k x y, dictGet k d.anchors = some x → dictGet k d'.anchors = some y → Shuffled x y

end Verif.Spec
