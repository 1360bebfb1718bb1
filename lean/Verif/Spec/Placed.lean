import Verif.Spec.Load
/-! # What C06 speaks about in documents with references -/

namespace Verif.Spec
open Verif

/-- From the object `i`, going down through the members and elements named by the tokens, also through the own members of references (those
written beside `$ref`), leads to the object `j`. -/
inductive Inside (m : Obj.Mem) : Nat → List Str → Nat → Prop
  | here (i : Nat) : Inside m i [] i
  | member {i j l : Nat} {c : Obj.Cell} {kvs : List (Str × Nat)} {k : Str} {ks : List Str}
      (hc : m[i]? = some c) (hs : c.shape = .obj kvs) (hk : (k, j) ∈ kvs) (h : Inside m j ks l) : Inside m i (k :: ks) l
  | elem {i j l : Nat} {c : Obj.Cell} {xs : List Nat} {t : Nat} {ks : List Str}
      (hc : m[i]? = some c) (hs : c.shape = .arr xs) (hk : xs[t]? = some j) (h : Inside m j ks l) : Inside m i (natStr t :: ks) l
  | own {i j l n e : Nat} {ptr : List Str} {c c' : Obj.Cell} {kvs : List (Str × Nat)} {k : Str} {ks : List Str}
      (hc : m[i]? = some c) (hs : c.shape = .ref n e ptr) (hc' : m[n]? = some c') (hs' : c'.shape = .obj kvs) (hk : (k, j) ∈ kvs)
      (h : Inside m j ks l) : Inside m i (k :: ks) l

end Verif.Spec
