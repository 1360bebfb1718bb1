import Verif.Model.Objects
/-! # What C06 and C40–C44 speak about, independent of the functions of the code -/

namespace Verif.Spec
open Verif

/-- The members that mean something to loading. -/
def coreKeys : List Str := [c!"$ref", c!"$anchor", c!"$id", c!"id"]

mutual
/-- No object outside arrays has a member among `ks`. -/
def Without (ks : List Str) : Node → Prop
  | .obj kvs => WithoutD ks kvs
  | _ => True
def WithoutD (ks : List Str) : List (Str × Node) → Prop
  | [] => True
  | (k, x) :: r => k ∉ ks ∧ Without ks x ∧ WithoutD ks r
end

/-- From the object `i`, going down through the members and elements named by the tokens leads to the object `j`. -/
inductive Steps (m : Obj.Mem) : Nat → List Str → Nat → Prop
  | here (i : Nat) : Steps m i [] i
  | member {i j l : Nat} {c : Obj.Cell} {kvs : List (Str × Nat)} {k : Str} {ks : List Str}
      (hc : m[i]? = some c) (hs : c.shape = .obj kvs) (hk : (k, j) ∈ kvs) (h : Steps m j ks l) : Steps m i (k :: ks) l
  | elem {i j l : Nat} {c : Obj.Cell} {xs : List Nat} {t : Nat} {ks : List Str}
      (hc : m[i]? = some c) (hs : c.shape = .arr xs) (hk : xs[t]? = some j) (h : Steps m j ks l) : Steps m i (natStr t :: ks) l

/-- Going down from `n` through the members of objects (not through arrays) by the names `ks` leads to `y`. -/
inductive At : Node → List Str → Node → Prop
  | here (n : Node) : At n [] n
  | member {kvs : List (Str × Node)} {k : Str} {x y : Node} {ks : List Str} (h : (k, x) ∈ kvs) (h' : At x ks y) : At (.obj kvs) (k :: ks) y

/-- Every member `$anchor` outside arrays is a text. -/
def TextAnchors (n : Node) : Prop := ∀ ks kvs x, At n ks (.obj kvs) → (c!"$anchor", x) ∈ kvs → ∃ a, x = .str a

/-- In the loaded document, going down from `i` through the members of objects, and through the own members of references,
leads to `j`. -/
inductive Below (m : Obj.Mem) : Nat → List Str → Nat → Prop
  | here (i : Nat) : Below m i [] i
  | member {i j l : Nat} {c : Obj.Cell} {kvs : List (Str × Nat)} {k : Str} {ks : List Str}
      (hc : m[i]? = some c) (hs : c.shape = .obj kvs) (hk : (k, j) ∈ kvs) (h : Below m j ks l) : Below m i (k :: ks) l
  | own {i j l n e : Nat} {ptr : List Str} {c c' : Obj.Cell} {kvs : List (Str × Nat)} {k : Str} {ks : List Str}
      (hc : m[i]? = some c) (hs : c.shape = .ref n e ptr) (hc' : m[n]? = some c') (hs' : c'.shape = .obj kvs) (hk : (k, j) ∈ kvs)
      (h : Below m j ks l) : Below m i (k :: ks) l

mutual
/-- The named objects outside arrays, each with the path of its object, those inside an object before it. -/
def anchorsUp : Node → List Str → List (Str × List Str)
  | .obj kvs, pre => anchorsUpD kvs pre ++ (match dictGet c!"$anchor" kvs with | some (.str a) => [(a, pre)] | _ => [])
  | _, _ => []
def anchorsUpD : List (Str × Node) → List Str → List (Str × List Str)
  | [], _ => []
  | (k, x) :: r, pre => anchorsUp x (pre ++ [k]) ++ anchorsUpD r pre
end

mutual
/-- The named objects outside arrays in the order of the document: an object before those inside it. -/
def anchorsDown : Node → List Str → List (Str × List Str)
  | .obj kvs, pre => (match dictGet c!"$anchor" kvs with | some (.str a) => [(a, pre)] | _ => []) ++ anchorsDownD kvs pre
  | _, _ => []
def anchorsDownD : List (Str × Node) → List Str → List (Str × List Str)
  | [], _ => []
  | (k, x) :: r, pre => anchorsDown x (pre ++ [k]) ++ anchorsDownD r pre
end

/-- The path under the name `a` that comes last. -/
def lastOf {α : Type} (a : Str) (L : List (Str × α)) : Option α := (L.filter fun p => p.1 = a).getLast?.map Prod.snd

/-- A text `$ref` that has nothing but a fragment, which is a pointer. -/
def LocalRef (ip : Rfc3986.IpRe) (t : Str) : Prop :=
  ∃ u b ptr, Uri.parse ip t = .ok u ∧ Pointer.parse u.fragment = .ok ptr ∧ Uri.baseUri ip u = .ok b ∧ Uri.truth b = false

/-- One object of a document that refers only to itself: no `$id`, no `id`; `$ref` is a local reference and has no `$anchor`
beside it; `$anchor` is a text. -/
structure LocalObject (ip : Rfc3986.IpRe) (kvs : List (Str × Node)) : Prop where
  noId : c!"$id" ∉ kvs.map Prod.fst ∧ c!"id" ∉ kvs.map Prod.fst
  ref : c!"$ref" ∈ kvs.map Prod.fst → c!"$anchor" ∉ kvs.map Prod.fst ∧ ∃ t, dictGet c!"$ref" kvs = some (.str t) ∧ LocalRef ip t
  anchor : c!"$anchor" ∈ kvs.map Prod.fst → ∃ a, dictGet c!"$anchor" kvs = some (.str a)

mutual
/-- All objects outside arrays refer only to the document. -/
def LocalDoc (ip : Rfc3986.IpRe) : Node → Prop
  | .obj kvs => LocalObject ip kvs ∧ LocalDocD ip kvs
  | _ => True
def LocalDocD (ip : Rfc3986.IpRe) : List (Str × Node) → Prop
  | [] => True
  | (_, x) :: r => LocalDoc ip x ∧ LocalDocD ip r
end

end Verif.Spec
