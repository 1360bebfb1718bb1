import Verif.Spec.Bridge
/-!
# Documents that refer to documents loaded before

`docs` are the documents loaded so far, `store` says which of them has which identifier.
-/

namespace Verif.Spec
open Verif

/-- The number of the document a reference leads to: the document `d` itself when there is nothing but a fragment, else the one that has the
identifier. -/
def refDoc (ip : Rfc3986.IpRe) (store : List (Str × Nat)) (d : Nat) (t : Str) : Nat := match Uri.parse ip t with
  | .ok u => match Store.baseText ip u with
    | .ok k => if k = [] then d else (dictGet k store).getD d
    | _ => d
  | _ => d

mutual
/-- The data with its references seen as such; `link` says which document a text leads to.  Outside arrays, an object with `$ref` is a reference;
any other loses its `$anchor`. -/
def resolveIn (ip : Rfc3986.IpRe) (link : Str → Nat) : Node → Node
  | .obj kvs => match dictGet c!"$ref" kvs with
    | some (.str t) => .ref (resolveInD ip link kvs) (link t) (refPointer ip t)
    | _ => .obj (dictDel c!"$anchor" (resolveInD ip link kvs))
  | n => n
def resolveInD (ip : Rfc3986.IpRe) (link : Str → Nat) : List (Str × Node) → List (Str × Node)
  | [] => []
  | (k, x) :: r => (k, resolveIn ip link x) :: resolveInD ip link r
end

mutual
/-- The objects with an `$anchor` outside arrays, those inside an object before it. -/
def anchoredIn (ip : Rfc3986.IpRe) (link : Str → Nat) : Node → List (Str × Node)
  | .obj kvs => anchoredInD ip link kvs ++ (match dictGet c!"$anchor" kvs with | some (.str a) => [(a, resolveIn ip link (.obj kvs))] | _ => [])
  | _ => []
def anchoredInD (ip : Rfc3986.IpRe) (link : Str → Nat) : List (Str × Node) → List (Str × Node)
  | [] => []
  | (_, x) :: r => anchoredIn ip link x ++ anchoredInD ip link r
end

/-- The document made from the data; of equal anchors the last counts. -/
def docIn (ip : Rfc3986.IpRe) (link : Str → Nat) (n : Node) : Doc :=
  ⟨resolveIn ip link n, (anchoredIn ip link n).foldl (fun acc p => dictSet p.1 p.2 acc) []⟩

/-- The member that names a document. -/
def nameKey {α : Type} (kvs : List (Str × α)) : Str := if dictHas c!"$id" kvs then c!"$id" else c!"id"

/-- The identifier the data gives its document, without fragment. -/
def nameOf (ip : Rfc3986.IpRe) (kvs : List (Str × Node)) : Option Str := match dictGet (nameKey kvs) kvs with
  | some (.str t) => match Uri.parse ip t with
    | .ok u => match Store.baseText ip u with
      | .ok k => some k
      | _ => none
    | _ => none
  | _ => none

/-- The identifiers after loading the document `d`: a taken one stays with its document. -/
def named (ip : Rfc3986.IpRe) (store : List (Str × Nat)) (d : Nat) (kvs : List (Str × Node)) : List (Str × Nat) := match nameOf ip kvs with
  | some k => if dictHas k store then store else dictSet k d store
  | none => store

/-- The pointer leads to an object with the members `m`. -/
def Leads (docs : List Doc) (e : Nat) (ptr : List Str) (m : List (Str × Node)) : Prop :=
  ∃ D f frag, docs[e]? = some D ∧ queryDoc (view docs f) D ptr = .ok frag ∧ view docs f frag = .ok (.obj m)

/-- A reference to an object of a document loaded before; that object has none of the members that mean something to loading. -/
def LinkedRef (ip : Rfc3986.IpRe) (docs : List Doc) (store : List (Str × Nat)) (t : Str) : Prop :=
  ∃ u b ptr e m, Uri.parse ip t = .ok u ∧ Pointer.parse u.fragment = .ok ptr ∧ Uri.baseUri ip u = .ok b ∧ Uri.text b ≠ [] ∧
    dictGet (Uri.text b) store = some e ∧ Leads docs e ptr m ∧ ∀ k ∈ [c!"$anchor", c!"$id", c!"id"], k ∉ m.map Prod.fst

/-- A reference in a document that can be loaded. -/
def KnownRef (ip : Rfc3986.IpRe) (docs : List Doc) (store : List (Str × Nat)) (t : Str) : Prop := LocalRef ip t ∨ LinkedRef ip docs store t

/-- One object: `$ref` is a text, of which `P` holds, and has no `$anchor` beside it; `$anchor` is a text. -/
structure CoreObject (P : Str → Prop) (kvs : List (Str × Node)) : Prop where
  ref : c!"$ref" ∈ kvs.map Prod.fst → c!"$anchor" ∉ kvs.map Prod.fst ∧ ∃ t, dictGet c!"$ref" kvs = some (.str t) ∧ P t
  anchor : c!"$anchor" ∈ kvs.map Prod.fst → ∃ a, dictGet c!"$anchor" kvs = some (.str a)

/-- No member that names a document. -/
def Nameless (kvs : List (Str × Node)) : Prop := c!"$id" ∉ kvs.map Prod.fst ∧ c!"id" ∉ kvs.map Prod.fst

mutual
/-- All objects outside arrays are such, and none of them names a document. -/
def Linked (P : Str → Prop) : Node → Prop
  | .obj kvs => Nameless kvs ∧ CoreObject P kvs ∧ LinkedD P kvs
  | _ => True
def LinkedD (P : Str → Prop) : List (Str × Node) → Prop
  | [] => True
  | (_, x) :: r => Linked P x ∧ LinkedD P r
end

/-- An absolute identifier without fragment. -/
def GoodName (ip : Rfc3986.IpRe) (t : Str) : Prop := ∃ u, Uri.parse ip t = .ok u ∧ u.fragment = [] ∧ Uri.isAbsolute ip u = .ok true

/-- A document that can be loaded: as above, but its root may have a name. -/
structure LinkedRoot (ip : Rfc3986.IpRe) (P : Str → Prop) (kvs : List (Str × Node)) : Prop where
  kids : LinkedD P kvs
  core : CoreObject P kvs
  name : Nameless kvs ∨ (c!"$ref" ∉ kvs.map Prod.fst ∧ ∃ t, dictGet (nameKey kvs) kvs = some (.str t) ∧ GoodName ip t)

/-- The documents and identifiers after loading documents in turn. -/
def linkAll (ip : Rfc3986.IpRe) : List Doc → List (Str × Nat) → List (List (Str × Val)) → List Doc × List (Str × Nat)
  | docs, store, [] => (docs, store)
  | docs, store, kvs :: vs =>
    linkAll ip (docs ++ [docIn ip (refDoc ip store docs.length) (wrap (.dict kvs))]) (named ip store docs.length (wrapDict kvs)) vs

/-- Each of the documents can be loaded after those before it. -/
def LinkedAll (ip : Rfc3986.IpRe) : List Doc → List (Str × Nat) → List (List (Str × Val)) → Prop
  | _, _, [] => True
  | docs, store, kvs :: vs => LinkedRoot ip (KnownRef ip docs store) (wrapDict kvs) ∧
    LinkedAll ip (docs ++ [docIn ip (refDoc ip store docs.length) (wrap (.dict kvs))]) (named ip store docs.length (wrapDict kvs)) vs

end Verif.Spec
