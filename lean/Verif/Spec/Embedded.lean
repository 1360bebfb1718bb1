import Verif.Spec.Linked
/-!
# Objects with an identifier inside a document
-/

namespace Verif.Spec
open Verif

/-- The name of a document, if it is a text. -/
def nameText (kvs : List (Str × Node)) : Option Str := match dictGet (nameKey kvs) kvs with
  | some (.str t) => some t
  | _ => none

/-- What the name of an embedded object stands for: itself when it is absolute, else it is relative to the name of the root. -/
def fullUri (ip : Rfc3986.IpRe) (base : Option Str) (u : Uri) : Option Uri := match Uri.isAbsolute ip u with
  | .ok true => some u
  | .ok false => match base with
    | some b => match Uri.parse ip b with
      | .ok b => match Uri.resolve ip b u with
        | .ok v => some v
        | _ => none
      | _ => none
    | none => none
  | _ => none

/-- The identifier of an embedded object with the name `t`, if it has one: without fragment and, in full, absolute. -/
def fullName (ip : Rfc3986.IpRe) (base : Option Str) (t : Str) : Option Str := match Uri.parse ip t with
  | .ok u => if u.fragment = [] then
      match fullUri ip base u with
      | some v => match Uri.isAbsolute ip v with
        | .ok true => match Store.baseText ip v with
          | .ok k => some k
          | _ => none
        | _ => none
      | none => none
    else none
  | _ => none

/-- An object with an identifier: the identifier, the path, the members. -/
structure Embed where
  key : Str
  path : List Str
  its : List (Str × Node)

/-- The identifier of the object at `pre`; in `enum`, objects have none. -/
def ownKey (ip : Rfc3986.IpRe) (base : Option Str) (kvs : List (Str × Node)) (pre : List Str) : Option Str :=
  if c!"enum" ∈ pre then none else (nameText kvs).bind (fullName ip base)

mutual
/-- The objects outside arrays and outside `enum` that have an identifier, those inside an object before it. -/
def embeds (ip : Rfc3986.IpRe) (base : Option Str) : Node → List Str → List Embed
  | .obj kvs, pre => embedsD ip base kvs pre ++ (match ownKey ip base kvs pre with | some k => [⟨k, pre, kvs⟩] | none => [])
  | _, _ => []
def embedsD (ip : Rfc3986.IpRe) (base : Option Str) : List (Str × Node) → List Str → List Embed
  | [], _ => []
  | (k, x) :: r, pre => embeds ip base x (pre ++ [k]) ++ embedsD ip base r pre
end

/-- An acceptable name of an object inside a document. -/
def NameOk (ip : Rfc3986.IpRe) (base : Option Str) (pre : List Str) (t : Str) : Prop :=
  if c!"enum" ∈ pre then ∃ u, Uri.parse ip t = .ok u ∧ u.fragment = [] else ∃ k, fullName ip base t = some k

/-- One object of a document: `$ref` is a local reference without `$anchor`, `$id` and `id` beside it; `$anchor` is a text; so is the name. -/
structure NamedObject (ip : Rfc3986.IpRe) (base : Option Str) (pre : List Str) (kvs : List (Str × Node)) : Prop where
  core : CoreObject (LocalRef ip) kvs
  name : Nameless kvs ∨ (c!"$ref" ∉ kvs.map Prod.fst ∧ ∃ t, dictGet (nameKey kvs) kvs = some (.str t) ∧ NameOk ip base pre t)

mutual
/-- All objects outside arrays are such. -/
def NamedDoc (ip : Rfc3986.IpRe) (base : Option Str) : Node → List Str → Prop
  | .obj kvs, pre => NamedObject ip base pre kvs ∧ NamedDocD ip base kvs pre
  | _, _ => True
def NamedDocD (ip : Rfc3986.IpRe) (base : Option Str) : List (Str × Node) → List Str → Prop
  | [], _ => True
  | (k, x) :: r, pre => NamedDoc ip base x (pre ++ [k]) ∧ NamedDocD ip base r pre
end

/-- A document: the root may have an absolute name. -/
structure NamedRoot (ip : Rfc3986.IpRe) (kvs : List (Str × Node)) : Prop where
  kids : NamedDocD ip (nameText kvs) kvs []
  core : CoreObject (LocalRef ip) kvs
  name : Nameless kvs ∨ (c!"$ref" ∉ kvs.map Prod.fst ∧ ∃ t, dictGet (nameKey kvs) kvs = some (.str t) ∧ GoodName ip t)

mutual
/-- The data without the anchors outside arrays. -/
def unanchored : Node → Node
  | .obj kvs => .obj (dictDel c!"$anchor" (unanchoredD kvs))
  | n => n
def unanchoredD : List (Str × Node) → List (Str × Node)
  | [] => []
  | (k, x) :: r => (k, unanchored x) :: unanchoredD r
end

/-- In the data, the tokens lead from `n` to `z`. -/
inductive Reach : Node → List Str → Node → Prop
  | here (n : Node) : Reach n [] n
  | member {kvs : List (Str × Node)} {k : Str} {x z : Node} {ks : List Str} (h : dictGet k kvs = some x) (h' : Reach x ks z) : Reach (.obj kvs) (k :: ks) z
  | elem {xs : List Node} {t : Nat} {x z : Node} {ks : List Str} (h : xs[t]? = some x) (small : (natStr t).length ≤ 4300) (h' : Reach x ks z) :
      Reach (.arr xs) (natStr t :: ks) z

/-- Reading through an identifier: `JsonStore.load` with a URI (json_store.py 80-90), then `query` (json_core.py 171-201). -/
def readBy (E : Obj.Env) (f : Nat) (voc : List Kw) (u : Uri) (ptr : List Str) : Obj.M Nat := do
  let e ← Obj.storeLoad E u voc
  (Obj.ops E f).query e ptr

/-- Reading in turn: identifiers and pointers. -/
def readAll (E : Obj.Env) (f : Nat) (voc : List Kw) : List (Uri × List Str) → Obj.M (List Nat)
  | [] => pure []
  | (u, ptr) :: r => do
    let j ← readBy E f voc u ptr
    let js ← readAll E f voc r
    pure (j :: js)

end Verif.Spec
