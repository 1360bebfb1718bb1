import Verif.Spec.Linked
/-!
# Documents found by the loader

A reference to a document that is not there yet asks the loader for it; the document is made, and loaded later.
-/

namespace Verif.Spec
open Verif

/-- The pointer leads to an object, without passing a reference; the object has none of the members that mean something to loading. -/
def PlainLeads (D : Doc) (ptr : List Str) : Prop :=
  ∃ f m, queryDoc (view [] f) D ptr = .ok (.obj m) ∧ ∀ k ∈ [c!"$anchor", c!"$id", c!"id"], k ∉ m.map Prod.fst

/-- If the text names a document, its identifier is known. -/
def Known (ip : Rfc3986.IpRe) (store : List (Str × Nat)) (t : Str) : Prop :=
  ∀ u k, Uri.parse ip t = .ok u → Store.baseText ip u = .ok k → k ≠ [] → ∃ e, dictGet k store = some e

/-- The documents made from the data, when all references lead where `store` says. -/
def docsIn (ip : Rfc3986.IpRe) (store : List (Str × Nat)) (data : List (List (Str × Val))) : List Doc :=
  data.mapIdx fun d kvs => docIn ip (refDoc ip store d) (wrap (.dict kvs))

/-- A reference that can be loaded: into the same document, or to data the loader finds.  `lib k kvs` says that the identifier `k` may stand for the
data `kvs`; in all of these the reference leads to an object, whatever other references lead to. -/
def WebRef (ip : Rfc3986.IpRe) (file : Uri → Res Val) (lib : Str → List (Str × Val) → Prop) (t : Str) : Prop :=
  LocalRef ip t ∨ ∃ u k ptr kvs, Uri.parse ip t = .ok u ∧ Pointer.parse u.fragment = .ok ptr ∧ Store.baseText ip u = .ok k ∧ k ≠ [] ∧
    file u = .ok (.dict kvs) ∧ lib k kvs ∧ ∀ kvs', lib k kvs' → ∀ link, PlainLeads (docIn ip link (wrap (.dict kvs'))) ptr

/-- Data of a document all references of which are such; the identifier it gives itself may stand for it. -/
structure WebDoc (ip : Rfc3986.IpRe) (file : Uri → Res Val) (lib : Str → List (Str × Val) → Prop) (kvs : List (Str × Val)) : Prop where
  root : LinkedRoot ip (WebRef ip file lib) (wrapDict kvs)
  name : ∀ k, nameOf ip (wrapDict kvs) = some k → lib k kvs

end Verif.Spec

namespace Verif.Obj
open Verif Verif.Spec

/-- The states of programs that create schemas from such data, ask the store for documents of the library and load schemas, in any order.  `made` are the
schemas created, with their data. -/
inductive Reached (E : Env) (voc : List Kw) (lib : Str → List (Str × Val) → Prop) : List (Nat × List (Str × Val)) → St → Prop
  | empty : Reached E voc lib [] St.empty
  | create {made : List (Nat × List (Str × Val))} {s s' : St} {kvs : List (Str × Val)} {d : Nat} (before : Reached E voc lib made s)
      (fit : WebDoc E.ip E.file lib kvs) (call : newDocument (.dict kvs) voc s = (.ok d, s')) : Reached E voc lib ((d, kvs) :: made) s'
  | find {made : List (Nat × List (Str × Val))} {s s' : St} {u : Uri} {k : Str} {kvs : List (Str × Val)} {x : Res Nat} (before : Reached E voc lib made s)
      (name : Store.baseText E.ip u = .ok k) (file : E.file u = .ok (.dict kvs)) (fit : lib k kvs) (call : storeLoad E u voc s = (x, s')) : Reached E voc lib made s'
  | load {made : List (Nat × List (Str × Val))} {s s' : St} {d : Nat} {x : Res Unit} (before : Reached E voc lib made s)
      (there : d < s.docs.length) (call : ∃ f0, ∀ f, f0 ≤ f → (ops E f).load d s = (x, s')) : Reached E voc lib made s'

/-- From `s`, loading schemas leads to `s'`. -/
inductive LoadsSome (E : Env) : St → St → Prop
  | nil (s : St) : LoadsSome E s s
  | cons {s s1 s' : St} {d : Nat} (there : d < s.docs.length) (load : ∃ f0, ∀ f, f0 ≤ f → (ops E f).load d s = (.ok (), s1)) (rest : LoadsSome E s1 s') : LoadsSome E s s'

end Verif.Obj
