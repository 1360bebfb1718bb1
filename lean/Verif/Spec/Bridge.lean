import Verif.Model.Cache
import Verif.Spec.Load
/-!
# Objects and trees

The objects of the memory `m` that make up a tree.  A reference is shown as a reference: its own members, and where it points.
-/

namespace Verif.Obj
open Verif

mutual
/-- The object `i` and those below it are the tree. -/
def Shows (m : Mem) : Node → Nat → Prop
  | .null, i => ∃ c, m[i]? = some c ∧ c.shape = .null
  | .bool b, i => ∃ c, m[i]? = some c ∧ c.shape = .bool b
  | .num n, i => ∃ c, m[i]? = some c ∧ c.shape = .num n
  | .str t, i => ∃ c, m[i]? = some c ∧ c.shape = .str t
  | .arr xs, i => ∃ c ids, m[i]? = some c ∧ c.shape = .arr ids ∧ ShowsL m xs ids
  | .obj kvs, i => ∃ c ids, m[i]? = some c ∧ c.shape = .obj ids ∧ ShowsD m kvs ids
  | .ref own d p, i => ∃ c j c' ids, m[i]? = some c ∧ c.shape = .ref j d p ∧ m[j]? = some c' ∧ c'.shape = .obj ids ∧ ShowsD m own ids
def ShowsL (m : Mem) : List Node → List Nat → Prop
  | [], ids => ids = []
  | x :: xs, ids => ∃ i rest, ids = i :: rest ∧ Shows m x i ∧ ShowsL m xs rest
def ShowsD (m : Mem) : List (Str × Node) → List (Str × Nat) → Prop
  | [], ids => ids = []
  | (k, x) :: xs, ids => ∃ i rest, ids = (k, i) :: rest ∧ Shows m x i ∧ ShowsD m xs rest
end

/-- The schemas of the state, as documents: the same number of them, all loaded, each with its value and its anchors. -/
structure Mirrors (s : St) (docs : List Doc) : Prop where
  length : docs.length = s.docs.length
  doc : ∀ (d : Nat) (x : Schema) (D : Doc), s.docs[d]? = some x → docs[d]? = some D →
    x.ready = true ∧ Shows s.mem D.root x.value ∧ ShowsD s.mem D.anchors x.anchors

/-- From `s`, creating and loading a schema from each dictionary in turn ends in `s'`. -/
inductive LoadsAll (E : Env) (voc : List Kw) : St → List (List (Str × Val)) → St → Prop
  | nil (s : St) : LoadsAll E voc s [] s
  | cons {s s1 s2 s' : St} {kvs : List (Str × Val)} {vs : List (List (Str × Val))} {d : Nat}
      (new : newDocument (.dict kvs) voc s = (.ok d, s1)) (load : ∃ f0, ∀ f, f0 ≤ f → (ops E f).load d s1 = (.ok (), s2))
      (rest : LoadsAll E voc s2 vs s') : LoadsAll E voc s (kvs :: vs) s'

/-- Two results are alike: both return related values, or both raise the same exception, or neither ends. -/
def Alike {α β : Type} (R : α → β → Prop) : Res α → Res β → Prop
  | .ok a, .ok b => R a b
  | .err e, .err e' => e = e'
  | .timeout, .timeout => True
  | _, _ => False

end Verif.Obj

namespace Verif.Spec
open Verif

/-- The pointer written after `#` in a local reference. -/
def refPointer (ip : Rfc3986.IpRe) (t : Str) : List Str := match Uri.parse ip t with
  | .ok u => match Pointer.parse u.fragment with
    | .ok p => p
    | _ => []
  | _ => []

mutual
/-- The data of the document number `d` with its references seen as such: outside arrays, an object with `$ref` is a reference into
the same document; any other loses its `$anchor`. -/
def resolve (ip : Rfc3986.IpRe) (d : Nat) : Node → Node
  | .obj kvs => match dictGet c!"$ref" kvs with
    | some (.str t) => .ref (resolveD ip d kvs) d (refPointer ip t)
    | _ => .obj (dictDel c!"$anchor" (resolveD ip d kvs))
  | n => n
def resolveD (ip : Rfc3986.IpRe) (d : Nat) : List (Str × Node) → List (Str × Node)
  | [] => []
  | (k, x) :: r => (k, resolve ip d x) :: resolveD ip d r
end

mutual
/-- The objects with an `$anchor` outside arrays, those inside an object before it. -/
def anchored (ip : Rfc3986.IpRe) (d : Nat) : Node → List (Str × Node)
  | .obj kvs => anchoredD ip d kvs ++ (match dictGet c!"$anchor" kvs with | some (.str a) => [(a, resolve ip d (.obj kvs))] | _ => [])
  | _ => []
def anchoredD (ip : Rfc3986.IpRe) (d : Nat) : List (Str × Node) → List (Str × Node)
  | [] => []
  | (_, x) :: r => anchored ip d x ++ anchoredD ip d r
end

/-- The document number `d` made from the data; of equal anchors the last counts. -/
def docOf (ip : Rfc3986.IpRe) (d : Nat) (n : Node) : Doc :=
  ⟨resolve ip d n, (anchored ip d n).foldl (fun acc p => dictSet p.1 p.2 acc) []⟩

/-- The documents made from the data in turn, the first having the number `d`. -/
def docsFrom (ip : Rfc3986.IpRe) : Nat → List (List (Str × Val)) → List Doc
  | _, [] => []
  | d, kvs :: vs => docOf ip d (wrap (.dict kvs)) :: docsFrom ip (d + 1) vs

end Verif.Spec
