import Verif.Spec.Web
import Verif.Model.Remembering
/-! # Schemas that are used again and again, beside others that are made, found and loaded -/

namespace Verif.Obj
open Verif.Spec

/-- The states a program comes to that makes schemas, asks the store for them, loads them, and calls their `validate`: the objects, and what each schema keeps of
its validators.  A call of `validate` may have ended in any way (`r`). -/
inductive Lived (E : Env) (voc : List Kw) (lib : Str → List (Str × Val) → Prop) : List (Nat × List (Str × Val)) → St → (Nat → Kept) → Prop
  | empty : Lived E voc lib [] St.empty fun _ => {}
  | create {made : List (Nat × List (Str × Val))} {s s' : St} {ks : Nat → Kept} {kvs : List (Str × Val)} {d : Nat} (before : Lived E voc lib made s ks)
      (fit : WebDoc E.ip E.file lib kvs) (call : newDocument (.dict kvs) voc s = (.ok d, s')) : Lived E voc lib ((d, kvs) :: made) s' ks
  | find {made : List (Nat × List (Str × Val))} {s s' : St} {ks : Nat → Kept} {u : Uri} {k : Str} {kvs : List (Str × Val)} {x : Res Nat} (before : Lived E voc lib made s ks)
      (name : Store.baseText E.ip u = .ok k) (file : E.file u = .ok (.dict kvs)) (fit : lib k kvs) (call : storeLoad E u voc s = (x, s')) : Lived E voc lib made s' ks
  | load {made : List (Nat × List (Str × Val))} {s s' : St} {ks : Nat → Kept} {d : Nat} {x : Res Unit} (before : Lived E voc lib made s ks)
      (there : d < s.docs.length) (call : ∃ f0, ∀ f, f0 ≤ f → (ops E f).load d s = (x, s')) : Lived E voc lib made s' ks
  | validate {made : List (Nat × List (Str × Val))} {s s' : St} {ks : Nat → Kept} {d g : Nat} {v : Val} {r : Res Unit} {m : Kept} (before : Lived E voc lib made s ks)
      (there : d < s.docs.length) (call : validateM E g d v (ks d) s = (.ok (r, m), s')) : Lived E voc lib made s' fun e => if e = d then m else ks e

end Verif.Obj
