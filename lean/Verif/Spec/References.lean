import Verif.Spec.Refs
/-!
# What a node with references stands for, for C85 and C86
-/

namespace Verif.Spec
open Verif

/-- The node, each reference in it replaced by what it shows, is this plain data. -/
inductive Stands (docs : List Doc) : Node → Val → Prop
  | null {n : Node} {f : Nat} (h : view docs f n = .ok .null) : Stands docs n .null
  | bool {n : Node} {f : Nat} {b : Bool} (h : view docs f n = .ok (.bool b)) : Stands docs n (.bool b)
  | num {n : Node} {f : Nat} {x : Num} (h : view docs f n = .ok (.num x)) : Stands docs n (.dec x)
  | str {n : Node} {f : Nat} {s : Str} (h : view docs f n = .ok (.str s)) : Stands docs n (.str s)
  | list {n : Node} {f : Nat} {xs : List Node} {vs : List Val} (h : view docs f n = .ok (.arr xs)) (hl : xs.length = vs.length)
      (hx : ∀ (i : Nat) x v, xs[i]? = some x → vs[i]? = some v → Stands docs x v) : Stands docs n (.list vs)
  | dict {n : Node} {f : Nat} {kvs : List (Str × Node)} {ds : List (Str × Val)} (h : view docs f n = .ok (.obj kvs))
      (hk : kvs.map Prod.fst = ds.map Prod.fst)
      (hx : ∀ (i : Nat) k x k' v, kvs[i]? = some (k, x) → ds[i]? = some (k', v) → Stands docs x v) : Stands docs n (.dict ds)

/-- What Python takes for true. -/
def Truthy : Val → Prop
  | .null => False
  | .bool b => b = true
  | .int i => i ≠ 0
  | .flt (.fin x _) => x ≠ 0
  | .dec (.fin x) => x ≠ 0
  | .flt _ => True
  | .dec _ => True
  | .str s => s ≠ []
  | .list xs => xs ≠ []
  | .dict kvs => kvs ≠ []

/-- The float is zero exactly if it is printed as zero. -/
def ZeroAlike : Val → Prop
  | .flt (.fin x s) => x = 0 ↔ s = 0
  | _ => True

end Verif.Spec
