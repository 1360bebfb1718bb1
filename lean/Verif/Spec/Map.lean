import Verif.Model.Types
/-! # Specifications for C07 and C08: exact values of operands, insertion-ordered maps -/

namespace Verif

/-- The exact value of an operand of a comparison, floats taken at their printed value. -/
def opVal : Operand → Option Rat
  | .node (.num (.fin q)) => some q
  | .val (.int i) => some i
  | .val (.dec (.fin q)) => some q
  | .val (.flt (.fin _ s)) => some s
  | .val (.bool b) => some (if b then 1 else 0)
  | _ => none

/-- The operand is a number (Python counts booleans as integers). -/
def isNumber : Operand → Prop
  | .node (.num _) => True
  | .val (.int _) => True
  | .val (.dec _) => True
  | .val (.flt _) => True
  | .val (.bool _) => True
  | _ => False

/-- Specification of an insertion-ordered map: the keys in order and the value of each key. -/
structure OMap where
  order : List Str
  val : Str → Option Node

/-- What a mapping call may answer. -/
def OMap.step (m : OMap) : ObjOp → OMap × Res ObjOut
  | .set k x =>
    (⟨if k ∈ m.order then m.order else m.order ++ [k], fun j => if k = j then some x.wrapped else m.val j⟩, .ok .none)
  | .del k => (⟨m.order.filter (· ≠ k), fun j => if k = j then none else m.val j⟩, .ok .none)
  | .get k => (m, match m.val k with
      | some x => .ok (.node x)
      | none => .err .keyError)
  | .has k => (m, .ok (.bool (decide (k ∈ m.order))))
  | .len => (m, .ok (.nat m.order.length))
  | .keys => (m, .ok (.keys m.order))
  | .values => (m, .ok (.values (m.order.filterMap m.val)))

def OMap.run (m : OMap) : List ObjOp → List (Res ObjOut)
  | [] => []
  | o :: os => (m.step o).2 :: (m.step o).1.run os

/-- The map a dictionary literal denotes. -/
def OMap.ofDict (d : List (Str × Val)) : OMap := ⟨d.map Prod.fst, fun k => (dictGet k d).map wrap⟩

end Verif
