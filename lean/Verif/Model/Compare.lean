import Verif.Model.Types
/-!
# Order comparisons of wrapped values (types/json_type.py 63-85)

`JsonNumber` has its own methods (types/json_number.py 50-152, `jnLt` … in `Model/Types`), all other types have those of `JsonType`.
Python's identity shortcut for list items is not modelled (the operands are distinct objects).  References are not modelled here.
-/

namespace Verif

/-- The comparison that is asked for (types/json_type.py 63-85, types/json_number.py 66-152). -/
inductive CmpOp where
  | lt | le | gt | ge
deriving DecidableEq, Repr

namespace CmpOp

/-- The answer, once it is known which side is smaller (not a function of the code). -/
def holds : CmpOp → Ordering → Bool
  | lt, o => o == .lt
  | le, o => o != .gt
  | gt, o => o == .gt
  | ge, o => o != .lt

/-- `a op b` on numbers, one of them a `Decimal` (types/json_number.py 66-152 compare so). -/
def onNum : CmpOp → Num → Num → Res Bool
  | lt, a, b => a.lt b
  | le, a, b => a.le b
  | gt, a, b => b.lt a
  | ge, a, b => b.le a

/-- The methods of `JsonNumber` (types/json_number.py 66-74, 92-100, 118-126, 144-152). -/
def onJson : CmpOp → Num → Operand → Res Bool
  | lt => jnLt
  | le => jnLe
  | gt => jnGt
  | ge => jnGe

end CmpOp

/-- Python compares texts by code points, the first difference decides (`str.__lt__` and the others, used at types/json_type.py 63-85). -/
def strCompare : Str → Str → Ordering
  | [], [] => .eq
  | [], _ :: _ => .lt
  | _ :: _, [] => .gt
  | c :: s, d :: t => if c = d then strCompare s t else if c.toNat < d.toNat then .lt else .gt

/-- Comparison of lengths (and of `bool`s, which are 0 and 1) (used at types/json_type.py 63-85). -/
def natCompare (a b : Nat) : Ordering := if a < b then .lt else if a = b then .eq else .gt

mutual

/-- `a op b` for two wrapped values: `JsonType.__lt__`, `__le__`, `__gt__`, `__ge__` (types/json_type.py 63-85) compare the `_value`s.
`bool` against `Decimal` is answered by `Decimal`; `dict`, `None` and mixed types raise `TypeError`. -/
def nodeCmp (op : CmpOp) : Node → Node → Res Bool
  | .num n, b => op.onJson n (.node b)
  | .str s, b => match b with
    | .str t => .ok (op.holds (strCompare s t))
    | .ref .. => .err .unmodelled
    | _ => .err .typeError
  | .bool x, b => match b with
    | .bool y => .ok (op.holds (natCompare x.toNat y.toNat))
    | .num m => op.onNum (.fin (if x then 1 else 0)) m
    | .ref .. => .err .unmodelled
    | _ => .err .typeError
  | .arr xs, b => match b with
    | .arr ys => listCmp op xs ys
    | .ref .. => .err .unmodelled
    | _ => .err .typeError
  | .null, b => match b with
    | .ref .. => .err .unmodelled
    | _ => .err .typeError
  | .obj _, b => match b with
    | .ref .. => .err .unmodelled
    | _ => .err .typeError
  | .ref .., _ => .err .unmodelled

/-- Comparison of two lists (CPython `list_richcompare`): the first items that are not equal are compared, and the lengths if there are
none (used at types/json_type.py 63-85). -/
def listCmp (op : CmpOp) : List Node → List Node → Res Bool
  | [], ys => .ok (op.holds (natCompare 0 ys.length))
  | _ :: xs, [] => .ok (op.holds (natCompare (xs.length + 1) 0))
  | x :: xs, y :: ys => do
    if ← nodeEq x y then listCmp op xs ys else nodeCmp op x y

end

mutual

/-- `node op v` with plain data on the right (types/json_type.py 63-85, the `else` branches; `v op node` runs the mirrored method). -/
def nodeCmpVal (op : CmpOp) : Node → Val → Res Bool
  | .num n, v => op.onJson n (.val v)
  | .str s, v => match v with
    | .str t => .ok (op.holds (strCompare s t))
    | _ => .err .typeError
  | .bool x, v => match v.num? with
    | some m => match v with
      | .dec _ => op.onNum (.fin (if x then 1 else 0)) m
      | _ => match m with
        | .nan => .ok false
        | m => op.onNum (.fin (if x then 1 else 0)) m
    | none => .err .typeError
  | .arr xs, v => match v with
    | .list ys => listCmpVal op xs ys
    | _ => .err .typeError
  | .ref .., _ => .err .unmodelled
  | _, _ => .err .typeError

/-- Comparison of a list of wrapped values with a list of plain data (used at types/json_type.py 63-85). -/
def listCmpVal (op : CmpOp) : List Node → List Val → Res Bool
  | [], ys => .ok (op.holds (natCompare 0 ys.length))
  | _ :: xs, [] => .ok (op.holds (natCompare (xs.length + 1) 0))
  | x :: xs, y :: ys => do
    if ← nodeEqVal x y then listCmpVal op xs ys else nodeCmpVal op x y

end

end Verif
