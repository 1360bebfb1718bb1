import Verif.Py.Number
/-!
# `jsoned/types/*.py`: plain values and wrapped values

`Val` is the plain Python data a user passes in (`None`, `bool`, `int`, `float`, `Decimal`, `str`, `list`, `dict`
with string keys); other Python types are not modelled.  `Node` is the tree of `JsonType` objects built from it; the
`parent`/`key` slots are modelled separately in `Verif.Model.Objects`.  `Node.ref` is `JsonReference`
(keywords/ref_keyword.py 14-21): the items of the object that holds `$ref`, the referenced document and the pointer.
-/

namespace Verif

/-- Plain Python data (the values types/json_complex.py 94-117 takes). -/
inductive Val where
  | null
  | bool (b : Bool)
  | int (n : Int)
  | flt (x : Flt)
  | dec (d : Num)
  | str (s : Str)
  | list (xs : List Val)
  | dict (kvs : List (Str × Val))

/-- Wrapped JSON (types/*.py, types/json_complex.py 94-117, keywords/ref_keyword.py 14-21). -/
inductive Node where
  | null
  | bool (b : Bool)
  | num (n : Num)
  | str (s : Str)
  | arr (xs : List Node)
  | obj (kvs : List (Str × Node))
  | ref (own : List (Str × Node)) (doc : Nat) (ptr : List Str)

/-- `JsonType.type` (types/json_type.py 13-19); a reference has no type of its own. -/
inductive Kind where
  | null | object | number | boolean | string | array
deriving DecidableEq, Repr

/-- The numeric value of a Python number (`bool` is a subclass of `int`) (not a function of the code). -/
def Val.num? : Val → Option Num
  | .bool b => some (.fin (if b then 1 else 0))
  | .int n => some (.fin n)
  | .flt x => some x.exactNum
  | .dec d => some d
  | _ => none

mutual

/-- `_map_value` with the constructors it calls (types/json_complex.py 15-17, 58-60, 94-117;
types/json_number.py 13-22). -/
def wrap : Val → Node
  | .null => .null
  | .bool b => .bool b
  | .int n => .num (.fin n)
  | .flt x => .num x.shownNum
  | .dec d => .num d
  | .str s => .str s
  | .list xs => .arr (wrapList xs)
  | .dict kvs => .obj (wrapDict kvs)

/-- The list comprehension of `JsonArray.__init__` (types/json_complex.py 59). -/
def wrapList : List Val → List Node
  | [] => []
  | x :: xs => wrap x :: wrapList xs

/-- The dict comprehension of `JsonObject.__init__` (types/json_complex.py 16). -/
def wrapDict : List (Str × Val) → List (Str × Node)
  | [] => []
  | (k, x) :: xs => (k, wrap x) :: wrapDict xs

end

/-- `b1 == b2`/numbers: equality of two plain scalars `a == b` where `a` comes from a wrapped value (used at validators/core_validators.py 138-187). -/
def numEqVal (n : Num) (v : Val) : Bool :=
  match v.num? with
  | some m => n.eq m
  | none => false

mutual

/-- `node == v` for a wrapped left operand and a plain right operand: `JsonType.__eq__` (types/json_type.py 57-61),
overridden by `JsonNumber.__eq__` (types/json_number.py 40-48) and `JsonBoolean.__eq__`
(types/json_boolean.py 27-33).  `v == node` falls back to the same method, as none of the plain types knows
`JsonType`.  Python's identity shortcut inside list and dict comparison is not modelled (the operands are distinct
objects).  References are not modelled here. -/
def nodeEqVal : Node → Val → Res Bool
  | .null, v => match v with
    | .null => .ok true
    | _ => .ok false
  | .bool b, v => match v with
    | .bool c => .ok (b == c)
    | _ => .err .typeError
  | .num n, v => match v with
    | .flt x => .ok (n.eq x.shownNum)
    | .dec d => .ok (n.eq d)
    | .int i => .ok (n.eq (.fin i))
    | .bool c => .ok (n.eq (.fin (if c then 1 else 0)))
    | _ => .err .typeError
  | .str s, v => match v with
    | .str t => .ok (s == t)
    | _ => .ok false
  | .arr xs, v => match v with
    | .list ys => if xs.length = ys.length then listEqVal xs ys else .ok false
    | _ => .ok false
  | .obj kvs, v => match v with
    | .dict kws => if kvs.length = kws.length then dictEqVal kvs kws else .ok false
    | _ => .ok false
  | .ref _ _ _, _ => .err .unmodelled

/-- Element-wise comparison of lists of equal length (`list.__eq__`, used at types/json_type.py 57-61). -/
def listEqVal : List Node → List Val → Res Bool
  | [], _ => .ok true
  | _ :: _, [] => .ok true
  | x :: xs, y :: ys => do
    if ← nodeEqVal x y then listEqVal xs ys else .ok false

/-- Comparison of dictionaries of equal size: every entry of the left one is looked up in the right one (`dict.__eq__`, used at types/json_type.py 57-61). -/
def dictEqVal : List (Str × Node) → List (Str × Val) → Res Bool
  | [], _ => .ok true
  | (k, x) :: xs, kws =>
    match dictGet k kws with
    | none => .ok false
    | some y => do
      if ← nodeEqVal x y then dictEqVal xs kws else .ok false

end

/-- `node.value == v`: what `EnumValidator` and `ConstValidator` compare, for the unwrapped value of a node.
A scalar's `.value` is plain data, an array's or object's is a list or dict of wrapped values (validators/core_validators.py 138-187). -/
def rawEqVal : Node → Val → Res Bool
  | .null, v => match v with
    | .null => .ok true
    | _ => .ok false
  | .bool b, v => .ok (numEqVal (.fin (if b then 1 else 0)) v)
  | .num n, v => .ok (numEqVal n v)
  | .str s, v => match v with
    | .str t => .ok (s == t)
    | _ => .ok false
  | n, v => nodeEqVal n v

mutual

/-- `a == b` for two wrapped values (types/json_type.py 57-61, types/json_number.py 40-48,
types/json_boolean.py 27-33).  The left operand's method decides; `JsonType.__eq__` compares the `_value`s. -/
def nodeEq : Node → Node → Res Bool
  | .num n, b => match b with
    | .num m => .ok (n.eq m)
    | _ => .err .typeError
  | .bool x, b => match b with
    | .bool y => .ok (x == y)
    | _ => .err .typeError
  | .null, b => match b with
    | .null => .ok true
    | .ref .. => .err .unmodelled
    | _ => .ok false
  | .str s, b => match b with
    | .str t => .ok (s == t)
    | .ref .. => .err .unmodelled
    | _ => .ok false
  | .arr xs, b => match b with
    | .arr ys => if xs.length = ys.length then nodeListEq xs ys else .ok false
    | .ref .. => .err .unmodelled
    | _ => .ok false
  | .obj kvs, b => match b with
    | .obj kws => if kvs.length = kws.length then nodeDictEq kvs kws else .ok false
    | .ref .. => .err .unmodelled
    | _ => .ok false
  | .ref _ _ _, _ => .err .unmodelled

/-- Element-wise comparison of lists of equal length (`list.__eq__`, used at types/json_type.py 57-61). -/
def nodeListEq : List Node → List Node → Res Bool
  | [], _ => .ok true
  | _ :: _, [] => .ok true
  | x :: xs, y :: ys => do
    if ← nodeEq x y then nodeListEq xs ys else .ok false

/-- Comparison of dictionaries of equal size (`dict.__eq__`, used at types/json_type.py 57-61). -/
def nodeDictEq : List (Str × Node) → List (Str × Node) → Res Bool
  | [], _ => .ok true
  | (k, x) :: xs, kws =>
    match dictGet k kws with
    | none => .ok false
    | some y => do
      if ← nodeEq x y then nodeDictEq xs kws else .ok false

end

/-! ## `JsonNumber` comparisons -/

/-- Right operand of a `JsonNumber` comparison: a wrapped or a plain value (types/json_number.py 40-152). -/
inductive Operand where
  | node (n : Node)
  | val (v : Val)

/-- The value a `JsonNumber` comparison uses for its right operand; anything but a number raises `TypeError`
(types/json_number.py 41-48, 67-74, 93-100, 119-126, 145-152). -/
def Operand.num : Operand → Res Num
  | .node (.num m) => .ok m
  | .val (.flt x) => .ok x.shownNum
  | .val (.dec d) => .ok d
  | .val (.int i) => .ok (.fin i)
  | .val (.bool b) => .ok (.fin (if b then 1 else 0))
  | _ => .err .typeError

/-- `JsonNumber.__eq__` (types/json_number.py 40-48). -/
def jnEq (n : Num) (o : Operand) : Res Bool := do .ok (n.eq (← o.num))
/-- `JsonNumber.__lt__` (types/json_number.py 66-74). -/
def jnLt (n : Num) (o : Operand) : Res Bool := do n.lt (← o.num)
/-- `JsonNumber.__le__` (types/json_number.py 92-100). -/
def jnLe (n : Num) (o : Operand) : Res Bool := do n.le (← o.num)
/-- `JsonNumber.__gt__` (types/json_number.py 118-126). -/
def jnGt (n : Num) (o : Operand) : Res Bool := do (← o.num).lt n
/-- `JsonNumber.__ge__` (types/json_number.py 144-152). -/
def jnGe (n : Num) (o : Operand) : Res Bool := do (← o.num).le n

/-! ## `JsonObject` as a mutable mapping -/

/-- `_map_value(value)` (types/json_complex.py 94-117): a wrapped value is taken as it is. -/
def Operand.wrapped : Operand → Node
  | .node n => n
  | .val v => wrap v

/-- Calls on a `JsonObject`.  Keys are strings (`__setitem__` raises `KeyError` for others, lines 37-38). -/
inductive ObjOp where
  | set (k : Str) (x : Operand)
  | del (k : Str)
  | get (k : Str)
  | has (k : Str)
  | len
  | keys
  | values

/-- Answers (not a function of the code). -/
inductive ObjOut where
  | none
  | node (n : Node)
  | bool (b : Bool)
  | nat (n : Nat)
  | keys (ks : List Str)
  | values (xs : List Node)

/-- One call on a `JsonObject` with dictionary `d` (types/json_complex.py 19-20 `__len__`, 22-25 `__getitem__`,
27-28 `keys`, 30-31 `values`, 36-40 `__setitem__`, 42-46 `__delitem__`, 48-49 `__contains__`). -/
def objStep (d : List (Str × Node)) : ObjOp → List (Str × Node) × Res ObjOut
  | .set k x => (dictSet k x.wrapped d, .ok .none)
  | .del k => if !dictHas k d then (d, .ok .none) else (dictDel k d, .ok .none)
  | .get k =>
    if dictHas k d then (d, match dictGet k d with
      | some x => .ok (.node x)
      | none => .err .keyError)
    else (d, .err .keyError)
  | .has k => (d, .ok (.bool (dictHas k d)))
  | .len => (d, .ok (.nat d.length))
  | .keys => (d, .ok (.keys (d.map Prod.fst)))
  | .values => (d, .ok (.values (d.map Prod.snd)))

/-- A history of calls (not a function of the code). -/
def objRun (d : List (Str × Node)) : List ObjOp → List (Res ObjOut)
  | [] => []
  | o :: os => (objStep d o).2 :: objRun (objStep d o).1 os

end Verif
