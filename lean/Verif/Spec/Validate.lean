import Verif.Model.Types
/-! # Specifications of single keywords (C14–C29), independent of the code -/

namespace Verif

/-- The seven JSON Schema type names. -/
def jsonTypeNames : List Str :=
  [c!"null", c!"boolean", c!"object", c!"array", c!"number", c!"string", c!"integer"]

/-- The type names a Python value goes by: an `int` is an integer and a number, a `float` or `Decimal` a number, a
`bool` only a boolean. -/
def typeNamesOf : Val → List Str
  | .null => [c!"null"]
  | .bool _ => [c!"boolean"]
  | .int _ => [c!"integer", c!"number"]
  | .flt _ => [c!"number"]
  | .dec _ => [c!"number"]
  | .str _ => [c!"string"]
  | .list _ => [c!"array"]
  | .dict _ => [c!"object"]

/-- Scalars of a schema. -/
def Node.Scalar : Node → Prop
  | .null | .bool _ | .num _ | .str _ => True
  | _ => False

/-- A schema scalar equals a Python value: booleans only booleans, numbers by exact value, NaN nothing. -/
def litEq : Node → Val → Bool
  | .null, .null => true
  | .bool b, .bool c => b == c
  | .str s, .str t => s == t
  | .num (.fin q), .int n => q = n
  | .num (.fin q), .flt (.fin e _) => q = e
  | .num (.fin q), .dec (.fin r) => q = r
  | .num (.inf s), .flt (.inf t) => s == t
  | .num (.inf s), .dec (.inf t) => s == t
  | _, _ => false

/-- JSON equality of schema data and a Python value: scalars by `litEq`, arrays item by item, objects member by member. -/
inductive SameJson : Node → Val → Prop where
  | scalar {x : Node} {v : Val} (h : litEq x v = true) : SameJson x v
  | arr (xs : List Node) (ys : List Val) (hl : xs.length = ys.length)
      (h : ∀ (i : Nat) x y, xs[i]? = some x → ys[i]? = some y → SameJson x y) : SameJson (.arr xs) (.list ys)
  | obj (kvs : List (Str × Node)) (kws : List (Str × Val)) (hk : ∀ k, dictHas k kvs = dictHas k kws)
      (h : ∀ k x y, dictGet k kvs = some x → dictGet k kws = some y → SameJson x y) : SameJson (.obj kvs) (.dict kws)

/-- No number or boolean of the schema data meets something of another kind, and no float of the value prints as another number. -/
inductive Comparable : Node → Val → Prop where
  | null (v : Val) : Comparable .null v
  | str (s : Str) (v : Val) : Comparable (.str s) v
  | bool (b c : Bool) : Comparable (.bool b) (.bool c)
  | int (n : Num) (i : Int) : Comparable (.num n) (.int i)
  | dec (n m : Num) : Comparable (.num n) (.dec m)
  | flt (n : Num) (x : Flt) (h : x.exactNum = x.shownNum) : Comparable (.num n) (.flt x)
  | arr (xs : List Node) (v : Val) (h : ∀ ys, v = .list ys → xs.length = ys.length → ∀ (i : Nat) x y, xs[i]? = some x → ys[i]? = some y →
      Comparable x y) : Comparable (.arr xs) v
  | obj (kvs : List (Str × Node)) (v : Val) (hn : (kvs.map Prod.fst).Nodup)
      (hd : ∀ kws, v = .dict kws → (kws.map Prod.fst).Nodup)
      (h : ∀ kws, v = .dict kws → ∀ k x y, dictGet k kvs = some x → dictGet k kws = some y → Comparable x y) : Comparable (.obj kvs) v

/-- The exact value of a finite Python number. -/
def exactVal : Val → Option Rat
  | .int n => some n
  | .flt (.fin e _) => some e
  | .dec (.fin q) => some q
  | .bool b => some (if b then 1 else 0)
  | _ => none

/-- The value of a finite Python number that is not a boolean, floats taken at their printed decimal value. -/
def printedVal : Val → Option Rat
  | .int n => some n
  | .flt (.fin _ s) => some s
  | .dec (.fin q) => some q
  | _ => none

/-- A number within the exponents of the default decimal context: no digit after the 1000026th after the point. -/
def Coarse (q : Rat) : Prop := ∃ j : Int, q = j * Num.pow10 (-1000026)

/-- What `maximum: mx` together with `exclusiveMaximum: ex` (draft-4 boolean or number) asks of a number. -/
def UpperOk (mx : Option Rat) (ex : Option (Bool ⊕ Rat)) (q : Rat) : Prop :=
  (∀ m, mx = some m → if ex = some (.inl true) then q < m else q ≤ m) ∧ ∀ x, ex = some (.inr x) → q < x

/-- What `minimum: mn` together with `exclusiveMinimum: ex` asks of a number. -/
def LowerOk (mn : Option Rat) (ex : Option (Bool ⊕ Rat)) (q : Rat) : Prop :=
  (∀ m, mn = some m → if ex = some (.inl true) then m < q else m ≤ q) ∧ ∀ x, ex = some (.inr x) → x < q

/-- The schema node of a boolean-or-number keyword value. -/
def exclNode : Bool ⊕ Rat → Node
  | .inl b => .bool b
  | .inr x => .num (.fin x)

/-- Truncation towards zero. -/
def truncate (q : Rat) : Int := if 0 ≤ q then q.floor else q.ceil

/-- Python equality of scalars (`1 == 1.0 == True`). -/
def pyScalarEq : Val → Val → Bool
  | .null, .null => true
  | .str s, .str t => s == t
  | .flt (.inf s), .flt (.inf t) => s == t
  | .flt (.inf s), .dec (.inf t) => s == t
  | .dec (.inf s), .flt (.inf t) => s == t
  | .dec (.inf s), .dec (.inf t) => s == t
  | a, b => match exactVal a, exactVal b with
    | some x, some y => x = y
    | _, _ => false

/-- Scalar Python values without NaN (NaN's behaviour in sets depends on object identity). -/
def Val.Scalar : Val → Prop
  | .list _ => False
  | .dict _ => False
  | .flt .nan => False
  | .dec .nan => False
  | _ => True

/-- The answer is "accepted" or "rejected with a `ValidationError`", nothing else. -/
def Decides (r : Res Unit) : Prop := r = .ok () ∨ ∃ e, r = .err (.validation e)

/-- A rejection with the given code at the given path. -/
def rejected (code path : Str) (detail : Str := []) : Res Unit := .err (.validation ⟨code, path, detail⟩)

/-- Run checks one after the other: the first one that does not return normally decides. -/
def firstFail : List (Res Unit) → Res Unit
  | [] => .ok ()
  | r :: rs => match r with
    | .ok _ => firstFail rs
    | r => r

/-- Number of checks that return normally. -/
def countOk : List (Res Unit) → Nat
  | [] => 0
  | .ok _ :: rs => countOk rs + 1
  | _ :: rs => countOk rs

end Verif
