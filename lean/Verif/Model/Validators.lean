import Verif.Model.Types
import Verif.Model.Errors
/-!
# `jsoned/validators/*.py`

`V α` is a validator object whose subschemas are represented by `α`; `run rec` is its `validate` method, where `rec`
runs a subschema.  The context (core_validators.py 13-44) is its tuple of keys.
-/

namespace Verif

/-- What the validators use of the outside world (not a function of the code; `re` and the checkers of validators/format_validators.py). -/
structure World where
  /-- `re.compile(p).search`: `none` if the pattern does not compile. -/
  search : Str → Option (Str → Bool)
  /-- The registry `StringFormat` (jsoned/string_format.py). -/
  formats : Str → Option (Val → Res Bool)
  /-- `Decimal(s)` for a string; `none` raises `InvalidOperation`. -/
  parseDec : Str → Option Num
  /-- `str(x)` of a `JsonNumber`, `JsonArray`, `JsonObject` or `JsonReference`, without the final `)`. -/
  reprBody : Node → Str

/-- A context path (core_validators.py 13-44). -/
abbrev Ctx := List Str

/-- `Context.path` (core_validators.py 37-38). -/
def Ctx.path (c : Ctx) : Str := strJoin c!"." c

/-- `additional_properties`: a `FailValidator` or a lazy validator (validators/object_validators.py 43). -/
inductive Sub (α : Type) where
  | fail
  | lazy (a : α)

/-- `ObjectValidator` (object_validators.py 42-50). -/
structure ObjV (α : Type) where
  props : List (Str × α) := []
  patterns : Option (List (Str × α)) := none
  additional : Option (Sub α) := none
  unevaluated : Bool := false
  names : Option α := none

/-- Validators that hold a wrapped value instead of plain data, which happens where the value of the keyword is a reference: `.value` of a
reference is the wrapped value it leads to (keywords/ref_keyword.py 34-46). -/
inductive Held where
  | maximum (m : Num) (excl : Bool)
  | minimum (m : Num) (excl : Bool)
  | multipleOf
  | const (n : Node)

/-- Validator objects (validators/*.py). -/
inductive V (α : Type) where
  | type (ts : List Str)
  | enum (vals : List Node)
  | const (n : Node)
  | maximum (m : Num) (excl : Bool)
  | minimum (m : Num) (excl : Bool)
  | multipleOf (m : Num)
  | minLength (n : Int)
  | maxLength (n : Int)
  | minItems (n : Int)
  | maxItems (n : Int)
  | minProperties (n : Int)
  | maxProperties (n : Int)
  | uniqueItems
  | contains (c : α) (mn : Int) (mx : Option Int)
  | array (pre : Option (List α)) (items : Option α)
  | object (o : ObjV α)
  | required (ks : List Str)
  | dependentRequired (m : List (Str × List Str))
  | dependentSchemas (m : List (Str × α))
  | allOf (xs : List α)
  | anyOf (xs : List α)
  | oneOf (xs : List α)
  | not (x : α)
  | cond (i t e : Option α)
  | format (name : Str)
  | pattern (p : Str)
  | held (h : Held)

/-- `TypeValidator.TYPE_MAP[type(value)]` (core_validators.py 98-107). -/
def typeName : Val → Str
  | .null => c!"null"
  | .bool _ => c!"boolean"
  | .int _ => c!"integer"
  | .flt _ => c!"number"
  | .dec _ => c!"number"
  | .str _ => c!"string"
  | .list _ => c!"array"
  | .dict _ => c!"object"

/-- `len(value)` (used at validators/array_validators.py 60-82, validators/object_validators.py 27-39, validators/string_validators.py) -/
def pyLen : Val → Res Nat
  | .str s => .ok s.length
  | .list xs => .ok xs.length
  | .dict kvs => .ok kvs.length
  | _ => .err .typeError

/-- `iter(value)`: elements of a list, keys of a dict, characters of a string (used at validators/array_validators.py 37-57). -/
def pyIter : Val → Res (List Val)
  | .str s => .ok (s.map fun c => .str [c])
  | .list xs => .ok xs
  | .dict kvs => .ok (kvs.map fun p => .str p.1)
  | _ => .err .typeError

/-- `name in value` for a string `name` (used at validators/object_validators.py 15-18 and 92-96). -/
def pyIn (name : Str) : Val → Res Bool
  | .str s => .ok (strContains name s)
  | .list xs => .ok (xs.any fun x => match x with
    | .str t => t == name
    | _ => false)
  | .dict kvs => .ok (dictHas name kvs)
  | _ => .err .typeError

/-- `a == b` for hashable plain values (used at validators/array_validators.py 88-94). -/
def scalarEq : Val → Val → Bool
  | .null, .null => true
  | .str s, .str t => s == t
  | a, b => match a.num?, b.num? with
    | some x, some y => x.eq y
    | _, _ => false

/-- `hash(value)` works (used at validators/array_validators.py 88-94). -/
def hashable : Val → Bool
  | .list _ => false
  | .dict _ => false
  | _ => true

/-- `try: ... except ValidationError` (validators/composition_validators.py 22-26, 39-43, 60-63, 72-77) -/
def attempt (r : Res Unit) : Res (Option VErr) :=
  match r with
  | .ok _ => .ok none
  | .err (.validation e) => .ok (some e)
  | .err e => .err e
  | .timeout => .timeout

/-- `type(value) == bool` (validators/core_validators.py 152 and 159) -/
def Val.isBool : Val → Bool
  | .bool _ => true
  | _ => false

/-- `type(item) == bool` for the unwrapped value of a node (validators/core_validators.py 147 and 159). -/
def Node.isBool : Node → Bool
  | .bool _ => true
  | _ => false

/-- `TypeValidator.validate` (core_validators.py 112-122). -/
def runType (ts : List Str) (v : Val) (ctx : Ctx) : Res Unit :=
  if typeName v ∈ ts then .ok ()
  else if typeName v = c!"integer" ∧ c!"number" ∈ ts then .ok ()
  else .err (raiseErr .typeError ctx.path)

/-- The loop of `EnumValidator.validate` for 0, 1 and booleans (core_validators.py 157-166). -/
def enumLoop (v : Val) (ctx : Ctx) : List Node → Res Unit
  | [] => .err (raiseErr .enumError ctx.path)
  | x :: xs => do
    if ← rawEqVal x v then
      if x.isBool || v.isBool then
        if x.isBool && v.isBool then .ok () else enumLoop v ctx xs
      else .ok ()
    else enumLoop v ctx xs

/-- `value in self._expected_values` (core_validators.py 169). -/
def enumIn (v : Val) : List Node → Res Bool
  | [] => .ok false
  | x :: xs => do
    if ← rawEqVal x v then .ok true else enumIn v xs

/-- `value == k` for the small integers 0 and 1 (validators/core_validators.py 156). -/
def eqNat (v : Val) (k : Nat) : Bool :=
  match v.num? with
  | some n => n.eq (.fin k)
  | none => false

/-- `EnumValidator.validate` (core_validators.py 151-172). -/
def runEnum (vals : List Node) (v : Val) (ctx : Ctx) : Res Unit :=
  let containsBooleans := vals.any Node.isBool
  if v.isBool && !containsBooleans then .err (raiseErr .enumError ctx.path)
  else if (containsBooleans && eqNat v 1) || eqNat v 0 then enumLoop v ctx vals
  else do
    if ← enumIn v vals then .ok () else .err (raiseErr .enumError ctx.path)

/-- `ConstValidator.validate` (core_validators.py 182-187); the keyword only builds it for scalars. -/
def runConst (n : Node) (v : Val) (ctx : Ctx) : Res Unit :=
  if (n.isBool || v.isBool) && !(n.isBool && v.isBool) then .err (raiseErr .constError ctx.path)
  else do
    if ← rawEqVal n v then .ok () else .err (raiseErr .constError ctx.path)

/-- `NumberMaximumValidator.validate` (number_validators.py 49-54). -/
def runMaximum (m : Num) (excl : Bool) (v : Val) (ctx : Ctx) : Res Unit :=
  match v.num? with
  | none => .err .typeError
  | some x => do
    if excl then
      if ← m.le x then .err (raiseErr .maximum ctx.path) else .ok ()
    else
      if ← m.lt x then .err (raiseErr .maximum ctx.path) else .ok ()

/-- `NumberMinimumValidator.validate` (number_validators.py 33-38). -/
def runMinimum (m : Num) (excl : Bool) (v : Val) (ctx : Ctx) : Res Unit :=
  match v.num? with
  | none => .err .typeError
  | some x => do
    if excl then
      if ← x.le m then .err (raiseErr .minimum ctx.path) else .ok ()
    else
      if ← x.lt m then .err (raiseErr .minimum ctx.path) else .ok ()

/-- `Decimal(str(value))`, or `value` itself if it is a `Decimal` (number_validators.py 18-19). -/
def toDecimal (w : World) : Val → Res Num
  | .dec d => .ok d
  | .int n => .ok (.fin n)
  | .flt x => .ok x.shownNum
  | .str s => match w.parseDec s with
    | some d => .ok d
    | none => .err .invalidOperation
  | _ => .err .invalidOperation

/-- `NumberMultipleOfValidator.validate` (number_validators.py 17-22). -/
def runMultipleOf (w : World) (m : Num) (v : Val) (ctx : Ctx) : Res Unit := do
  let d ← toDecimal w v
  let r ← d.rem m
  if r.eq (.fin 0) then .ok () else .err (raiseErr .multipleOf ctx.path)

/-- `NumberMaximumValidator.validate`, `NumberMinimumValidator.validate`, `NumberMultipleOfValidator.validate` and
`ConstValidator.validate` (number_validators.py 17-22, 33-38, 49-54, core_validators.py 182-187) with a wrapped value, or a reference to one.
No plain type knows `JsonType`, so that Python asks the wrapped value: `value >= held` is `held <= value`.  There is no `__rmod__`.  A wrapped boolean is
not a `bool`. -/
def runHeld (w : World) (h : Held) (v : Val) (ctx : Ctx) : Res Unit :=
  match h with
  | .maximum m excl => do
    if ← (if excl then jnLe m (.val v) else jnLt m (.val v)) then .err (raiseErr .maximum ctx.path) else .ok ()
  | .minimum m excl => do
    if ← (if excl then jnGe m (.val v) else jnGt m (.val v)) then .err (raiseErr .minimum ctx.path) else .ok ()
  | .multipleOf => do
    let _ ← toDecimal w v
    .err .typeError
  | .const n =>
    if v.isBool then .err (raiseErr .constError ctx.path)
    else do
      if ← nodeEqVal n v then .ok () else .err (raiseErr .constError ctx.path)

/-- The length validators: `StringMinimumLengthValidator` (string_validators.py 17-21),
`ArrayMinimumLengthValidator` (array_validators.py 64-68). -/
def runMinLen (c : ErrClass) (n : Int) (v : Val) (ctx : Ctx) : Res Unit := do
  let l ← pyLen v
  if (l : Int) ≥ n then .ok () else .err (raiseErr c ctx.path)

/-- `StringMaximumLengthValidator` (string_validators.py 31-35), `ArrayMaximumLengthValidator`
(array_validators.py 78-82). -/
def runMaxLen (c : ErrClass) (n : Int) (v : Val) (ctx : Ctx) : Res Unit := do
  let l ← pyLen v
  if (l : Int) ≤ n then .ok () else .err (raiseErr c ctx.path)

/-- `MinimumPropertiesValidator` (object_validators.py 28-30). -/
def runMinProps (n : Int) (v : Val) (ctx : Ctx) : Res Unit := do
  let l ← pyLen v
  if (l : Int) < n then .err (raiseErr .minProperties ctx.path) else .ok ()

/-- `MaximumPropertiesValidator` (object_validators.py 37-39). -/
def runMaxProps (n : Int) (v : Val) (ctx : Ctx) : Res Unit := do
  let l ← pyLen v
  if (l : Int) > n then .err (raiseErr .maxProperties ctx.path) else .ok ()

/-- The loop of `ArrayUniqueValidators.validate` (array_validators.py 91-94). -/
def uniqueLoop (ctx : Ctx) : List Val → Nat → List Val → Res Unit
  | _, _, [] => .ok ()
  | seen, i, x :: xs =>
    if !hashable x then .err .typeError
    else if seen.any (scalarEq x) then .err (raiseErr .uniqueItems (ctx.path ++ natStr i))
    else uniqueLoop ctx (x :: seen) (i + 1) xs

/-- `RequiredPropertiesValidator.validate` (object_validators.py 15-18). -/
def runRequired (v : Val) (ctx : Ctx) : List Str → Res Unit
  | [] => .ok ()
  | k :: ks => do
    if ← pyIn k v then runRequired v ctx ks else .err (raiseErr .required ctx.path k)

/-- The inner loop of `DependentRequiredValidator.validate` (object_validators.py 95-99). -/
def depRequiredItems (kvs : List (Str × Val)) (ctx : Ctx) : List Str → Res Unit
  | [] => .ok ()
  | i :: is => if dictHas i kvs then depRequiredItems kvs ctx is else .err (raiseErr .dependent ctx.path i)

/-- The outer loop of `DependentRequiredValidator.validate` (object_validators.py 91-99). -/
def depRequiredLoop (kvs : List (Str × Val)) (ctx : Ctx) : List (Str × List Str) → Res Unit
  | [] => .ok ()
  | (k, is) :: r => do
    if dictHas k kvs then depRequiredItems kvs ctx is
    depRequiredLoop kvs ctx r

/-- `StringFormatValidator.validate` (string_validators.py 45-49). -/
def runFormat (w : World) (name : Str) (v : Val) (ctx : Ctx) : Res Unit :=
  match w.formats name with
  | none => .err .keyError
  | some check => do
    if ← check v then .ok () else .err (raiseErr .format ctx.path name)

/-- `StringPatternValidator.validate` (string_validators.py 59-61). -/
def runPattern (w : World) (p : Str) (v : Val) (ctx : Ctx) : Res Unit :=
  match v with
  | .str s => match w.search p with
    | none => .err .reError
    | some m => if m s then .ok () else .err (raiseErr .format ctx.path p)
  | _ => .err .typeError

section
variable {α : Type} (rec : α → Val → Ctx → Res Unit)

/-- The loop of `AllOfValidator.validate` (composition_validators.py 10-12). -/
def allOfLoop (v : Val) (ctx : Ctx) : List α → Res Unit
  | [] => .ok ()
  | a :: as => do
    rec a v ctx
    allOfLoop v ctx as

/-- `AnyOfValidator.validate` (composition_validators.py 19-28); `raise None` is a `TypeError`. -/
def anyOfLoop (v : Val) (ctx : Ctx) : Option VErr → List α → Res Unit
  | last, [] => match last with
    | some e => .err (.validation e)
    | none => .err .typeError
  | _, a :: as => do
    match ← attempt (rec a v ctx) with
    | none => .ok ()
    | some e => anyOfLoop v ctx (some e) as

/-- The loop of `OneOfValidator.validate` (composition_validators.py 38-43). -/
def oneOfLoop (v : Val) (ctx : Ctx) : Nat → Option VErr → List α → Res (Nat × Option VErr)
  | n, last, [] => .ok (n, last)
  | n, last, a :: as => do
    match ← attempt (rec a v ctx) with
    | none => oneOfLoop v ctx (n + 1) last as
    | some e => oneOfLoop v ctx n (some e) as

/-- `OneOfValidator.validate` (composition_validators.py 35-52). -/
def runOneOf (xs : List α) (v : Val) (ctx : Ctx) : Res Unit := do
  let (n, last) ← oneOfLoop rec v ctx 0 none xs
  if n < 1 then
    match last with
    | some e => .err (.validation e)
    | none => .err .typeError
  else if n > 1 then .err (raiseErr .tooMany ctx.path)
  else .ok ()

/-- `NotValidator.validate` (composition_validators.py 59-64). -/
def runNot (x : α) (v : Val) (ctx : Ctx) : Res Unit := do
  match ← attempt (rec x v ctx) with
  | some _ => .ok ()
  | none => .err (raisePlain ctx.path)

/-- `ConditionalValidator.validate` (composition_validators.py 68-80); the test `if "else":` is always true. -/
def runCond (i t e : Option α) (v : Val) (ctx : Ctx) : Res Unit :=
  match i with
  | none => .ok ()
  | some i => do
    match ← attempt (rec i v ctx) with
    | some _ => match e with
      | none => .err .keyError
      | some e => rec e v ctx
    | none => match t with
      | none => .ok ()
      | some t => rec t v ctx

/-- The loop of `ArrayContainsValidator.validate` (array_validators.py 46-51); items are validated with a fresh
context. -/
def containsLoop (c : α) : Nat → List Val → Res Nat
  | n, [] => .ok n
  | n, x :: xs => do
    match ← attempt (rec c x []) with
    | none => containsLoop c (n + 1) xs
    | some _ => containsLoop c n xs

/-- `ArrayContainsValidator.validate` (array_validators.py 44-57). -/
def runContains (c : α) (mn : Int) (mx : Option Int) (v : Val) (ctx : Ctx) : Res Unit := do
  let n ← containsLoop rec c 0 (← pyIter v)
  if (n : Int) < mn then .err (raiseErr .minContains ctx.path)
  else match mx with
    | none => .ok ()
    | some m => if m ≠ 0 ∧ (n : Int) > m then .err (raiseErr .maxContains ctx.path) else .ok ()

/-- The `continue` without increment in `ArrayValidator.validate` (array_validators.py 22-24): the same call is
repeated until it raises. -/
def spin : Nat → Res Unit → Res Unit
  | 0, _ => .timeout
  | f + 1, r => match r with
    | .ok _ => spin f r
    | r => r

/-- The loops of `ArrayValidator.validate` (array_validators.py 19-34): prefix items, then the rest. -/
def itemsLoop (it : α) (ctx : Ctx) : Nat → List Val → Res Unit
  | _, [] => .ok ()
  | i, x :: xs => do
    rec it x (ctx ++ [natStr i])
    itemsLoop it ctx (i + 1) xs

/-- The loops of `ArrayValidator.validate` (array_validators.py 19-34). -/
def arrayLoop (f : Nat) (items : Option α) (ctx : Ctx) : Nat → List α → List Val → Res Unit
  | i, [], xs => match items with
    | none => .ok ()
    | some it => itemsLoop rec it ctx i xs
  | i, p :: _, [] => spin f (rec p .null (ctx ++ [natStr i]))
  | i, p :: ps, x :: xs => do
    rec p x (ctx ++ [natStr i])
    arrayLoop f items ctx (i + 1) ps xs

/-- `ArrayValidator.validate` (array_validators.py 15-34). -/
def runArray (f : Nat) (pre : Option (List α)) (items : Option α) (v : Val) (ctx : Ctx) : Res Unit :=
  match v with
  | .list xs => arrayLoop rec f items ctx 0 (pre.getD []) xs
  | _ => .err raiseTypeNoPath

/-- The loop over `pattern_properties` (object_validators.py 66-69); the result says whether some pattern matched. -/
def patternLoop (w : World) (k : Str) (x : Val) (ctx : Ctx) : Bool → List (Str × α) → Res Bool
  | ev, [] => .ok ev
  | ev, (p, a) :: ps =>
    match w.search p with
    | none => .err .reError
    | some m =>
      if m k then do
        rec a x ctx
        patternLoop w k x ctx true ps
      else patternLoop w k x ctx ev ps

/-- One round of the loop of `ObjectValidator.validate` (object_validators.py 57-79). -/
def objectItem (w : World) (o : ObjV α) (k : Str) (x : Val) (ctx : Ctx) : Res Unit := do
  match o.names with
  | some n => rec n (.str k) (ctx ++ [k])
  | none => .ok ()
  match dictGet k o.props with
  | some p => rec p x (ctx ++ [k])
  | none => do
    let evaluated ← match o.patterns with
      | some ps => patternLoop rec w k x (ctx ++ [k]) false ps
      | none => .ok false
    if evaluated then .ok ()
    else match o.additional with
      | some .fail => .err (raisePlain (Ctx.path (ctx ++ [k])))
      | some (.lazy a) => rec a x (ctx ++ [k])
      | none => if o.unevaluated then .err (raisePlain (Ctx.path (ctx ++ [k]))) else .ok ()

/-- The loop of `ObjectValidator.validate` (object_validators.py 56-79). -/
def objectLoop (w : World) (o : ObjV α) (ctx : Ctx) : List (Str × Val) → Res Unit
  | [] => .ok ()
  | (k, x) :: r => do
    objectItem rec w o k x ctx
    objectLoop w o ctx r

/-- `ObjectValidator.validate` (object_validators.py 52-79). -/
def runObject (w : World) (o : ObjV α) (v : Val) (ctx : Ctx) : Res Unit :=
  match v with
  | .dict kvs => objectLoop rec w o ctx kvs
  | _ => .ok ()

/-- The loop of `DependentSchemasValidator.validate` (object_validators.py 107-111). -/
def depSchemasLoop (kvs : List (Str × Val)) (ctx : Ctx) : List (Str × α) → Res Unit
  | [] => .ok ()
  | (k, a) :: r => do
    if dictHas k kvs then rec a (.dict kvs) ctx
    depSchemasLoop kvs ctx r

/-- `validator.validate(value, context)` by class; `f` bounds the endless loop of `ArrayValidator` (validators/*.py, the `validate` of each class). -/
def run (w : World) (f : Nat) (x : V α) (v : Val) (ctx : Ctx) : Res Unit :=
  match x with
  | .type ts => runType ts v ctx
  | .enum vals => runEnum vals v ctx
  | .const n => runConst n v ctx
  | .maximum m e => runMaximum m e v ctx
  | .minimum m e => runMinimum m e v ctx
  | .multipleOf m => runMultipleOf w m v ctx
  | .minLength n => runMinLen .minLength n v ctx
  | .maxLength n => runMaxLen .maxLength n v ctx
  | .minItems n => runMinLen .minItems n v ctx
  | .maxItems n => runMaxLen .maxItems n v ctx
  | .minProperties n => runMinProps n v ctx
  | .maxProperties n => runMaxProps n v ctx
  | .uniqueItems => do uniqueLoop ctx [] 0 (← pyIter v)
  | .contains c mn mx => runContains rec c mn mx v ctx
  | .array pre items => runArray rec f pre items v ctx
  | .object o => runObject rec w o v ctx
  | .required ks => runRequired v ctx ks
  | .dependentRequired m => match v with
    | .dict kvs => depRequiredLoop kvs ctx m
    | _ => .ok ()
  | .dependentSchemas m => match v with
    | .dict kvs => depSchemasLoop rec kvs ctx m
    | _ => .ok ()
  | .allOf xs => allOfLoop rec v ctx xs
  | .anyOf xs => anyOfLoop rec v ctx none xs
  | .oneOf xs => runOneOf rec xs v ctx
  | .not x => runNot rec x v ctx
  | .cond i t e => runCond rec i t e v ctx
  | .format n => runFormat w n v ctx
  | .pattern p => runPattern w p v ctx
  | .held h => runHeld w h v ctx

/-- `CompoundValidator.validate` (core_validators.py 86-88). -/
def runAll (w : World) (f : Nat) (v : Val) (ctx : Ctx) : List (Str × V α) → Res Unit
  | [] => .ok ()
  | (_, x) :: d => do
    run rec w f x v ctx
    runAll w f v ctx d

end

end Verif
