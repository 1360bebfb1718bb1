import Verif.Model.Validators
/-!
# `jsoned/keywords/*.py`: from schema nodes to validators

`apply` is given the items of the schema object (`node.items()`), a function `view` that shows what a node is (for a
`JsonReference` that means following it; see `Verif.Model.Schema`), and a function `mk` that makes a lazy subschema
validator.  Every `apply` raises before its first assignment, so a failing `apply` leaves the validator dictionary
unchanged.
-/

namespace Verif

/-- The keywords (jsoned/keywords/__init__.py). -/
inductive Kw where
  | type | enum | const | maximum | minimum | exclusiveMaximum | exclusiveMinimum | multipleOf
  | minLength | maxLength | minItems | maxItems | minProperties | maxProperties | uniqueItems
  | contains | items | prefixItems | properties | patternProperties | additionalProperties
  | unevaluatedProperties | propertyNames | required | dependentRequired | dependentSchemas
  | allOf | anyOf | oneOf | not | «if» | «then» | «else» | format | pattern
  | ref | anchor | id
deriving DecidableEq, Repr

namespace Kw

/-- `Keyword.key`; the applicator `id` has two (keywords/id_keyword.py 13). -/
def keys : Kw → List Str
  | type => [c!"type"]
  | enum => [c!"enum"]
  | const => [c!"const"]
  | maximum => [c!"maximum"]
  | minimum => [c!"minimum"]
  | exclusiveMaximum => [c!"exclusiveMaximum"]
  | exclusiveMinimum => [c!"exclusiveMinimum"]
  | multipleOf => [c!"multipleOf"]
  | minLength => [c!"minLength"]
  | maxLength => [c!"maxLength"]
  | minItems => [c!"minItems"]
  | maxItems => [c!"maxItems"]
  | minProperties => [c!"minProperties"]
  | maxProperties => [c!"maxProperties"]
  | uniqueItems => [c!"uniqueItems"]
  | contains => [c!"contains"]
  | items => [c!"items"]
  | prefixItems => [c!"prefixItems"]
  | properties => [c!"properties"]
  | patternProperties => [c!"patternProperties"]
  | additionalProperties => [c!"additionalProperties"]
  | unevaluatedProperties => [c!"unevaluatedProperties"]
  | propertyNames => [c!"propertyNames"]
  | required => [c!"required"]
  | dependentRequired => [c!"dependentRequired"]
  | dependentSchemas => [c!"dependentSchemas"]
  | allOf => [c!"allOf"]
  | anyOf => [c!"anyOf"]
  | oneOf => [c!"oneOf"]
  | not => [c!"not"]
  | «if» => [c!"if"]
  | «then» => [c!"then"]
  | «else» => [c!"else"]
  | format => [c!"format"]
  | pattern => [c!"pattern"]
  | ref => [c!"$ref"]
  | anchor => [c!"$anchor"]
  | id => [c!"$id", c!"id"]

/-- The single key of an assertion keyword (keywords/*.py, the attribute `key`; json_core.py 47). -/
def key (k : Kw) : Str := k.keys.headD []

/-- `isinstance(keyword, AssertionKeyword)` (json_core.py 80) -/
def isAssertion : Kw → Bool
  | ref => false
  | anchor => false
  | id => false
  | _ => true

end Kw

/-- A `CompoundValidator`'s dictionary (validators/core_validators.py 59-94). -/
abbrev Data (α : Type) := List (Str × V α)

/-- `str(node)` (types/json_string.py 17-19, types/json_type.py 90-91, types/json_boolean.py 35-36). -/
def nodeStr (w : World) : Node → Str
  | .str s => s
  | .null => c!"None)"
  | .bool true => c!"JsonBool(True)"
  | .bool false => c!"JsonBool(False)"
  | n => w.reprBody n ++ c!")"

/-- `node.type` for a node that is not a reference (types/json_type.py 13-19 and 22-40). -/
def Node.kind : Node → Kind
  | .null => .null
  | .bool _ => .boolean
  | .num _ => .number
  | .str _ => .string
  | .arr _ => .array
  | .obj _ => .object
  | .ref .. => .object

/-- `node == True` (maximum_keyword.py 17, minimum_keyword.py 17); a reference compares what it leads to (types/json_type.py 57-61). -/
def eqTrue (view : Node → Res Node) (n : Node) : Res Bool := do
  match ← view n with
  | .bool b => .ok b
  | .num n => .ok (n.eq (.fin 1))
  | _ => .ok false

/-- `i in array` for a number `i` (types/json_complex.py 77-78): `==` on wrapped elements; a boolean raises `TypeError`.  An
element that is a reference is not modelled. -/
def intInArr (i : Int) : List Node → Res Bool
  | [] => .ok false
  | x :: xs => match x with
    | .num n => if n.eq (.fin i) then .ok true else intInArr i xs
    | .bool _ => .err .typeError
    | .ref .. => .err .unmodelled
    | _ => intInArr i xs

/-- `for x in ref` on a reference to the array `xs`, from the index `i` on, where `rest` is left of it.  `JsonReference` has no `__iter__`, so that
Python asks for `ref[0]`, `ref[1]`, … until `IndexError`; `__getitem__` (keywords/ref_keyword.py 66-69) raises `KeyError` unless the
index is an element. -/
def iterRef (xs : List Node) (i : Nat) (rest : List Node) : Res (List Node) :=
  match rest with
  | [] => do if ← intInArr i xs then .ok [] else .err .keyError
  | x :: rest => do
    if ← intInArr i xs then do
      let r ← iterRef xs (i + 1) rest
      .ok (x :: r)
    else .err .keyError

/-- `for x in node` on an array `xs` or a reference to it (types/json_complex.py 80-81). -/
def seqOf (n : Node) (xs : List Node) : Res (List Node) :=
  match n with
  | .ref .. => iterRef xs 0 xs
  | _ => .ok xs

/-- Is it a `JsonReference`? (`isinstance(node, JsonReference)`, keywords/ref_keyword.py 14) -/
def Node.isRef : Node → Bool
  | .ref .. => true
  | _ => false

/-- `[str(item) for item in items]` in dependent_required_keyword.py 15; a reference as `items` is not modelled. -/
def strItems (w : World) : Node → Res (List Str)
  | .arr xs => .ok (xs.map (nodeStr w))
  | .obj kvs => .ok (kvs.map Prod.fst)
  | .str s => .ok (s.map fun c => [c])
  | .ref .. => .err .unmodelled
  | _ => .err .typeError

/-- The dict comprehension of dependent_required_keyword.py 15. -/
def strItemsMap (w : World) : List (Str × Node) → Res (List (Str × List Str))
  | [] => .ok []
  | (k, n) :: r => do
    let xs ← strItems w n
    let rest ← strItemsMap w r
    .ok ((k, xs) :: rest)

/-- `NumberMaximumValidator(expected_maximum=node[key].value, …)`, where `n` is `node[key]` (keywords/maximum_keyword.py 17, keywords/exclusive_maximum_keyword.py). -/
def maxV {α : Type} (n : Node) (m : Num) (excl : Bool) : V α := if n.isRef then .held (.maximum m excl) else .maximum m excl

/-- `NumberMinimumValidator(expected_minimum=node[key].value, …)`, where `n` is `node[key]` (keywords/minimum_keyword.py 17, keywords/exclusive_minimum_keyword.py). -/
def minV {α : Type} (n : Node) (m : Num) (excl : Bool) : V α := if n.isRef then .held (.minimum m excl) else .minimum m excl

/-- `TypeKeyword.VALID_TYPES` (type_keyword.py 10). -/
def validTypes : List Str :=
  [c!"string", c!"integer", c!"number", c!"boolean", c!"array", c!"object", c!"null"]

section
variable {α : Type} (w : World) (view : Node → Res Node) (mk : Node → α) (items : List (Str × Node))

/-- `node[key]` (types/json_complex.py 22-25) -/
def getKey (k : Str) : Res Node :=
  match dictGet k items with
  | some n => .ok n
  | none => .err .keyError

/-- A keyword whose value must be a number, converted by `int`: `if node[key].type != NUMBER: raise` and
`int(node[key])`.  A `JsonReference` has no `__int__` (keywords/min_length_keyword.py 11-15 and the five like it). -/
def intKey (k : Str) : Res Int := do
  let n ← getKey items k
  match ← view n with
  | .num m => match n with
    | .ref .. => .err .typeError
    | _ => m.toInt
  | _ => .err .schemaParse

/-- `minContains` and `maxContains`: `int(node[key].value)` (contains_keyword.py 17-25).  Given by reference this works if the reference leads to the
number directly, and raises `TypeError` through another reference; that case is not modelled. -/
def intValueKey (k : Str) : Res Int := do
  let n ← getKey items k
  match ← view n with
  | .num m => if n.isRef then .err .unmodelled else m.toInt
  | _ => .err .schemaParse

/-- A keyword whose value must be a number, kept as it is: the node and the number.
(keywords/maximum_keyword.py, keywords/minimum_keyword.py, keywords/multiple_of_keyword.py.) -/
def numKey (k : Str) : Res (Node × Num) := do
  let n ← getKey items k
  match ← view n with
  | .num m => .ok (n, m)
  | _ => .err .schemaParse

/-- A keyword whose value must be an object and is used as a subschema (keywords/not_keyword.py 11-16 and those like it). -/
def subKey (k : Str) : Res α := do
  let n ← getKey items k
  match ← view n with
  | .obj _ => .ok (mk n)
  | _ => .err .schemaParse

/-- A keyword whose value must be an array of subschemas (keywords/all_of_keyword.py and those like it). -/
def subsKey (k : Str) : Res (List α) := do
  let n ← getKey items k
  match ← view n with
  | .arr xs => do
    let ys ← seqOf n xs
    .ok (ys.map mk)
  | _ => .err .schemaParse

/-- A keyword whose value must be an object of subschemas (keywords/properties_keyword.py and those like it). -/
def subMapKey (k : Str) : Res (List (Str × α)) := do
  match ← view (← getKey items k) with
  | .obj kvs => .ok (kvs.map fun p => (p.1, mk p.2))
  | _ => .err .schemaParse

/-- The `ObjectValidator` under `"properties"`, created on demand (keywords/properties_keyword.py and those like it). -/
def objOf (d : Data α) : ObjV α :=
  match dictGet c!"properties" d with
  | some (.object o) => o
  | _ => {}

/-- The `ConditionalValidator` under `"if"`, created on demand (keywords/if_keyword.py 11-21, keywords/then_keyword.py 11-21, keywords/else_keyword.py 11-21). -/
def condOf (d : Data α) : Option α × Option α × Option α :=
  match dictGet c!"if" d with
  | some (.cond i t e) => (i, t, e)
  | _ => (none, none, none)

/-- `type` (type_keyword.py 12-26) -/
def applyType (d : Data α) : Res (Data α) := do
  let n ← getKey items c!"type"
  let ts ← match ← view n with
    | .str _ => .ok [nodeStr w n]
    | .arr xs => do
      let ys ← seqOf n xs
      .ok (ys.map (nodeStr w))
    | _ => .err .schemaParse
  if ts.all (· ∈ validTypes) then .ok (dictSet c!"type" (.type ts) d) else .err .schemaParse

/-- `enum` (enum_keyword.py 10-14).  Here `.value` of a reference is iterated over, which is an array or again a reference; this case is not
modelled. -/
def applyEnum (d : Data α) : Res (Data α) := do
  let n ← getKey items c!"enum"
  match ← view n with
  | .arr xs => match n with
    | .ref .. => .err .unmodelled
    | _ => .ok (dictSet c!"enum" (.enum xs) d)
  | _ => .err .schemaParse

/-- `const` (const_keyword.py 10-14) -/
def applyConst (d : Data α) : Res (Data α) := do
  let n ← getKey items c!"const"
  match ← view n with
  | .arr _ => .err .schemaParse
  | .obj _ => .err .schemaParse
  | x => .ok (dictSet c!"const" (if n.isRef then .held (.const x) else .const x) d)

/-- `maximum` (maximum_keyword.py 11-20) -/
def applyMaximum (d : Data α) : Res (Data α) := do
  let (n, m) ← numKey view items c!"maximum"
  let excl ← match dictGet c!"exclusiveMaximum" items with
    | some e => eqTrue view e
    | none => .ok false
  .ok (dictSet c!"maximum" (maxV n m excl) d)

/-- `minimum` (minimum_keyword.py 11-20) -/
def applyMinimum (d : Data α) : Res (Data α) := do
  let (n, m) ← numKey view items c!"minimum"
  let excl ← match dictGet c!"exclusiveMinimum" items with
    | some e => eqTrue view e
    | none => .ok false
  .ok (dictSet c!"minimum" (minV n m excl) d)

/-- `exclusiveMaximum` (exclusive_maximum_keyword.py 11-21) -/
def applyExclusiveMaximum (d : Data α) : Res (Data α) := do
  let n ← getKey items c!"exclusiveMaximum"
  match ← view n with
  | .bool _ => if dictHas c!"maximum" items then .ok d else .err .schemaParse
  | .num m => .ok (dictSet c!"exclusiveMaximum" (maxV n m true) d)
  | _ => .err .schemaParse

/-- `exclusiveMinimum` (exclusive_minimum_keyword.py 11-21) -/
def applyExclusiveMinimum (d : Data α) : Res (Data α) := do
  let n ← getKey items c!"exclusiveMinimum"
  match ← view n with
  | .bool _ => if dictHas c!"minimum" items then .ok d else .err .schemaParse
  | .num m => .ok (dictSet c!"exclusiveMinimum" (minV n m true) d)
  | _ => .err .schemaParse

/-- `multipleOf` (multiple_of_keyword.py 11-15) -/
def applyMultipleOf (d : Data α) : Res (Data α) := do
  let (n, m) ← numKey view items c!"multipleOf"
  .ok (dictSet c!"multipleOf" (if n.isRef then .held .multipleOf else .multipleOf m) d)

/-- `uniqueItems` (unique_items_keyword.py 11-18) -/
def applyUniqueItems (d : Data α) : Res (Data α) := do
  match ← view (← getKey items c!"uniqueItems") with
  | .bool b => if b then .ok (dictSet c!"uniqueItems" .uniqueItems d) else .ok d
  | _ => .err .schemaParse

/-- `contains` (contains_keyword.py 11-27) -/
def applyContains (d : Data α) : Res (Data α) := do
  let c ← subKey view mk items c!"contains"
  let mn ← if dictHas c!"minContains" items then intValueKey view items c!"minContains" else .ok 1
  let mx ← if dictHas c!"maxContains" items then do
      let m ← intValueKey view items c!"maxContains"
      .ok (some m)
    else .ok none
  .ok (dictSet c!"contains" (.contains c mn mx) d)

/-- The `ArrayValidator` stored under a key, if any (items_keyword.py 15-18). -/
def arrayOf (k : Str) (d : Data α) : Option (List α) × Option α :=
  match dictGet k d with
  | some (.array p i) => (p, i)
  | _ => (none, none)

/-- `items` (items_keyword.py 11-29) -/
def applyItems (d : Data α) : Res (Data α) := do
  let n ← getKey items c!"items"
  let (pre, its) := arrayOf c!"items" d
  match ← view n with
  | .arr xs => do
    let ys ← seqOf n xs
    let its' ← match dictGet c!"additionalItems" items with
      | none => .ok its
      | some a => do
        match ← view a with
        | .bool true => .ok its
        | _ => .ok (some (mk a))
    .ok (dictSet c!"items" (.array (some (ys.map mk)) its') d)
  | .obj _ => .ok (dictSet c!"items" (.array pre (some (mk n))) d)
  | .bool b => .ok (dictSet c!"items" (.array pre (if b then its else some (mk n))) d)
  | _ => .err .schemaParse

/-- `prefixItems` (prefix_items_keyword.py 11-21); line 16 looks up the wrong key. -/
def applyPrefixItems (d : Data α) : Res (Data α) := do
  let xs ← subsKey view mk items c!"prefixItems"
  if dictHas c!"items" d then
    if dictHas c!"prefixItems" d then
      .ok (dictSet c!"prefixItems" (.array (some xs) (arrayOf c!"prefixItems" d).2) d)
    else .err .keyError
  else .ok (dictSet c!"prefixItems" (.array (some xs) none) d)

/-- `properties` (properties_keyword.py 11-23) -/
def applyProperties (d : Data α) : Res (Data α) := do
  let kvs ← subMapKey view mk items c!"properties"
  let o := objOf d
  .ok (dictSet c!"properties" (.object { o with props := kvs.foldl (fun p x => dictSet x.1 x.2 p) o.props }) d)

/-- `patternProperties` (pattern_properties_keyword.py 11-21) -/
def applyPatternProperties (d : Data α) : Res (Data α) := do
  let kvs ← subMapKey view mk items c!"patternProperties"
  .ok (dictSet c!"properties" (.object { objOf d with patterns := some kvs }) d)

/-- `additionalProperties` (additional_properties_keyword.py 11-27) -/
def applyAdditionalProperties (d : Data α) : Res (Data α) := do
  let n ← getKey items c!"additionalProperties"
  match ← view n with
  | .bool true => .ok (dictSet c!"properties" (.object (objOf d)) d)
  | .bool false => .ok (dictSet c!"properties" (.object { objOf d with additional := some .fail }) d)
  | .obj _ => .ok (dictSet c!"properties" (.object { objOf d with additional := some (.lazy (mk n)) }) d)
  | _ => .err .schemaParse

/-- `unevaluatedProperties` (unevaluated_properties_keyword.py 11-21) -/
def applyUnevaluatedProperties (d : Data α) : Res (Data α) := do
  match ← view (← getKey items c!"unevaluatedProperties") with
  | .bool true => .ok (dictSet c!"properties" (.object (objOf d)) d)
  | .bool false => .ok (dictSet c!"properties" (.object { objOf d with unevaluated := true }) d)
  | _ => .err .schemaParse

/-- `propertyNames` (property_names_keyword.py 11-18) -/
def applyPropertyNames (d : Data α) : Res (Data α) := do
  let n ← subKey view mk items c!"propertyNames"
  .ok (dictSet c!"properties" (.object { objOf d with names := some n }) d)

/-- `required` (required_properties_keyword.py 11-15) -/
def applyRequired (d : Data α) : Res (Data α) := do
  let n ← getKey items c!"required"
  match ← view n with
  | .arr xs => do
    let ys ← seqOf n xs
    .ok (dictSet c!"required" (.required (ys.map (nodeStr w))) d)
  | _ => .err .schemaParse

/-- `dependentRequired` (dependent_required_keyword.py 11-16) -/
def applyDependentRequired (d : Data α) : Res (Data α) := do
  match ← view (← getKey items c!"dependentRequired") with
  | .obj kvs => do
    let m ← strItemsMap w kvs
    .ok (dictSet c!"dependentRequired" (.dependentRequired m) d)
  | _ => .err .schemaParse

/-- `dependentSchemas` (dependent_schemas_keyword.py 11-19) -/
def applyDependentSchemas (d : Data α) : Res (Data α) := do
  let kvs ← subMapKey view mk items c!"dependentSchemas"
  .ok (dictSet c!"dependentSchemas" (.dependentSchemas kvs) d)

/-- `format` (format_keyword.py 12-24) -/
def applyFormat (d : Data α) : Res (Data α) := do
  let n ← getKey items c!"format"
  match ← view n with
  | .str _ => match w.formats (nodeStr w n) with
    | none => .err .schemaParse
    | some _ => .ok (dictSet c!"format" (.format (nodeStr w n)) d)
  | _ => .err .schemaParse

/-- `pattern` (pattern_keyword.py 11-17, string_validators.py 56-57) -/
def applyPattern (d : Data α) : Res (Data α) := do
  let n ← getKey items c!"pattern"
  match ← view n with
  | .str _ => match w.search (nodeStr w n) with
    | none => .err .reError
    | some _ => .ok (dictSet c!"pattern" (.pattern (nodeStr w n)) d)
  | _ => .err .schemaParse

/-- `keyword.apply(schema, node, validator)` by class.  The remaining classes: minLength (min_length_keyword.py 11-15),
maxLength, minItems, maxItems, minProperties, maxProperties (same lines), allOf, anyOf, oneOf (all_of_keyword.py 11-18, any_of_keyword.py 11-18, one_of_keyword.py 11-19),
not (not_keyword.py 11-16), if/then/else (if_keyword.py, then_keyword.py, else_keyword.py 11-21). -/
def applyKw (k : Kw) (d : Data α) : Res (Data α) :=
  match k with
  | .type => applyType w view items d
  | .enum => applyEnum view items d
  | .const => applyConst view items d
  | .maximum => applyMaximum view items d
  | .minimum => applyMinimum view items d
  | .exclusiveMaximum => applyExclusiveMaximum view items d
  | .exclusiveMinimum => applyExclusiveMinimum view items d
  | .multipleOf => applyMultipleOf view items d
  | .minLength => do .ok (dictSet c!"minLength" (.minLength (← intKey view items c!"minLength")) d)
  | .maxLength => do .ok (dictSet c!"maxLength" (.maxLength (← intKey view items c!"maxLength")) d)
  | .minItems => do .ok (dictSet c!"minItems" (.minItems (← intKey view items c!"minItems")) d)
  | .maxItems => do .ok (dictSet c!"maxItems" (.maxItems (← intKey view items c!"maxItems")) d)
  | .minProperties => do
    .ok (dictSet c!"minProperties" (.minProperties (← intKey view items c!"minProperties")) d)
  | .maxProperties => do
    .ok (dictSet c!"maxProperties" (.maxProperties (← intKey view items c!"maxProperties")) d)
  | .uniqueItems => applyUniqueItems view items d
  | .contains => applyContains view mk items d
  | .items => applyItems view mk items d
  | .prefixItems => applyPrefixItems view mk items d
  | .properties => applyProperties view mk items d
  | .patternProperties => applyPatternProperties view mk items d
  | .additionalProperties => applyAdditionalProperties view mk items d
  | .unevaluatedProperties => applyUnevaluatedProperties view items d
  | .propertyNames => applyPropertyNames view mk items d
  | .required => applyRequired w view items d
  | .dependentRequired => applyDependentRequired w view items d
  | .dependentSchemas => applyDependentSchemas view mk items d
  | .allOf => do .ok (dictSet c!"allOf" (.allOf (← subsKey view mk items c!"allOf")) d)
  | .anyOf => do .ok (dictSet c!"anyOf" (.anyOf (← subsKey view mk items c!"anyOf")) d)
  | .oneOf => do .ok (dictSet c!"oneOf" (.oneOf (← subsKey view mk items c!"oneOf")) d)
  | .not => do .ok (dictSet c!"not" (.not (← subKey view mk items c!"not")) d)
  | .if => do
    let a ← subKey view mk items c!"if"
    .ok (dictSet c!"if" (.cond (some a) (condOf d).2.1 (condOf d).2.2) d)
  | .then => do
    let a ← subKey view mk items c!"then"
    .ok (dictSet c!"if" (.cond (condOf d).1 (some a) (condOf d).2.2) d)
  | .else => do
    let a ← subKey view mk items c!"else"
    .ok (dictSet c!"if" (.cond (condOf d).1 (condOf d).2.1 (some a)) d)
  | .format => applyFormat w view items d
  | .pattern => applyPattern w view items d
  | .ref => .ok d
  | .anchor => .ok d
  | .id => .ok d

/-- The loop of `LazyValidator._load_validator` over the vocabulary (json_core.py 79-86) with `can_apply_keyword`
(json_core.py 46-61): the dictionary as it is left, and how the loop ended. -/
def loadAll : List Kw → Data α → Data α × Res Unit
  | [], d => (d, .ok ())
  | k :: ks, d =>
    if k.isAssertion && dictHas k.key items then
      match applyKw w view mk items k d with
      | .ok d' => loadAll ks d'
      | .err e => (d, .err e)
      | .timeout => (d, .timeout)
    else loadAll ks d

end

end Verif
