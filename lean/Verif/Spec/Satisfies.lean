import Verif.Spec.Validate
import Verif.Model.Keywords
/-!
# What it means for an instance to satisfy a reference-free schema (C36)

`Layer` is JSON Schema keyword by keyword, given the meaning `sub` of the subschemas; `Sat` ties the knot.  From the
model only data types are used: schema trees, Python values, and what `World` says about regular expressions and
formats.  `Fits` says that a schema is well formed and that its keywords apply to the instance by type, here and in
every subschema the instance or a part of it is compared with; its comments list what it leaves out.
-/

namespace Verif

/-- The JSON Schema types of a value: a number without fractional part is an integer. -/
def jsonTypesOf (v : Val) : List Str :=
  typeNamesOf v ++ match v with
    | .flt (.fin e _) => if e.den = 1 then [c!"integer"] else []
    | .dec (.fin q) => if q.den = 1 then [c!"integer"] else []
    | _ => []

/-- The names given by the `type` keyword. -/
def schemaTypeNames : Node → List Str
  | .str s => [s]
  | .arr xs => xs.filterMap fun x => match x with
    | .str s => some s
    | _ => none
  | _ => []

/-- The value of a finite number; booleans are not numbers. -/
def numVal : Val → Option Rat
  | .int n => some n
  | .flt (.fin e _) => some e
  | .dec (.fin q) => some q
  | _ => none

/-- JSON equality of scalars. -/
def jsonScalarEq : Val → Val → Bool
  | .null, .null => true
  | .bool a, .bool b => a == b
  | .str s, .str t => s == t
  | a, b => match numVal a, numVal b with
    | some x, some y => x = y
    | _, _ => false

/-- Schemas for the first items: `prefixItems`, or the array form of `items`. -/
def prefixOf (its : List (Str × Node)) : List Node :=
  match dictGet c!"prefixItems" its, dictGet c!"items" its with
  | some (.arr ps), _ => ps
  | _, some (.arr ps) => ps
  | _, _ => []

/-- The schema for the items after these: `items`, or `additionalItems` next to the array form. -/
def restOf (its : List (Str × Node)) : Option Node :=
  match dictGet c!"items" its with
  | some (.arr _) => dictGet c!"additionalItems" its
  | r => r

/-- The member name is listed in `properties`. -/
def Named (its : List (Str × Node)) (k : Str) : Prop :=
  ∃ ps s, dictGet c!"properties" its = some (.obj ps) ∧ dictGet k ps = some s

/-- `s` is the schema of a pattern found in the member name. -/
def PatternFor (w : World) (its : List (Str × Node)) (k : Str) (s : Node) : Prop :=
  ∃ ps p m, dictGet c!"patternProperties" its = some (.obj ps) ∧ (p, s) ∈ ps ∧ w.search p = some m ∧ m k = true

open Classical in
/-- One object schema with members `its`, keyword by keyword. -/
structure Layer (w : World) (sub : Node → Val → Prop) (its : List (Str × Node)) (v : Val) : Prop where
  type : ∀ n, dictGet c!"type" its = some n → ∃ t ∈ schemaTypeNames n, t ∈ jsonTypesOf v
  enum : ∀ xs, dictGet c!"enum" its = some (.arr xs) → ∃ x ∈ xs, SameJson x v
  const : ∀ x, dictGet c!"const" its = some x → SameJson x v
  maximum : ∀ q m, numVal v = some q → dictGet c!"maximum" its = some (.num (.fin m)) →
    q ≤ m ∧ (dictGet c!"exclusiveMaximum" its = some (.bool true) → q ≠ m)
  exclusiveMaximum : ∀ q m, numVal v = some q → dictGet c!"exclusiveMaximum" its = some (.num (.fin m)) → q < m
  minimum : ∀ q m, numVal v = some q → dictGet c!"minimum" its = some (.num (.fin m)) →
    m ≤ q ∧ (dictGet c!"exclusiveMinimum" its = some (.bool true) → m ≠ q)
  exclusiveMinimum : ∀ q m, numVal v = some q → dictGet c!"exclusiveMinimum" its = some (.num (.fin m)) → m < q
  multipleOf : ∀ q m, numVal v = some q → dictGet c!"multipleOf" its = some (.num (.fin m)) → ∃ k : Int, q = m * k
  minLength : ∀ s m, v = .str s → dictGet c!"minLength" its = some (.num (.fin m)) → m ≤ s.length
  maxLength : ∀ s m, v = .str s → dictGet c!"maxLength" its = some (.num (.fin m)) → (s.length : Rat) ≤ m
  minItems : ∀ xs m, v = .list xs → dictGet c!"minItems" its = some (.num (.fin m)) → m ≤ xs.length
  maxItems : ∀ xs m, v = .list xs → dictGet c!"maxItems" its = some (.num (.fin m)) → (xs.length : Rat) ≤ m
  minProperties : ∀ kvs m, v = .dict kvs → dictGet c!"minProperties" its = some (.num (.fin m)) → m ≤ kvs.length
  maxProperties : ∀ kvs m, v = .dict kvs → dictGet c!"maxProperties" its = some (.num (.fin m)) → (kvs.length : Rat) ≤ m
  uniqueItems : ∀ xs, v = .list xs → dictGet c!"uniqueItems" its = some (.bool true) →
    xs.Pairwise fun a b => jsonScalarEq a b = false
  contains : ∀ xs s, v = .list xs → dictGet c!"contains" its = some s →
    (dictGet c!"minContains" its = none → ∃ x ∈ xs, sub s x) ∧
    (∀ m, dictGet c!"minContains" its = some (.num (.fin m)) → m ≤ ((xs.filter fun x => sub s x).length : Rat)) ∧
    ∀ m, dictGet c!"maxContains" its = some (.num (.fin m)) → ((xs.filter fun x => sub s x).length : Rat) ≤ m
  prefixItems : ∀ xs, v = .list xs → ∀ (i : Nat) p x, (prefixOf its)[i]? = some p → xs[i]? = some x → sub p x
  items : ∀ xs s, v = .list xs → restOf its = some s → ∀ (i : Nat) x, (prefixOf its).length ≤ i → xs[i]? = some x → sub s x
  properties : ∀ kvs ps, v = .dict kvs → dictGet c!"properties" its = some (.obj ps) →
    ∀ k x s, (k, x) ∈ kvs → dictGet k ps = some s → sub s x
  patternProperties : ∀ kvs, v = .dict kvs → ∀ k x s, (k, x) ∈ kvs → PatternFor w its k s → sub s x
  additionalProperties : ∀ kvs s, v = .dict kvs → dictGet c!"additionalProperties" its = some s →
    ∀ k x, (k, x) ∈ kvs → ¬ Named its k → (¬ ∃ t, PatternFor w its k t) → sub s x
  unevaluatedProperties : ∀ kvs, v = .dict kvs → dictGet c!"unevaluatedProperties" its = some (.bool false) →
    ∀ k x, (k, x) ∈ kvs → Named its k ∨ (∃ t, PatternFor w its k t) ∨ dictGet c!"additionalProperties" its ≠ none
  propertyNames : ∀ kvs s, v = .dict kvs → dictGet c!"propertyNames" its = some s → ∀ k x, (k, x) ∈ kvs → sub s (.str k)
  required : ∀ kvs ns, v = .dict kvs → dictGet c!"required" its = some (.arr ns) →
    ∀ n, .str n ∈ ns → n ∈ kvs.map Prod.fst
  dependentRequired : ∀ kvs m, v = .dict kvs → dictGet c!"dependentRequired" its = some (.obj m) →
    ∀ k ns, (k, .arr ns) ∈ m → k ∈ kvs.map Prod.fst → ∀ n, .str n ∈ ns → n ∈ kvs.map Prod.fst
  dependentSchemas : ∀ kvs m, v = .dict kvs → dictGet c!"dependentSchemas" its = some (.obj m) →
    ∀ k s, (k, s) ∈ m → k ∈ kvs.map Prod.fst → sub s v
  allOf : ∀ xs, dictGet c!"allOf" its = some (.arr xs) → ∀ s ∈ xs, sub s v
  anyOf : ∀ xs, dictGet c!"anyOf" its = some (.arr xs) → ∃ s ∈ xs, sub s v
  oneOf : ∀ xs, dictGet c!"oneOf" its = some (.arr xs) → (xs.filter fun s => sub s v).length = 1
  not : ∀ s, dictGet c!"not" its = some s → ¬ sub s v
  conditional : ∀ s, dictGet c!"if" its = some s →
    (sub s v → ∀ t, dictGet c!"then" its = some t → sub t v) ∧
    (¬ sub s v → ∀ e, dictGet c!"else" its = some e → sub e v)
  format : ∀ s name check, v = .str s → dictGet c!"format" its = some (.str name) → w.formats name = some check →
    check v = .ok true
  pattern : ∀ s p m, v = .str s → dictGet c!"pattern" its = some (.str p) → w.search p = some m → m s = true

/-- The members of a schema object that the vocabulary gives a meaning to. -/
def recognised (voc : List Kw) (items : List (Str × Node)) : List (Str × Node) :=
  items.filter fun p => decide (p.1 ∈ (voc.filter Kw.isAssertion).map Kw.key ∨
    p.1 ∈ [c!"minContains", c!"maxContains", c!"additionalItems"])

mutual
/-- Nesting depth. -/
def Node.depth : Node → Nat
  | .arr xs => Node.depthL xs + 1
  | .obj kvs => Node.depthD kvs + 1
  | _ => 0
def Node.depthL : List Node → Nat
  | [] => 0
  | x :: xs => max x.depth (Node.depthL xs)
def Node.depthD : List (Str × Node) → Nat
  | [] => 0
  | (_, x) :: xs => max x.depth (Node.depthD xs)
end

/-- Satisfaction for schemas nested less than `d` deep. -/
def SatN (w : World) (voc : List Kw) : Nat → Node → Val → Prop
  | 0, _, _ => False
  | d + 1, n, v => match n with
    | .bool b => b = true
    | .obj items => Layer w (SatN w voc d) (recognised voc items) v
    | _ => False

/-- The instance `v` satisfies the schema `n`. -/
def Sat (w : World) (voc : List Kw) (n : Node) (v : Val) : Prop := SatN w voc (n.depth + 1) n v

/-- An object or boolean schema. -/
def SchemaNode (s : Node) : Prop := (∃ kvs, s = .obj kvs) ∨ ∃ b, s = .bool b

/-- A finite number that is not a boolean and, if a float, is worth what it prints as. -/
def PlainNumber (v : Val) : Prop := ∃ q, numVal v = some q ∧ printedVal v = some q

/-- One object schema: well formed and applicable to the instance by type. -/
structure FitLayer (w : World) (fit : Node → Val → Prop) (sub : Node → Val → Prop) (its : List (Str × Node)) (v : Val) :
    Prop where
  /-- valid names; not `integer` without `number` for a float with integral value -/
  type : ∀ n, dictGet c!"type" its = some n → ∃ ts, (∀ t ∈ ts, t ∈ jsonTypeNames) ∧
    (n = .arr (ts.map .str) ∨ ∃ t, ts = [t] ∧ n = .str t) ∧
    (c!"integer" ∈ ts → c!"integer" ∈ jsonTypesOf v → c!"integer" ∈ typeNamesOf v ∨ c!"number" ∈ ts)
  /-- members that can be compared with the value -/
  enum : ∀ n, dictGet c!"enum" its = some n → ∃ xs, n = .arr xs ∧ ∀ x ∈ xs, x.Scalar ∨ Comparable x v
  /-- a scalar -/
  const : ∀ n, dictGet c!"const" its = some n → n.Scalar
  maximum : ∀ n, dictGet c!"maximum" its = some n → (∃ m, n = .num (.fin m)) ∧ PlainNumber v
  /-- the boolean form only next to `maximum`, the number 1 only without it -/
  exclusiveMaximum : ∀ n, dictGet c!"exclusiveMaximum" its = some n → PlainNumber v ∧
    ((∃ b, n = .bool b) ∧ dictGet c!"maximum" its ≠ none ∨
      ∃ m, n = .num (.fin m) ∧ (m = 1 → dictGet c!"maximum" its = none))
  minimum : ∀ n, dictGet c!"minimum" its = some n → (∃ m, n = .num (.fin m)) ∧ PlainNumber v
  exclusiveMinimum : ∀ n, dictGet c!"exclusiveMinimum" its = some n → PlainNumber v ∧
    ((∃ b, n = .bool b) ∧ dictGet c!"minimum" its ≠ none ∨
      ∃ m, n = .num (.fin m) ∧ (m = 1 → dictGet c!"minimum" its = none))
  /-- the quotient has at most 28 digits, and the numbers are within the exponents of the decimal context -/
  multipleOf : ∀ n, dictGet c!"multipleOf" its = some n → ∃ m q, n = .num (.fin m) ∧ m ≠ 0 ∧ numVal v = some q ∧
    printedVal v = some q ∧ -10 ^ 28 < q / m ∧ q / m < 10 ^ 28 ∧ Coarse m ∧ Coarse q ∧ Num.mag q ≤ Num.pow10 999999
  /-- integral limits, here and below -/
  minLength : ∀ n, dictGet c!"minLength" its = some n → (∃ k : Int, n = .num (.fin k)) ∧ ∃ s, v = .str s
  maxLength : ∀ n, dictGet c!"maxLength" its = some n → (∃ k : Int, n = .num (.fin k)) ∧ ∃ s, v = .str s
  minItems : ∀ n, dictGet c!"minItems" its = some n → (∃ k : Int, n = .num (.fin k)) ∧ ∃ xs, v = .list xs
  maxItems : ∀ n, dictGet c!"maxItems" its = some n → (∃ k : Int, n = .num (.fin k)) ∧ ∃ xs, v = .list xs
  minProperties : ∀ n, dictGet c!"minProperties" its = some n → (∃ k : Int, n = .num (.fin k)) ∧ ∃ kvs, v = .dict kvs
  maxProperties : ∀ n, dictGet c!"maxProperties" its = some n → (∃ k : Int, n = .num (.fin k)) ∧ ∃ kvs, v = .dict kvs
  /-- scalar items, none of them a boolean next to the number it equals in Python -/
  uniqueItems : ∀ n, dictGet c!"uniqueItems" its = some n → (∃ b, n = .bool b) ∧
    (n = .bool true → ∃ xs, v = .list xs ∧ (∀ x ∈ xs, x = .null ∨ (∃ b, x = .bool b) ∨ (∃ s, x = .str s) ∨
      ∃ q, numVal x = some q) ∧ ∀ b, Val.bool b ∈ xs → ∀ x ∈ xs, numVal x ≠ some (if b then 1 else 0))
  /-- integral limits, `maxContains` not 0 -/
  contains : ∀ n, dictGet c!"contains" its = some n → (∃ kvs, n = .obj kvs) ∧ (∃ xs, v = .list xs ∧ ∀ x ∈ xs, fit n x) ∧
    (∀ m, dictGet c!"minContains" its = some m → ∃ k : Int, m = .num (.fin k)) ∧
    ∀ m, dictGet c!"maxContains" its = some m → ∃ k : Int, m = .num (.fin k) ∧ k ≠ 0
  /-- not together with `items`; the list reaches to the end of the prefix -/
  prefixItems : ∀ n, dictGet c!"prefixItems" its = some n → dictGet c!"items" its = none ∧ ∃ ps, n = .arr ps
  items : ∀ n, dictGet c!"items" its = some n → SchemaNode n ∨
    ∃ ps, n = .arr ps ∧ ∀ a, dictGet c!"additionalItems" its = some a → SchemaNode a
  array : dictGet c!"prefixItems" its ≠ none ∨ dictGet c!"items" its ≠ none → ∃ xs, v = .list xs ∧
    (prefixOf its).length ≤ xs.length ∧
    (∀ (i : Nat) p x, (prefixOf its)[i]? = some p → xs[i]? = some x → fit p x) ∧
    ∀ s, restOf its = some s → ∀ (i : Nat) x, (prefixOf its).length ≤ i → xs[i]? = some x → fit s x
  /-- a member listed in `properties` is matched by no pattern -/
  properties : ∀ n, dictGet c!"properties" its = some n → ∃ ps, n = .obj ps ∧ (ps.map Prod.fst).Nodup ∧
    ∀ kvs, v = .dict kvs → ∀ k x s, (k, x) ∈ kvs → dictGet k ps = some s → fit s x ∧ ¬ ∃ t, PatternFor w its k t
  patternProperties : ∀ n, dictGet c!"patternProperties" its = some n → ∃ ps, n = .obj ps ∧
    (∀ p ∈ ps, w.search p.1 ≠ none) ∧ ∀ kvs, v = .dict kvs → ∀ k x s, (k, x) ∈ kvs → PatternFor w its k s → fit s x
  additionalProperties : ∀ n, dictGet c!"additionalProperties" its = some n → SchemaNode n ∧
    ∀ kvs, v = .dict kvs → ∀ k x, (k, x) ∈ kvs → ¬ Named its k → (¬ ∃ t, PatternFor w its k t) → fit n x
  /-- a boolean; not `false` next to `additionalProperties` or to a keyword that applies a schema to the same object -/
  unevaluatedProperties : ∀ n, dictGet c!"unevaluatedProperties" its = some n → ∃ b, n = .bool b ∧
    (b = false → dictGet c!"additionalProperties" its = none ∧
      ∀ k ∈ [c!"allOf", c!"anyOf", c!"oneOf", c!"not", c!"if", c!"dependentSchemas"], dictGet k its = none)
  propertyNames : ∀ n, dictGet c!"propertyNames" its = some n → (∃ kvs, n = .obj kvs) ∧
    ∀ kvs, v = .dict kvs → ∀ k x, (k, x) ∈ kvs → fit n (.str k)
  required : ∀ n, dictGet c!"required" its = some n → (∃ ns : List Str, n = .arr (ns.map .str)) ∧ ∃ kvs, v = .dict kvs
  dependentRequired : ∀ n, dictGet c!"dependentRequired" its = some n →
    ∃ m : List (Str × List Str), n = .obj (m.map fun p => (p.1, .arr (p.2.map .str)))
  dependentSchemas : ∀ n, dictGet c!"dependentSchemas" its = some n → ∃ m, n = .obj m ∧
    ∀ kvs, v = .dict kvs → ∀ k s, (k, s) ∈ m → k ∈ kvs.map Prod.fst → fit s v
  allOf : ∀ n, dictGet c!"allOf" its = some n → ∃ xs, n = .arr xs ∧ ∀ s ∈ xs, fit s v
  /-- at least one alternative -/
  anyOf : ∀ n, dictGet c!"anyOf" its = some n → ∃ xs, n = .arr xs ∧ xs ≠ [] ∧ ∀ s ∈ xs, fit s v
  oneOf : ∀ n, dictGet c!"oneOf" its = some n → ∃ xs, n = .arr xs ∧ xs ≠ [] ∧ ∀ s ∈ xs, fit s v
  not : ∀ n, dictGet c!"not" its = some n → (∃ kvs, n = .obj kvs) ∧ fit n v
  /-- `else` is present, or `if` is satisfied -/
  ifs : ∀ n, dictGet c!"if" its = some n → (∃ kvs, n = .obj kvs) ∧ fit n v ∧
    (dictGet c!"else" its = none → sub n v)
  thens : ∀ n, dictGet c!"then" its = some n → (∃ kvs, n = .obj kvs) ∧ (dictGet c!"if" its ≠ none → fit n v)
  elses : ∀ n, dictGet c!"else" its = some n → (∃ kvs, n = .obj kvs) ∧ (dictGet c!"if" its ≠ none → fit n v)
  /-- a registered format that answers -/
  format : ∀ n, dictGet c!"format" its = some n → ∃ name check b, n = .str name ∧ w.formats name = some check ∧
    check v = .ok b ∧ ∃ s, v = .str s
  pattern : ∀ n, dictGet c!"pattern" its = some n → ∃ p m, n = .str p ∧ w.search p = some m ∧ ∃ s, v = .str s

/-- `Fits` for schemas nested less than `d` deep. -/
def FitsN (w : World) (voc : List Kw) : Nat → Node → Val → Prop
  | 0, _, _ => False
  | d + 1, n, v => match n with
    | .bool _ => True
    | .obj items => FitLayer w (FitsN w voc d) (SatN w voc d) (recognised voc items) v
    | _ => False

/-- The schema is well formed and applies to the instance by type, throughout. -/
def Fits (w : World) (voc : List Kw) (n : Node) (v : Val) : Prop := FitsN w voc (n.depth + 1) n v

mutual
/-- No member name in the value contains a brace. -/
def Val.NoBraces : Val → Prop
  | .list xs => Val.NoBracesL xs
  | .dict kvs => Val.NoBracesD kvs
  | _ => True
def Val.NoBracesL : List Val → Prop
  | [] => True
  | x :: xs => x.NoBraces ∧ Val.NoBracesL xs
def Val.NoBracesD : List (Str × Val) → Prop
  | [] => True
  | (k, x) :: xs => ('{' ∉ k ∧ '}' ∉ k) ∧ x.NoBraces ∧ Val.NoBracesD xs
end

/-- A vocabulary that knows both or none of the keywords of each pair of bounds. -/
def VocPaired (voc : List Kw) : Prop :=
  (.maximum ∈ voc ↔ .exclusiveMaximum ∈ voc) ∧ (.minimum ∈ voc ↔ .exclusiveMinimum ∈ voc)

end Verif
