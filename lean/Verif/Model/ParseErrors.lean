import Verif.Model.Keywords
import Verif.Model.Pointer
/-!
# What `SchemaParseError` says (errors/schema_parse_error.py, keywords/*.py)

`Model/Keywords` has one exception `schemaParse`.  Here: which `raise` statement it is, and what message and path it makes.
-/

namespace Verif

/-- The `raise` statements (errors/schema_parse_error.py 17-29 and keywords/*.py, at the lines below). -/
inductive Fault where
  /-- `for_invalid_keyword_value(node, self.key, expected)` -/
  | value (k : Kw) (expected : Kind)
  /-- `for_keyword_missing_dependency(node, self.key, depends_on)` (exclusive_maximum_keyword.py 16, exclusive_minimum_keyword.py 16) -/
  | missing (k : Kw) (dependsOn : Str)
  /-- contains_keyword.py 19 and 24; the name of the limit -/
  | limit (name : Str)
  /-- format_keyword.py 18-22 -/
  | format (name : Str)
deriving DecidableEq

/-- The type named as the expected one, where the keyword checks a type (keywords/*.py, the first `raise` of each `apply`). -/
def Kw.expects : Kw → Kind
  | .enum | .required | .prefixItems | .allOf | .anyOf | .oneOf => .array
  | .maximum | .minimum | .multipleOf | .minLength | .maxLength | .minItems | .maxItems | .minProperties | .maxProperties
  | .exclusiveMaximum | .exclusiveMinimum => .number
  | .uniqueItems | .unevaluatedProperties => .boolean
  | .type | .const | .format | .pattern => .string
  | _ => .object

section
variable (w : World) (view : Node → Res Node) (items : List (Str × Node))

/-- The condition of the first `if` of `apply` (keywords/*.py): whether the type of the value is one the keyword goes on with. -/
def Kw.takes : Kw → Node → Bool
  | .type, .str _ | .type, .arr _ => true
  | .enum, .arr _ | .required, .arr _ | .prefixItems, .arr _ | .allOf, .arr _ | .anyOf, .arr _ | .oneOf, .arr _ => true
  | .const, .arr _ | .const, .obj _ => false
  | .const, _ => true
  | .maximum, .num _ | .minimum, .num _ | .multipleOf, .num _ | .minLength, .num _ | .maxLength, .num _ | .minItems, .num _ | .maxItems, .num _
  | .minProperties, .num _ | .maxProperties, .num _ | .exclusiveMaximum, .num _ | .exclusiveMinimum, .num _ => true
  | .exclusiveMaximum, .bool _ | .exclusiveMinimum, .bool _ | .uniqueItems, .bool _ | .unevaluatedProperties, .bool _ => true
  | .contains, .obj _ | .properties, .obj _ | .patternProperties, .obj _ | .propertyNames, .obj _ | .dependentRequired, .obj _
  | .dependentSchemas, .obj _ | .not, .obj _ | .if, .obj _ | .then, .obj _ | .else, .obj _ => true
  | .items, .arr _ | .items, .obj _ | .items, .bool _ => true
  | .additionalProperties, .obj _ | .additionalProperties, .bool _ => true
  | .format, .str _ | .pattern, .str _ => true
  | .ref, _ | .anchor, _ | .id, _ => true
  | _, _ => false

/-- A limit of `contains` (contains_keyword.py 17-25): whether it raises this error, and whether the next one is looked at. -/
def limitFault (s : Str) : Option Fault × Bool :=
  match dictGet s items with
  | none => (none, true)
  | some n => match view n with
    | .ok (.num m) => (none, match (if n.isRef then .err .unmodelled else m.toInt : Res Int) with | .ok _ => true | _ => false)
    | .ok _ => (some (.limit s), false)
    | _ => (none, false)

/-- The fault `apply` finds in the value `n` of its keyword, which stands for `x` (keywords/*.py, the `raise` statements of each `apply`). -/
def faultIn (k : Kw) (n x : Node) : Option Fault :=
  if !k.takes x then some (.value k k.expects)
  else match k, x with
    | .type, .str _ => if nodeStr w n ∈ validTypes then none else some (.value .type .string)
    | .type, .arr xs => match seqOf n xs with
      | .ok ys => if (ys.map (nodeStr w)).all (· ∈ validTypes) then none else some (.value .type .string)
      | _ => none
    | .exclusiveMaximum, .bool _ => if dictHas c!"maximum" items then none else some (.missing .exclusiveMaximum c!"maximum")
    | .exclusiveMinimum, .bool _ => if dictHas c!"minimum" items then none else some (.missing .exclusiveMinimum c!"minimum")
    | .format, _ => if (w.formats (nodeStr w n)).isNone then some (.format (nodeStr w n)) else none
    | .contains, _ =>
      let l := limitFault view items c!"minContains"
      if l.2 then (limitFault view items c!"maxContains").1 else l.1
    | _, _ => none

/-- The `SchemaParseError` of a keyword, if it raises one (keywords/*.py, the `raise` statements of each `apply`). -/
def faultOf (k : Kw) : Option Fault :=
  match dictGet k.key items with
  | none => none
  | some n => match view n with
    | .ok x => if k.isAssertion then faultIn w view items k n x else none
    | _ => none

end

/-- The exception (errors/schema_parse_error.py 10-15). -/
structure ParseError where
  message : Str
  path : List Str

/-- `Parsing failed at ...` (errors/schema_parse_error.py 19 and 26) -/
def parseFailed (path : List Str) : Str := c!"Parsing failed at `" ++ Pointer.print path ++ c!"`."

/-- The message (errors/schema_parse_error.py 17-29, format_keyword.py 18-22, contains_keyword.py 19, 24).  In the two class methods the second
line is an expression statement of its own, evaluated and dropped, so that the keyword and the types are not part of the message. -/
def Fault.message (path : List Str) : Fault → Str
  | .value _ _ => parseFailed path ++ c!" Passed document is not a valid json schema object. "
  | .missing _ _ => parseFailed path ++ c!" Passed document is not a valid json schema object. "
  | .limit s => c!"`" ++ s ++ c!"` property must be a positive integer."
  | .format s => parseFailed path ++ c!" Unrecognized format type `" ++ s ++ c!"`.Please use _StringFormat to register your custom format type."

/-- The exception raised for a schema object at `path` (errors/schema_parse_error.py 13-29). -/
def Fault.report (path : List Str) (e : Fault) : ParseError := ⟨e.message path, path⟩

/-- The keyword it is about (not a function of the code). -/
def Fault.keyword : Fault → Str
  | .value k _ => k.key
  | .missing k _ => k.key
  | .limit s => s
  | .format _ => c!"format"

end Verif
