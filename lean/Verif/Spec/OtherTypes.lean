import Verif.Model.Keywords
/-!
# Keywords and the types they are about, for C90

JSON Schema validation, section 6: a keyword about numbers accepts everything that is not a number, and so on.
-/

namespace Verif.Spec
open Verif

/-- The JSON type of plain data. -/
def dataKind : Val → Kind
  | .null => .null
  | .bool _ => .boolean
  | .int _ | .flt _ | .dec _ => .number
  | .str _ => .string
  | .list _ => .array
  | .dict _ => .object

/-- The type a keyword is about, if it is about one (validation 6.2 to 6.5, core 10.3, 11.3). -/
def about : Kw → Option Kind
  | .maximum | .minimum | .exclusiveMaximum | .exclusiveMinimum | .multipleOf => some .number
  | .minLength | .maxLength | .pattern => some .string
  | .minItems | .maxItems | .uniqueItems | .contains | .items | .prefixItems => some .array
  | .minProperties | .maxProperties | .required | .dependentRequired | .dependentSchemas | .properties | .patternProperties | .additionalProperties
  | .unevaluatedProperties | .propertyNames => some .object
  | _ => none

/-- How many characters, elements or members a value has. -/
def sizeOf? : Val → Option Nat
  | .str s => some s.length
  | .list xs => some xs.length
  | .dict kvs => some kvs.length
  | _ => none

/-- What is inside a value for a keyword that only asks for something to walk over: the elements of an array, the characters of a text as texts of
length one, the names of the members of an object. -/
def inside? : Val → Option (List Val)
  | .str s => some (s.map fun c => .str [c])
  | .list xs => some xs
  | .dict kvs => some (kvs.map fun p => .str p.1)
  | _ => none

end Verif.Spec
