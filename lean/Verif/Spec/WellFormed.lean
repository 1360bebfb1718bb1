import Verif.Model.Keywords
/-! # Which values the keywords take (C30), as tables -/

namespace Verif

/-- JSON types a keyword takes as its value. -/
def valueKinds : Kw → List Kind
  | .type => [.string, .array]
  | .enum | .required | .prefixItems | .allOf | .anyOf | .oneOf => [.array]
  | .const => [.null, .boolean, .number, .string]
  | .maximum | .minimum | .multipleOf | .minLength | .maxLength | .minItems | .maxItems | .minProperties
  | .maxProperties => [.number]
  | .exclusiveMaximum | .exclusiveMinimum => [.boolean, .number]
  | .uniqueItems | .unevaluatedProperties => [.boolean]
  | .contains | .properties | .patternProperties | .propertyNames | .dependentRequired | .dependentSchemas | .not | .if
  | .then | .else => [.object]
  | .items => [.array, .object, .boolean]
  | .additionalProperties => [.boolean, .object]
  | .format | .pattern => [.string]
  | .ref | .anchor | .id => []

/-- The value is a finite number if it is a number at all. -/
def FiniteIfNumber (n : Node) : Prop := ∀ m, n = .num m → ∃ q, m = .fin q

/-- What a keyword's value of the right type must look like beyond its type for the keyword to be readable or be
reported as malformed: limits that count something are finite, the members of `dependentRequired` can be iterated over,
a pattern compiles. -/
def Digestible (w : World) : Kw → Node → Prop
  | .minLength, n | .maxLength, n | .minItems, n | .maxItems, n | .minProperties, n | .maxProperties, n => FiniteIfNumber n
  | .dependentRequired, n => ∀ m, n = .obj m → ∀ p ∈ m,
    (∃ xs, p.2 = .arr xs) ∨ (∃ xs, p.2 = .obj xs) ∨ ∃ xs, p.2 = .str xs
  | .pattern, n => ∀ p, n = .str p → w.search p ≠ none
  | _, _ => True

end Verif
