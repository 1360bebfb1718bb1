import Verif.Py.Basic
/-! # Specification for C12: which keywords have to be read together -/

namespace Verif

/-- The members of a schema object that are to be judged together; every other combination is independent. -/
def cooperating : List (List Str) :=
  [[c!"type"], [c!"enum"], [c!"const"], [c!"maximum", c!"exclusiveMaximum"], [c!"minimum", c!"exclusiveMinimum"],
   [c!"multipleOf"], [c!"minLength"], [c!"maxLength"], [c!"minItems"], [c!"maxItems"], [c!"minProperties"],
   [c!"maxProperties"], [c!"uniqueItems"], [c!"contains", c!"minContains", c!"maxContains"],
   [c!"items", c!"prefixItems", c!"additionalItems"],
   [c!"properties", c!"patternProperties", c!"additionalProperties", c!"unevaluatedProperties", c!"propertyNames"],
   [c!"required"], [c!"dependentRequired"], [c!"dependentSchemas"], [c!"allOf"], [c!"anyOf"], [c!"oneOf"], [c!"not"],
   [c!"if", c!"then", c!"else"], [c!"format"], [c!"pattern"]]

end Verif
