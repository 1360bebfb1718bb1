import Verif.Model.Schema
import Verif.Model.Formats
/-!
# The project's own tests, run on the model

Written by tools/conformance.py from tests/keywords and tests/validators.  These are tests of the model, not proofs: each line evaluates the model and
fails the build if the outcome is not the one the project's test expects.
-/

namespace Verif.Check
open Verif Verif.Iso

/-- The patterns of the tests with the texts of the tests they are found in (computed with Python's `re`). -/
def found : List (Str × List Str) := [
  (c!"[a-z]+", [c!"(888)555-1212 ext. 532", c!".com", c!"555 Debtor's Lane", c!"Bob", c!"John Doe", c!"[a-z]+", c!"^an?_", c!"a", c!"a_name", c!"aa", c!"abc", c!"abc@gmail.com", c!"abcd", c!"additionalProperties", c!"address", c!"age", c!"allOf", c!"an_email", c!"anyOf", c!"b", c!"ba@test.com", c!"bc", c!"billing_address", c!"bob@builder.com", c!"boolean", c!"c", c!"const", c!"contains", c!"credit_card", c!"date-time", c!"dependentRequired", c!"dependentSchemas", c!"edfgkaoe", c!"email", c!"enum", c!"exclusiveMaximum", c!"exclusiveMinimum", c!"extra", c!"format", c!"integer", c!"invalid", c!"items", c!"maxItems", c!"maxLength", c!"maxProperties", c!"maximum", c!"minItems", c!"minLength", c!"minProperties", c!"minimum", c!"multipleOf", c!"name", c!"not", c!"number", c!"object", c!"oneOf", c!"pattern", c!"patternProperties", c!"prefixItems", c!"properties", c!"propertyNames", c!"required", c!"string", c!"test", c!"test@email.com", c!"test@test.com", c!"too long to pass the test", c!"type", c!"unevaluatedProperties", c!"uniqueItems", c!"unknown"]),
  (c!"^(\\([0-9]{3}\\))?[0-9]{3}-[0-9]{4}$", [c!"(888)555-1212", c!"555-1212"]),
  (c!"^I_", [c!"I_0", c!"I_1"]),
  (c!"^S_", [c!"S_0", c!"S_1"]),
  (c!"^an?_", [c!"a_name", c!"an_email"])]

/-- What the model takes from outside. -/
def world : World where
  search p := (dictGet p found).map fun hits t => hits.contains t
  formats _ := none
  parseDec t := if t.all (fun c => '0' ≤ c ∧ c ≤ '9') ∧ t ≠ [] then some (.fin (t.foldl (fun n c => n * 10 + (c.toNat - 48)) 0 : Nat)) else none
  reprBody _ := []

/-- Seconds written with at most six decimals, without rounding. -/
def secs : Secs .ascii where
  micros t := match t.dropWhile (· != '.') with
    | [] => some ((UDB.ascii.natOf t : Nat) * 1000000 : Int)
    | _ :: b => some ((UDB.ascii.natOf (t.takeWhile (· != '.') ++ (b ++ List.replicate 6 '0').take 6) : Nat) : Int)
  whole ds h _ := by
    have hd : ∀ c ∈ ds, (c != '.') = true := fun c hc => by
      have := h c hc
      simp only [bne_iff_ne, ne_eq]; rintro rfl; revert this; decide
    have e : ∀ l : Str, (∀ c ∈ l, (c != '.') = true) → l.dropWhile (· != '.') = [] := by
      intro l; induction l with
      | nil => simp
      | cons a l ih => intro hl; simp only [List.dropWhile_cons, hl a (by simp), if_true]; exact ih fun c hc => hl c (by simp [hc])
    simp only [e ds hd]; rfl

def env : Formats.Env where
  u := .ascii
  secs := secs
  str _ := []
  lib _ _ := true

def run (voc : List Kw) (doc v : Val) : Res Unit :=
  schemaValidate (Formats.withFormats env world []) [⟨wrap doc, []⟩] voc 50 (wrap doc) v

def accepts : Res Unit → Bool
  | .ok _ => true
  | _ => false

def refuses (codes : List Str) (path detail : Option Str) : Res Unit → Bool
  | .err (.validation e) => (codes.isEmpty || codes.contains e.code) && (match path with | some p => e.path == p | none => true) &&
    (match detail with | some d => e.detail == d | none => true)
  | _ => false

-- tests/keywords/test_additional_properties_keyword.py 17-27
#guard run [.additionalProperties] (.dict [(c!"additionalProperties", (.str c!"abc"))]) (.dict [(c!"a", (.int (1)))]) == .err .schemaParse
-- tests/keywords/test_additional_properties_keyword.py 30-57
#guard accepts (run [.additionalProperties, .properties, .type, .format] (.dict [(c!"properties", (.dict [(c!"name", (.dict [(c!"type", (.str c!"string"))])), (c!"email", (.dict [(c!"type", (.str c!"string")), (c!"format", (.str c!"email"))]))])), (c!"additionalProperties", (.dict [(c!"type", (.str c!"integer"))]))]) (.dict [(c!"name", (.str c!"Bob")), (c!"age", (.int (11)))]))
-- tests/keywords/test_additional_properties_keyword.py 60-81
#guard accepts (run [.properties, .additionalProperties, .type, .format] (.dict [(c!"properties", (.dict [(c!"name", (.dict [(c!"type", (.str c!"string"))])), (c!"email", (.dict [(c!"type", (.str c!"string")), (c!"format", (.str c!"email"))]))])), (c!"additionalProperties", (.bool false))]) (.dict [(c!"email", (.str c!"test@email.com"))]))
#guard refuses [] none none (run [.properties, .additionalProperties, .type, .format] (.dict [(c!"properties", (.dict [(c!"name", (.dict [(c!"type", (.str c!"string"))])), (c!"email", (.dict [(c!"type", (.str c!"string")), (c!"format", (.str c!"email"))]))])), (c!"additionalProperties", (.bool false))]) (.dict [(c!"extra", (.int (1)))]))
-- tests/keywords/test_all_of_keyword.py 16-26
#guard run [.allOf] (.dict [(c!"allOf", (.int (12)))]) (.str c!"abc") == .err .schemaParse
-- tests/keywords/test_all_of_keyword.py 29-40
#guard accepts (run [.allOf, .type, .maxLength] (.dict [(c!"allOf", (.list [(.dict [(c!"type", (.str c!"string"))]), (.dict [(c!"maxLength", (.int (10)))])]))]) (.str c!"test"))
-- tests/keywords/test_all_of_keyword.py 43-64
#guard refuses [] (some c!"") none (run [.allOf, .type, .maxLength] (.dict [(c!"allOf", (.list [(.dict [(c!"type", (.str c!"string"))]), (.dict [(c!"maxLength", (.int (10)))])]))]) (.str c!"too long to pass the test"))
#guard refuses [] (some c!"") none (run [.allOf, .type, .maxLength] (.dict [(c!"allOf", (.list [(.dict [(c!"type", (.str c!"string"))]), (.dict [(c!"maxLength", (.int (10)))])]))]) (.int (11)))
-- tests/keywords/test_any_of_keyword.py 16-26
#guard run [.anyOf] (.dict [(c!"anyOf", (.int (12)))]) (.str c!"abc") == .err .schemaParse
-- tests/keywords/test_any_of_keyword.py 29-41
#guard accepts (run [.anyOf, .type] (.dict [(c!"anyOf", (.list [(.dict [(c!"type", (.str c!"string"))]), (.dict [(c!"type", (.str c!"integer"))])]))]) (.str c!"test"))
#guard accepts (run [.anyOf, .type] (.dict [(c!"anyOf", (.list [(.dict [(c!"type", (.str c!"string"))]), (.dict [(c!"type", (.str c!"integer"))])]))]) (.int (12)))
-- tests/keywords/test_any_of_keyword.py 44-59
#guard refuses [] none none (run [.anyOf, .type] (.dict [(c!"anyOf", (.list [(.dict [(c!"type", (.str c!"string"))]), (.dict [(c!"type", (.str c!"integer"))])]))]) (.flt (.fin (3152519739159347 / 281474976710656) (56 / 5))))
#guard refuses [] none none (run [.anyOf, .type] (.dict [(c!"anyOf", (.list [(.dict [(c!"type", (.str c!"string"))]), (.dict [(c!"type", (.str c!"integer"))])]))]) (.bool false))
-- tests/keywords/test_const_keyword.py 16-26
#guard run [.const] (.dict [(c!"const", (.list []))]) (.str c!"abc") == .err .schemaParse
-- tests/keywords/test_const_keyword.py 29-38
#guard accepts (run [.const] (.dict [(c!"const", (.bool true))]) (.bool true))
-- tests/keywords/test_const_keyword.py 41-55
#guard refuses [c!"const_error"] none none (run [.const] (.dict [(c!"const", (.bool true))]) (.int (1)))
-- tests/keywords/test_contains_keyword.py 16-26
#guard run [.contains] (.dict [(c!"contains", (.list []))]) (.str c!"abc") == .err .schemaParse
-- tests/keywords/test_contains_keyword.py 29-39
#guard accepts (run [.contains, .type] (.dict [(c!"contains", (.dict [(c!"type", (.str c!"boolean"))]))]) (.list [(.bool true)]))
-- tests/keywords/test_contains_keyword.py 42-54
#guard refuses [c!"contains_error"] none none (run [.contains, .type] (.dict [(c!"contains", (.dict [(c!"type", (.str c!"boolean"))]))]) (.list [(.str c!"a")]))
-- tests/keywords/test_dependent_required_keyword.py 16-26
#guard run [.dependentRequired] (.dict [(c!"dependentRequired", (.list []))]) (.str c!"abc") == .err .schemaParse
-- tests/keywords/test_dependent_required_keyword.py 29-40
#guard accepts (run [.dependentRequired] (.dict [(c!"dependentRequired", (.dict [(c!"credit_card", (.list [(.str c!"billing_address")]))]))]) (.dict [(c!"a", (.int (1)))]))
#guard accepts (run [.dependentRequired] (.dict [(c!"dependentRequired", (.dict [(c!"credit_card", (.list [(.str c!"billing_address")]))]))]) (.dict [(c!"credit_card", (.str c!"number")), (c!"billing_address", (.str c!"address"))]))
-- tests/keywords/test_dependent_required_keyword.py 43-55
#guard refuses [c!"dependent_error"] none none (run [.dependentRequired] (.dict [(c!"dependentRequired", (.dict [(c!"credit_card", (.list [(.str c!"billing_address")]))]))]) (.dict [(c!"credit_card", (.str c!"number"))]))
-- tests/keywords/test_dependent_schemas_keyword.py 16-26
#guard run [.dependentSchemas] (.dict [(c!"dependentSchemas", (.list []))]) (.str c!"abc") == .err .schemaParse
-- tests/keywords/test_dependent_schemas_keyword.py 29-65
#guard accepts (run [.dependentSchemas, .type, .properties, .required] (.dict [(c!"type", (.str c!"object")), (c!"properties", (.dict [(c!"name", (.dict [(c!"type", (.str c!"string"))])), (c!"credit_card", (.dict [(c!"type", (.str c!"number"))]))])), (c!"required", (.list [(.str c!"name")])), (c!"dependentSchemas", (.dict [(c!"credit_card", (.dict [(c!"properties", (.dict [(c!"billing_address", (.dict [(c!"type", (.str c!"string"))]))])), (c!"required", (.list [(.str c!"billing_address")]))]))]))]) (.dict [(c!"name", (.str c!"John Doe")), (c!"credit_card", (.int (5555555555555555))), (c!"billing_address", (.str c!"555 Debtor's Lane"))]))
#guard accepts (run [.dependentSchemas, .type, .properties, .required] (.dict [(c!"type", (.str c!"object")), (c!"properties", (.dict [(c!"name", (.dict [(c!"type", (.str c!"string"))])), (c!"credit_card", (.dict [(c!"type", (.str c!"number"))]))])), (c!"required", (.list [(.str c!"name")])), (c!"dependentSchemas", (.dict [(c!"credit_card", (.dict [(c!"properties", (.dict [(c!"billing_address", (.dict [(c!"type", (.str c!"string"))]))])), (c!"required", (.list [(.str c!"billing_address")]))]))]))]) (.dict [(c!"name", (.str c!"John Doe")), (c!"billing_address", (.str c!"555 Debtor's Lane"))]))
-- tests/keywords/test_enum_keyword.py 17-27
#guard run [.enum] (.dict [(c!"enum", (.bool true))]) (.str c!"abc") == .err .schemaParse
-- tests/keywords/test_enum_keyword.py 30-40
#guard accepts (run [.enum] (.dict [(c!"enum", (.list [(.str c!"a"), (.int (1))]))]) (.str c!"a"))
#guard accepts (run [.enum] (.dict [(c!"enum", (.list [(.str c!"a"), (.int (1))]))]) (.int (1)))
-- tests/keywords/test_enum_keyword.py 43-57
#guard refuses [c!"enum_error"] none none (run [.enum] (.dict [(c!"enum", (.list [(.str c!"a"), (.int (1))]))]) (.bool true))
-- tests/keywords/test_exclusive_maximum_keyword.py 16-26
#guard run [.exclusiveMaximum] (.dict [(c!"exclusiveMaximum", (.bool true))]) (.str c!"abc") == .err .schemaParse
-- tests/keywords/test_exclusive_maximum_keyword.py 29-39
#guard accepts (run [.exclusiveMaximum] (.dict [(c!"exclusiveMaximum", (.int (10)))]) (.int (1)))
#guard accepts (run [.exclusiveMaximum] (.dict [(c!"exclusiveMaximum", (.int (10)))]) (.int (9)))
-- tests/keywords/test_exclusive_maximum_keyword.py 42-56
#guard refuses [c!"maximum_error"] none none (run [.exclusiveMaximum] (.dict [(c!"exclusiveMaximum", (.int (10)))]) (.int (10)))
-- tests/keywords/test_exlusive_minimum_keyword.py 16-26
#guard run [.exclusiveMinimum] (.dict [(c!"exclusiveMinimum", (.bool true))]) (.str c!"abc") == .err .schemaParse
-- tests/keywords/test_exlusive_minimum_keyword.py 29-39
#guard accepts (run [.exclusiveMinimum] (.dict [(c!"exclusiveMinimum", (.int (0)))]) (.int (1)))
#guard accepts (run [.exclusiveMinimum] (.dict [(c!"exclusiveMinimum", (.int (0)))]) (.int (20)))
-- tests/keywords/test_exlusive_minimum_keyword.py 42-56
#guard refuses [c!"minimum_error"] none none (run [.exclusiveMinimum] (.dict [(c!"exclusiveMinimum", (.int (0)))]) (.int (0)))
-- tests/keywords/test_format_keyword.py 17-27
#guard run [.format] (.dict [(c!"format", (.bool true))]) (.str c!"abc") == .err .schemaParse
-- tests/keywords/test_format_keyword.py 30-39
#guard accepts (run [.format] (.dict [(c!"format", (.str c!"date-time"))]) (.str c!"2020-10-10T11:14:12"))
-- tests/keywords/test_format_keyword.py 42-56
#guard refuses [c!"format_error"] none (some c!"date-time") (run [.format] (.dict [(c!"format", (.str c!"date-time"))]) (.str c!"abcd"))
-- tests/keywords/test_items_keyword.py 16-26
#guard run [.items] (.dict [(c!"items", (.int (12)))]) (.list []) == .err .schemaParse
-- tests/keywords/test_items_keyword.py 29-39
#guard accepts (run [.items, .format] (.dict [(c!"items", (.dict [(c!"format", (.str c!"email"))]))]) (.list [(.str c!"abc@gmail.com"), (.str c!"ba@test.com")]))
-- tests/keywords/test_items_keyword.py 42-56
#guard refuses [] (some c!"1") none (run [.items, .format] (.dict [(c!"items", (.dict [(c!"format", (.str c!"email"))]))]) (.list [(.str c!"abc@gmail.com"), (.str c!"test")]))
-- tests/keywords/test_items_keyword.py 59-77
#guard accepts (run [.items, .type, .format] (.dict [(c!"items", (.list [(.dict [(c!"format", (.str c!"email"))]), (.dict [(c!"type", (.str c!"number"))]), (.dict [(c!"type", (.str c!"boolean"))])]))]) (.list [(.str c!"abc@gmail.com"), (.flt (.fin (6980579422424269 / 562949953421312) (62 / 5))), (.bool true)]))
#guard refuses [] (some c!"2") none (run [.items, .type, .format] (.dict [(c!"items", (.list [(.dict [(c!"format", (.str c!"email"))]), (.dict [(c!"type", (.str c!"number"))]), (.dict [(c!"type", (.str c!"boolean"))])]))]) (.list [(.str c!"abc@gmail.com"), (.flt (.fin (3462142213541069 / 281474976710656) (123 / 10)))]))
-- tests/keywords/test_max_items_keyword.py 17-27
#guard run [.maxItems] (.dict [(c!"maxItems", (.bool true))]) (.str c!"abc") == .err .schemaParse
-- tests/keywords/test_max_items_keyword.py 30-39
#guard accepts (run [.maxItems] (.dict [(c!"maxItems", (.int (3)))]) (.list [(.int (1)), (.int (2)), (.int (3))]))
-- tests/keywords/test_max_items_keyword.py 42-56
#guard refuses [c!"maximum_items_error"] none none (run [.maxItems] (.dict [(c!"maxItems", (.int (3)))]) (.list [(.int (1)), (.int (2)), (.int (3)), (.int (5))]))
-- tests/keywords/test_max_length_keyword.py 16-26
#guard run [.maxLength] (.dict [(c!"maxLength", (.bool true))]) (.str c!"abc") == .err .schemaParse
-- tests/keywords/test_max_length_keyword.py 29-38
#guard accepts (run [.maxLength] (.dict [(c!"maxLength", (.int (3)))]) (.str c!"abc"))
-- tests/keywords/test_max_length_keyword.py 41-56
#guard refuses [c!"max_length_error"] none none (run [.maxLength] (.dict [(c!"maxLength", (.int (3)))]) (.str c!"abcd"))
-- tests/keywords/test_max_properties_keyword.py 17-27
#guard run [.maxProperties] (.dict [(c!"maxProperties", (.bool true))]) (.str c!"abc") == .err .schemaParse
-- tests/keywords/test_max_properties_keyword.py 30-39
#guard accepts (run [.maxProperties] (.dict [(c!"maxProperties", (.int (2)))]) (.dict [(c!"a", (.int (1))), (c!"b", (.int (2)))]))
-- tests/keywords/test_max_properties_keyword.py 42-56
#guard refuses [c!"maximum_properties_error"] none none (run [.maxProperties] (.dict [(c!"maxProperties", (.int (2)))]) (.dict [(c!"a", (.int (1))), (c!"b", (.int (2))), (c!"c", (.int (3)))]))
-- tests/keywords/test_maximum_keyword.py 16-26
#guard run [.maximum] (.dict [(c!"maximum", (.bool true))]) (.str c!"abc") == .err .schemaParse
-- tests/keywords/test_maximum_keyword.py 29-40
#guard accepts (run [.maximum] (.dict [(c!"maximum", (.int (100)))]) (.int (0)))
#guard accepts (run [.maximum] (.dict [(c!"maximum", (.int (100)))]) (.int (1)))
#guard accepts (run [.maximum] (.dict [(c!"maximum", (.int (100)))]) (.int (20)))
-- tests/keywords/test_maximum_keyword.py 43-57
#guard refuses [c!"maximum_error"] none none (run [.maximum] (.dict [(c!"maximum", (.int (100)))]) (.int (101)))
-- tests/keywords/test_maximum_keyword.py 60-79
#guard accepts (run [.maximum] (.dict [(c!"maximum", (.int (100))), (c!"exclusiveMaximum", (.bool true))]) (.int (10)))
#guard accepts (run [.maximum] (.dict [(c!"maximum", (.int (100))), (c!"exclusiveMaximum", (.bool true))]) (.int (20)))
#guard refuses [c!"maximum_error"] none none (run [.maximum] (.dict [(c!"maximum", (.int (100))), (c!"exclusiveMaximum", (.bool true))]) (.int (100)))
-- tests/keywords/test_min_items_keyword.py 17-27
#guard run [.minItems] (.dict [(c!"minItems", (.bool true))]) (.str c!"abc") == .err .schemaParse
-- tests/keywords/test_min_items_keyword.py 30-39
#guard accepts (run [.minItems] (.dict [(c!"minItems", (.int (3)))]) (.list [(.int (1)), (.int (2)), (.int (3))]))
-- tests/keywords/test_min_items_keyword.py 42-56
#guard refuses [c!"minimum_items_error"] none none (run [.minItems] (.dict [(c!"minItems", (.int (3)))]) (.list [(.int (1))]))
-- tests/keywords/test_min_length_keyword.py 17-27
#guard run [.minLength] (.dict [(c!"minLength", (.bool true))]) (.str c!"abc") == .err .schemaParse
-- tests/keywords/test_min_length_keyword.py 30-39
#guard accepts (run [.minLength] (.dict [(c!"minLength", (.int (3)))]) (.str c!"abc"))
-- tests/keywords/test_min_length_keyword.py 42-57
#guard refuses [c!"min_length_error"] none none (run [.minLength] (.dict [(c!"minLength", (.int (3)))]) (.str c!"1"))
-- tests/keywords/test_min_properties_keyword.py 17-27
#guard run [.minProperties] (.dict [(c!"minProperties", (.bool true))]) (.str c!"abc") == .err .schemaParse
-- tests/keywords/test_min_properties_keyword.py 30-39
#guard accepts (run [.minProperties] (.dict [(c!"minProperties", (.int (2)))]) (.dict [(c!"a", (.int (1))), (c!"b", (.int (2)))]))
-- tests/keywords/test_min_properties_keyword.py 42-56
#guard refuses [c!"minimum_properties_error"] none none (run [.minProperties] (.dict [(c!"minProperties", (.int (2)))]) (.dict [(c!"a", (.int (1)))]))
-- tests/keywords/test_minimum_keyword.py 16-26
#guard run [.minimum] (.dict [(c!"minimum", (.bool true))]) (.str c!"abc") == .err .schemaParse
-- tests/keywords/test_minimum_keyword.py 29-40
#guard accepts (run [.minimum] (.dict [(c!"minimum", (.int (0)))]) (.int (0)))
#guard accepts (run [.minimum] (.dict [(c!"minimum", (.int (0)))]) (.int (1)))
#guard accepts (run [.minimum] (.dict [(c!"minimum", (.int (0)))]) (.int (20)))
-- tests/keywords/test_minimum_keyword.py 43-57
#guard refuses [c!"minimum_error"] none none (run [.minimum] (.dict [(c!"minimum", (.int (0)))]) (.int (-1)))
-- tests/keywords/test_minimum_keyword.py 60-79
#guard accepts (run [.minimum] (.dict [(c!"minimum", (.int (0))), (c!"exclusiveMinimum", (.bool true))]) (.int (1)))
#guard accepts (run [.minimum] (.dict [(c!"minimum", (.int (0))), (c!"exclusiveMinimum", (.bool true))]) (.int (2)))
#guard refuses [c!"minimum_error"] none none (run [.minimum] (.dict [(c!"minimum", (.int (0))), (c!"exclusiveMinimum", (.bool true))]) (.int (0)))
-- tests/keywords/test_multiple_of_keyword.py 16-26
#guard run [.multipleOf] (.dict [(c!"multipleOf", (.bool true))]) (.str c!"abc") == .err .schemaParse
-- tests/keywords/test_multiple_of_keyword.py 29-40
#guard accepts (run [.multipleOf] (.dict [(c!"multipleOf", (.int (10)))]) (.int (0)))
#guard accepts (run [.multipleOf] (.dict [(c!"multipleOf", (.int (10)))]) (.int (10)))
#guard accepts (run [.multipleOf] (.dict [(c!"multipleOf", (.int (10)))]) (.int (20)))
-- tests/keywords/test_multiple_of_keyword.py 43-57
#guard refuses [c!"multiple_of_error"] none none (run [.multipleOf] (.dict [(c!"multipleOf", (.int (10)))]) (.int (23)))
-- tests/keywords/test_not_keyword.py 16-26
#guard run [.not] (.dict [(c!"not", (.int (12)))]) (.str c!"abc") == .err .schemaParse
-- tests/keywords/test_not_keyword.py 29-38
#guard accepts (run [.not, .type] (.dict [(c!"not", (.dict [(c!"type", (.str c!"string"))]))]) (.bool false))
#guard accepts (run [.not, .type] (.dict [(c!"not", (.dict [(c!"type", (.str c!"string"))]))]) (.int (12)))
-- tests/keywords/test_not_keyword.py 41-50
#guard refuses [] none none (run [.not, .type] (.dict [(c!"not", (.dict [(c!"type", (.str c!"string"))]))]) (.str c!"a"))
-- tests/keywords/test_one_of_keyword.py 16-26
#guard run [.oneOf] (.dict [(c!"oneOf", (.int (12)))]) (.str c!"abc") == .err .schemaParse
-- tests/keywords/test_one_of_keyword.py 29-41
#guard accepts (run [.oneOf, .type] (.dict [(c!"oneOf", (.list [(.dict [(c!"type", (.str c!"string"))]), (.dict [(c!"type", (.str c!"integer"))])]))]) (.str c!"test"))
#guard accepts (run [.oneOf, .type] (.dict [(c!"oneOf", (.list [(.dict [(c!"type", (.str c!"string"))]), (.dict [(c!"type", (.str c!"integer"))])]))]) (.int (12)))
-- tests/keywords/test_one_of_keyword.py 44-60
#guard refuses [] none none (run [.oneOf, .type] (.dict [(c!"oneOf", (.list [(.dict [(c!"type", (.str c!"string"))]), (.dict [(c!"type", (.str c!"integer"))]), (.dict [(c!"type", (.str c!"string"))])]))]) (.str c!"a"))
#guard refuses [] none none (run [.oneOf, .type] (.dict [(c!"oneOf", (.list [(.dict [(c!"type", (.str c!"string"))]), (.dict [(c!"type", (.str c!"integer"))]), (.dict [(c!"type", (.str c!"string"))])]))]) (.bool false))
-- tests/keywords/test_pattern_keyword.py 17-27
#guard run [.pattern] (.dict [(c!"pattern", (.bool true))]) (.str c!"abc") == .err .schemaParse
-- tests/keywords/test_pattern_keyword.py 30-42
#guard accepts (run [.pattern] (.dict [(c!"type", (.str c!"string")), (c!"pattern", (.str c!"^(\\([0-9]{3}\\))?[0-9]{3}-[0-9]{4}$"))]) (.str c!"555-1212"))
#guard accepts (run [.pattern] (.dict [(c!"type", (.str c!"string")), (c!"pattern", (.str c!"^(\\([0-9]{3}\\))?[0-9]{3}-[0-9]{4}$"))]) (.str c!"(888)555-1212"))
-- tests/keywords/test_pattern_keyword.py 45-64
#guard refuses [c!"format_error"] none (some c!"^(\\([0-9]{3}\\))?[0-9]{3}-[0-9]{4}$") (run [.pattern] (.dict [(c!"type", (.str c!"string")), (c!"pattern", (.str c!"^(\\([0-9]{3}\\))?[0-9]{3}-[0-9]{4}$"))]) (.str c!"(888)555-1212 ext. 532"))
#guard refuses [c!"format_error"] none none (run [.pattern] (.dict [(c!"type", (.str c!"string")), (c!"pattern", (.str c!"^(\\([0-9]{3}\\))?[0-9]{3}-[0-9]{4}$"))]) (.str c!"(800)FLOWERS"))
-- tests/keywords/test_pattern_properties_keyword.py 16-26
#guard run [.patternProperties] (.dict [(c!"patternProperties", (.str c!"abc"))]) (.str c!"abc") == .err .schemaParse
-- tests/keywords/test_pattern_properties_keyword.py 29-49
#guard accepts (run [.patternProperties, .type, .format] (.dict [(c!"patternProperties", (.dict [(c!"^S_", (.dict [(c!"type", (.str c!"string"))])), (c!"^I_", (.dict [(c!"type", (.str c!"integer"))]))]))]) (.dict [(c!"S_1", (.str c!"Bob")), (c!"I_1", (.int (20)))]))
-- tests/keywords/test_pattern_properties_keyword.py 52-71
#guard refuses [] (some c!"S_1") none (run [.patternProperties, .type, .format] (.dict [(c!"patternProperties", (.dict [(c!"^S_", (.dict [(c!"type", (.str c!"string"))])), (c!"^I_", (.dict [(c!"type", (.str c!"integer"))]))]))]) (.dict [(c!"S_1", (.int (123)))]))
-- tests/keywords/test_pattern_properties_keyword.py 74-104
#guard accepts (run [.properties, .patternProperties, .type, .format] (.dict [(c!"properties", (.dict [(c!"S_0", (.dict [(c!"type", (.str c!"integer"))]))])), (c!"patternProperties", (.dict [(c!"^S_", (.dict [(c!"type", (.str c!"string"))])), (c!"^I_", (.dict [(c!"type", (.str c!"integer"))]))]))]) (.dict [(c!"S_0", (.int (123))), (c!"S_1", (.str c!"string")), (c!"I_0", (.int (123)))]))
#guard refuses [] (some c!"S_0") none (run [.properties, .patternProperties, .type, .format] (.dict [(c!"properties", (.dict [(c!"S_0", (.dict [(c!"type", (.str c!"integer"))]))])), (c!"patternProperties", (.dict [(c!"^S_", (.dict [(c!"type", (.str c!"string"))])), (c!"^I_", (.dict [(c!"type", (.str c!"integer"))]))]))]) (.dict [(c!"S_0", (.str c!"abc")), (c!"S_1", (.str c!"string")), (c!"I_0", (.int (123)))]))
-- tests/keywords/test_prefix_items_keyword.py 16-26
#guard run [.prefixItems] (.dict [(c!"prefixItems", (.int (12)))]) (.list []) == .err .schemaParse
-- tests/keywords/test_prefix_items_keyword.py 29-41
#guard accepts (run [.prefixItems, .format] (.dict [(c!"prefixItems", (.list [(.dict [(c!"format", (.str c!"email"))])]))]) (.list [(.str c!"abc@gmail.com")]))
-- tests/keywords/test_prefix_items_keyword.py 44-60
#guard refuses [] (some c!"0") none (run [.prefixItems, .format] (.dict [(c!"prefixItems", (.list [(.dict [(c!"format", (.str c!"email"))])]))]) (.list [(.str c!".com")]))
-- tests/keywords/test_properties_keyword.py 16-26
#guard run [.properties] (.dict [(c!"properties", (.str c!"abc"))]) (.str c!"abc") == .err .schemaParse
-- tests/keywords/test_properties_keyword.py 29-57
#guard accepts (run [.properties, .type, .format] (.dict [(c!"properties", (.dict [(c!"name", (.dict [(c!"type", (.str c!"string"))])), (c!"email", (.dict [(c!"type", (.str c!"string")), (c!"format", (.str c!"email"))]))]))]) (.dict [(c!"name", (.str c!"Bob")), (c!"email", (.str c!"bob@builder.com"))]))
-- tests/keywords/test_properties_keyword.py 60-80
#guard refuses [] (some c!"email") none (run [.properties, .type, .format] (.dict [(c!"properties", (.dict [(c!"name", (.dict [(c!"type", (.str c!"string"))])), (c!"email", (.dict [(c!"type", (.str c!"string")), (c!"format", (.str c!"email"))]))]))]) (.dict [(c!"email", (.str c!"invalid"))]))
-- tests/keywords/test_property_names_keyword.py 16-26
#guard run [.propertyNames] (.dict [(c!"propertyNames", (.str c!"abc"))]) (.str c!"abc") == .err .schemaParse
-- tests/keywords/test_property_names_keyword.py 29-47
#guard accepts (run [.propertyNames, .pattern] (.dict [(c!"propertyNames", (.dict [(c!"pattern", (.str c!"^an?_"))]))]) (.dict [(c!"a_name", (.str c!"Bob")), (c!"an_email", (.str c!"bob@builder.com"))]))
-- tests/keywords/test_property_names_keyword.py 50-64
#guard refuses [] (some c!"email") none (run [.propertyNames, .pattern] (.dict [(c!"propertyNames", (.dict [(c!"pattern", (.str c!"^an?_"))]))]) (.dict [(c!"email", (.str c!"invalid"))]))
-- tests/keywords/test_required_properties_keyword.py 16-26
#guard run [.required] (.dict [(c!"required", (.int (123)))]) (.str c!"abc") == .err .schemaParse
-- tests/keywords/test_required_properties_keyword.py 29-45
#guard accepts (run [.required, .type, .format] (.dict [(c!"required", (.list [(.str c!"a"), (.str c!"b")]))]) (.dict [(c!"a", (.int (1))), (c!"b", (.int (2))), (c!"c", (.int (3)))]))
-- tests/keywords/test_required_properties_keyword.py 48-64
#guard refuses [] (some c!"") none (run [.required, .type, .format] (.dict [(c!"required", (.list [(.str c!"a"), (.str c!"b")]))]) (.dict [(c!"a", (.int (123)))]))
-- tests/keywords/test_type_keyword.py 16-26
#guard run [.type] (.dict [(c!"type", (.str c!"unknown"))]) (.str c!"abc") == .err .schemaParse
-- tests/keywords/test_type_keyword.py 29-38
#guard accepts (run [.type] (.dict [(c!"type", (.str c!"boolean"))]) (.bool true))
-- tests/keywords/test_type_keyword.py 41-56
#guard refuses [c!"type_error"] none none (run [.type] (.dict [(c!"type", (.str c!"boolean"))]) (.str c!"1"))
-- tests/keywords/test_unevaluated_properties_keyword.py 16-26
#guard run [.unevaluatedProperties] (.dict [(c!"unevaluatedProperties", (.str c!"abc"))]) (.dict [(c!"a", (.int (1)))]) == .err .schemaParse
-- tests/keywords/test_unevaluated_properties_keyword.py 29-53
#guard accepts (run [.unevaluatedProperties, .properties, .type, .format] (.dict [(c!"properties", (.dict [(c!"name", (.dict [(c!"type", (.str c!"string"))])), (c!"email", (.dict [(c!"type", (.str c!"string")), (c!"format", (.str c!"email"))]))])), (c!"unevaluatedProperties", (.bool false))]) (.dict [(c!"name", (.str c!"Bob"))]))
-- tests/keywords/test_unevaluated_properties_keyword.py 56-77
#guard refuses [] (some c!"extra") none (run [.properties, .unevaluatedProperties, .type, .format] (.dict [(c!"properties", (.dict [(c!"name", (.dict [(c!"type", (.str c!"string"))])), (c!"email", (.dict [(c!"type", (.str c!"string")), (c!"format", (.str c!"email"))]))])), (c!"unevaluatedProperties", (.bool false))]) (.dict [(c!"extra", (.int (1)))]))
-- tests/keywords/test_unique_items_keyword.py 16-26
#guard run [.uniqueItems] (.dict [(c!"uniqueItems", (.int (12)))]) (.list []) == .err .schemaParse
-- tests/keywords/test_unique_items_keyword.py 29-37
#guard accepts (run [.uniqueItems] (.dict [(c!"uniqueItems", (.bool true))]) (.list [(.str c!"abc@gmail.com"), (.str c!"ba@test.com")]))
-- tests/keywords/test_unique_items_keyword.py 40-52
#guard refuses [] (some c!"1") none (run [.uniqueItems] (.dict [(c!"uniqueItems", (.bool true))]) (.list [(.str c!"abc@gmail.com"), (.str c!"abc@gmail.com")]))
-- tests/validators/test_const_validator.py 15-20
#guard accepts (run [.const] (.dict [(c!"const", (.str c!"test"))]) (.str c!"test"))
-- tests/validators/test_const_validator.py 23-35
#guard refuses [c!"const_error"] (some c!"") none (run [.const] (.dict [(c!"const", (.str c!"test"))]) (.str c!"a"))
-- tests/validators/test_enum_validator.py 15-23
#guard accepts (run [.enum] (.dict [(c!"enum", (.list [(.str c!"object"), (.str c!"string"), (.int (1)), (.bool false)]))]) (.str c!"object"))
#guard accepts (run [.enum] (.dict [(c!"enum", (.list [(.str c!"object"), (.str c!"string"), (.int (1)), (.bool false)]))]) (.str c!"string"))
#guard accepts (run [.enum] (.dict [(c!"enum", (.list [(.str c!"object"), (.str c!"string"), (.int (1)), (.bool false)]))]) (.int (1)))
#guard accepts (run [.enum] (.dict [(c!"enum", (.list [(.str c!"object"), (.str c!"string"), (.int (1)), (.bool false)]))]) (.bool false))
-- tests/validators/test_enum_validator.py 26-38
#guard refuses [c!"enum_error"] (some c!"") none (run [.enum] (.dict [(c!"enum", (.list [(.str c!"object"), (.str c!"string"), (.int (1)), (.bool false)]))]) (.str c!"a"))
-- tests/validators/test_number_maximum_validator.py 17-23
#guard accepts (run [.maximum] (.dict [(c!"maximum", (.dec (.fin (10))))]) (.int (10)))
#guard accepts (run [.maximum] (.dict [(c!"maximum", (.dec (.fin (10))))]) (.int (9)))
-- tests/validators/test_number_maximum_validator.py 26-32
#guard accepts (run [.exclusiveMaximum] (.dict [(c!"exclusiveMaximum", (.dec (.fin (10))))]) (.int (9)))
#guard accepts (run [.exclusiveMaximum] (.dict [(c!"exclusiveMaximum", (.dec (.fin (10))))]) (.int (8)))
-- tests/validators/test_number_maximum_validator.py 35-41
#guard refuses [c!"maximum_error"] none none (run [.maximum] (.dict [(c!"maximum", (.dec (.fin (10))))]) (.int (11)))
-- tests/validators/test_number_maximum_validator.py 44-50
#guard refuses [c!"maximum_error"] none none (run [.exclusiveMaximum] (.dict [(c!"exclusiveMaximum", (.dec (.fin (10))))]) (.int (10)))
-- tests/validators/test_number_minimum_validator.py 17-23
#guard accepts (run [.minimum] (.dict [(c!"minimum", (.dec (.fin (10))))]) (.int (10)))
#guard accepts (run [.minimum] (.dict [(c!"minimum", (.dec (.fin (10))))]) (.int (20)))
-- tests/validators/test_number_minimum_validator.py 26-32
#guard accepts (run [.exclusiveMinimum] (.dict [(c!"exclusiveMinimum", (.dec (.fin (10))))]) (.int (11)))
#guard accepts (run [.exclusiveMinimum] (.dict [(c!"exclusiveMinimum", (.dec (.fin (10))))]) (.int (20)))
-- tests/validators/test_number_minimum_validator.py 35-41
#guard refuses [c!"minimum_error"] none none (run [.minimum] (.dict [(c!"minimum", (.dec (.fin (10))))]) (.int (9)))
-- tests/validators/test_number_minimum_validator.py 44-50
#guard refuses [c!"minimum_error"] none none (run [.exclusiveMinimum] (.dict [(c!"exclusiveMinimum", (.dec (.fin (10))))]) (.int (10)))
-- tests/validators/test_number_multiple_of_validator.py 17-23
#guard accepts (run [.multipleOf] (.dict [(c!"multipleOf", (.dec (.fin (10))))]) (.int (10)))
#guard accepts (run [.multipleOf] (.dict [(c!"multipleOf", (.dec (.fin (10))))]) (.int (20)))
-- tests/validators/test_number_multiple_of_validator.py 26-32
#guard refuses [c!"multiple_of_error"] none none (run [.multipleOf] (.dict [(c!"multipleOf", (.dec (.fin (10))))]) (.str c!"11"))
-- tests/validators/test_string_format_validator.py 15-21
#guard accepts (run [.format] (.dict [(c!"format", (.str c!"email"))]) (.str c!"test@test.com"))
#guard accepts (run [.format] (.dict [(c!"format", (.str c!"email"))]) (.str c!"abc@gmail.com"))
-- tests/validators/test_string_format_validator.py 24-30
#guard refuses [c!"format_error"] none none (run [.format] (.dict [(c!"format", (.str c!"email"))]) (.str c!"abc"))
-- tests/validators/test_string_maximum_length_validator.py 15-21
#guard accepts (run [.maxLength] (.dict [(c!"maxLength", (.int (3)))]) (.str c!"abc"))
#guard accepts (run [.maxLength] (.dict [(c!"maxLength", (.int (3)))]) (.str c!"bc"))
-- tests/validators/test_string_maximum_length_validator.py 24-30
#guard refuses [c!"max_length_error"] none none (run [.maxLength] (.dict [(c!"maxLength", (.int (2)))]) (.str c!"abc"))
-- tests/validators/test_string_minimum_length_validator.py 15-20
#guard accepts (run [.minLength] (.dict [(c!"minLength", (.int (3)))]) (.str c!"abc"))
-- tests/validators/test_string_minimum_length_validator.py 23-29
#guard refuses [c!"min_length_error"] none none (run [.minLength] (.dict [(c!"minLength", (.int (10)))]) (.str c!"abc"))
-- tests/validators/test_string_pattern_validator.py 15-21
#guard accepts (run [.pattern] (.dict [(c!"pattern", (.str c!"[a-z]+"))]) (.str c!"abcd"))
#guard accepts (run [.pattern] (.dict [(c!"pattern", (.str c!"[a-z]+"))]) (.str c!"edfgkaoe"))
-- tests/validators/test_string_pattern_validator.py 24-30
#guard refuses [c!"format_error"] none none (run [.pattern] (.dict [(c!"pattern", (.str c!"[a-z]+"))]) (.str c!"@"))
-- tests/validators/test_type_validator.py 15-22
#guard accepts (run [.type] (.dict [(c!"type", (.list [(.str c!"object"), (.str c!"string")]))]) (.dict []))
#guard accepts (run [.type] (.dict [(c!"type", (.list [(.str c!"object"), (.str c!"string")]))]) (.dict [(c!"a", (.int (1)))]))
#guard accepts (run [.type] (.dict [(c!"type", (.list [(.str c!"object"), (.str c!"string")]))]) (.str c!"aa"))
-- tests/validators/test_type_validator.py 25-36
#guard refuses [c!"type_error"] (some c!"") none (run [.type] (.dict [(c!"type", (.list [(.str c!"object"), (.str c!"string")]))]) (.bool true))

end Verif.Check
