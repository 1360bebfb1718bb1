import Verif.Py.Format
/-! # `jsoned/errors/*.py` -/

namespace Verif

/-- A subclass of `ValidationError`: code, message template, names of the declared attributes (errors/validation_error.py 6-9 and the subclasses in errors/*.py). -/
structure ErrClass where
  code : Str
  tmpl : Str
  fields : List Str

namespace ErrClass

/-- errors/core_validation_errors.py 9-12 -/
def typeError : ErrClass :=
  ⟨c!"type_error", c!"Passed value must be one of the following type(s) `{expected_types}`.", [c!"expected_types"]⟩
/-- errors/core_validation_errors.py 15-18 -/
def enumError : ErrClass := ⟨c!"enum_error", c!"Passed value must be one of: `{expected_values}`.", [c!"expected_values"]⟩
/-- errors/core_validation_errors.py 21-24 -/
def constError : ErrClass := ⟨c!"const_error", c!"Passed value must be equal to: `{expected_value}`", [c!"expected_value"]⟩
/-- errors/array_validation_errors.py 8-11 -/
def minContains : ErrClass :=
  ⟨c!"contains_error", c!"Array should contain specified value at least `{expected_minimum}` times.", [c!"expected_minimum"]⟩
/-- errors/array_validation_errors.py 14-17 -/
def maxContains : ErrClass :=
  ⟨c!"contains_error", c!"Array should contain specified value at most `{expected_maximum}` times.", [c!"expected_maximum"]⟩
/-- errors/array_validation_errors.py 20-23 -/
def minItems : ErrClass :=
  ⟨c!"minimum_items_error", c!"Passed value's length must be greater or equal to set minimum `{expected_minimum}`.", [c!"expected_minimum"]⟩
/-- errors/array_validation_errors.py 26-29 -/
def maxItems : ErrClass :=
  ⟨c!"maximum_items_error", c!"Passed value's length must be lower or equal to set maximum `{expected_maximum}`.", [c!"expected_maximum"]⟩
/-- errors/array_validation_errors.py 32-34 -/
def uniqueItems : ErrClass := ⟨c!"unique_items_error", c!"Passed value must contain only unique items.", []⟩
/-- errors/number_validation_error.py 6-9 -/
def multipleOf : ErrClass := ⟨c!"multiple_of_error", c!"Passed value must be multiple of `{multiple_of}`.", [c!"multiple_of"]⟩
/-- errors/number_validation_error.py 26-29 -/
def minimum : ErrClass :=
  ⟨c!"minimum_error", c!"Passed value must be greater or equal to set minimum `{expected_minimum}`.", [c!"expected_minimum"]⟩
/-- errors/number_validation_error.py 32-35 -/
def maximum : ErrClass :=
  ⟨c!"maximum_error", c!"Passed value must be lower or equal to set maximum `{expected_maximum}`.", [c!"expected_maximum"]⟩
/-- errors/object_validation_errors.py 6-9 -/
def required : ErrClass :=
  ⟨c!"required_property_error", c!"Passed value is missing property `{expected_property}`.", [c!"expected_property"]⟩
/-- errors/object_validation_errors.py 16-19 -/
def minProperties : ErrClass :=
  ⟨c!"minimum_properties_error", c!"The number of properties is lower than expected minimum: {expected_minimum}.", [c!"expected_minimum"]⟩
/-- errors/object_validation_errors.py 22-25 -/
def maxProperties : ErrClass :=
  ⟨c!"maximum_properties_error", c!"The number of properties is greater than expected maximum: {expected_maximum}.", [c!"expected_maximum"]⟩
/-- errors/object_validation_errors.py 28-32 -/
def dependent : ErrClass :=
  ⟨c!"dependent_error", c!"Property `{property}` requires `{expected_property}` to be provided.", [c!"property", c!"expected_property"]⟩
/-- errors/string_validation_errors.py 8-11 -/
def format : ErrClass := ⟨c!"format_error", c!"Passed value must conform `{expected_format}` format.", [c!"expected_format"]⟩
/-- errors/string_validation_errors.py 18-21 -/
def minLength : ErrClass :=
  ⟨c!"min_length_error", c!"Passed value must be at least `{expected_minimum}` characters long.", [c!"expected_minimum"]⟩
/-- errors/string_validation_errors.py 24-27 -/
def maxLength : ErrClass :=
  ⟨c!"max_length_error", c!"Passed value cannot exceed `{expected_maximum}` characters.", [c!"expected_maximum"]⟩
/-- The plain `ValidationError(message=..., path=...)` of `OneOfValidator` (composition_validators.py 49-52). -/
def tooMany : ErrClass :=
  ⟨c!"error", c!"Passed value matches more than one expression, exactly one expected.", [c!"message"]⟩

/-- All classes that are raised through keyword arguments (errors/*.py, the classes above). -/
def all : List ErrClass :=
  [typeError, enumError, constError, minContains, maxContains, minItems, maxItems, uniqueItems, multipleOf, minimum,
   maximum, required, minProperties, maxProperties, dependent, format, minLength, maxLength, tooMany]

end ErrClass

/-- The text `ValidationError.__str__` formats (errors/validation_error.py 26). -/
def errText (path message : Str) : Str := c!"Failed validation at `" ++ path ++ c!"`. " ++ message

/-- Raising an error through keyword arguments including `path` (errors/validation_error.py 11-20): the constructor
formats the message, so what is raised may be the formatting's own exception. -/
def raiseErr (c : ErrClass) (path : Str) (detail : Str := []) : PyErr :=
  match pyFormat (c!"path" :: c.fields) (errText path c.tmpl) with
  | some e => e
  | none => .validation ⟨c.code, path, detail⟩

/-- `TypeValidationError(expected_types=...)` without `path` (array_validators.py 17). -/
def raiseTypeNoPath : PyErr :=
  match pyFormat [c!"expected_types"] (errText [] ErrClass.typeError.tmpl) with
  | some e => e
  | none => .validation ⟨c!"type_error", [], []⟩

/-- Raising with a positional message: `FailValidator` (core_validators.py 135) and `NotValidator`
(composition_validators.py 64).  The constructor does not format (errors/validation_error.py 16-18). -/
def raisePlain (path : Str) : PyErr := .validation ⟨c!"error", path, []⟩

/-- `str(e)` for an error raised by `raiseErr` (errors/validation_error.py 25-27): `none` if it succeeds. -/
def strKeywordError (c : ErrClass) (path : Str) : Option PyErr :=
  pyFormat (c!"path" :: c.fields) (errText path c.tmpl)

/-- `str(e)` for an error raised by `raisePlain` with the given message (errors/validation_error.py 17, 25-27). -/
def strPlainError (path message : Str) : Option PyErr := pyFormat [c!"path", c!"message"] (errText path message)

end Verif
