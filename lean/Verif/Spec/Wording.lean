import Verif.Model.ErrorText
/-!
# What validation errors say in words (C100)

The sentences of the documentation of the errors, with the values put in; and `str.format` as the Python documentation describes it.
-/

namespace Verif.Spec
open Verif

/-- `str.format` (Python documentation, "Format String Syntax"): text is copied, doubled braces become braces, a name in braces is replaced by the value. -/
inductive Filled (fields : List (Str × Str)) : Str → Str → Prop
  | nil : Filled fields [] []
  | char {c : Char} {r t : Str} (h1 : c ≠ '{') (h2 : c ≠ '}') (h : Filled fields r t) : Filled fields (c :: r) (c :: t)
  | opening {r t : Str} (h : Filled fields r t) : Filled fields ('{' :: '{' :: r) ('{' :: t)
  | closing {r t : Str} (h : Filled fields r t) : Filled fields ('}' :: '}' :: r) ('}' :: t)
  | field {name v r t : Str} (hn : dictGet name fields = some v) (h : Filled fields r t) : Filled fields ('{' :: (name ++ '}' :: r)) (v ++ t)

/-- The sentence. -/
def Raised.sentence : Raised → Str
  | .type t => c!"Passed value must be one of the following type(s) `" ++ (t ++ c!"`.")
  | .notArray t => c!"Passed value must be one of the following type(s) `" ++ (t ++ c!"`.")
  | .enum t => c!"Passed value must be one of: `" ++ (t ++ c!"`.")
  | .const t => c!"Passed value must be equal to: `" ++ (t ++ c!"`")
  | .minContains t => c!"Array should contain specified value at least `" ++ (t ++ c!"` times.")
  | .maxContains t => c!"Array should contain specified value at most `" ++ (t ++ c!"` times.")
  | .minItems t => c!"Passed value's length must be greater or equal to set minimum `" ++ (t ++ c!"`.")
  | .maxItems t => c!"Passed value's length must be lower or equal to set maximum `" ++ (t ++ c!"`.")
  | .uniqueItems => c!"Passed value must contain only unique items."
  | .multipleOf t => c!"Passed value must be multiple of `" ++ (t ++ c!"`.")
  | .minimum t => c!"Passed value must be greater or equal to set minimum `" ++ (t ++ c!"`.")
  | .maximum t => c!"Passed value must be lower or equal to set maximum `" ++ (t ++ c!"`.")
  | .required t => c!"Passed value is missing property `" ++ (t ++ c!"`.")
  | .minProperties t => c!"The number of properties is lower than expected minimum: " ++ (t ++ c!".")
  | .maxProperties t => c!"The number of properties is greater than expected maximum: " ++ (t ++ c!".")
  | .dependent t u => c!"Property `" ++ (t ++ (c!"` requires `" ++ (u ++ c!"` to be provided.")))
  | .minLength t => c!"Passed value must be at least `" ++ (t ++ c!"` characters long.")
  | .maxLength t => c!"Passed value cannot exceed `" ++ (t ++ c!"` characters.")
  | .format t => c!"Passed value must conform `" ++ (t ++ c!"` format.")
  | .oneOf => c!"Passed value matches more than one expression, exactly one expected."
  | .not => c!"Failed to validate the value."
  | .fail t => c!"Unexpected `" ++ (t ++ c!"` value passed.")

/-- The whole text. -/
def report (path : Str) (r : Raised) : Str := c!"Failed validation at `" ++ (path ++ (c!"`. " ++ Raised.sentence r))

/-- The path that is reported: `array_validators.py` 17 forgets it. -/
def Raised.at (path : Str) : Raised → Str
  | .notArray _ => []
  | _ => path

end Verif.Spec
