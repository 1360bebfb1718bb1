import Verif.Model.Errors
/-!
# The texts of validation errors (`jsoned/errors/*.py`)

Model/Errors.lean says whether building and printing an error fails; here is the text it prints.  The values of the attributes (limits, lists of types, ...) are given
by the text `format(value, "")` shows for them.
-/

namespace Verif

/-- Lookup of a replacement field (CPython `get_field_object`), see `fmtField` (part of `format` at errors/validation_error.py 27). -/
def fmtValue (fields : List (Str × Str)) (name : Str) : Res Str :=
  match fmtInt 0 name with
  | some e => .err e
  | none =>
    match dictGet name fields with
    | some v => .ok v
    | none => .err .keyError

/-- The text of `text.format(**fields)` (CPython `MarkupIterator_next`, `parse_field`), see `fmtGo` (part of `format` at errors/validation_error.py 27). -/
def fmtTextGo (fields : List (Str × Str)) : Option Str → Str → Res Str
  | none, [] => .ok []
  | none, ['{'] => .err .valueError
  | none, '{' :: '{' :: r => fmtTextGo fields none r >>= fun t => .ok ('{' :: t)
  | none, '{' :: '}' :: _ => fmtValue fields []
  | none, '{' :: c :: r =>
    if c = '!' ∨ c = ':' ∨ c = '.' ∨ c = '[' then .err (fmtOdd (fields.map Prod.fst) [] (c :: r)) else fmtTextGo fields (some [c]) r
  | none, '}' :: '}' :: r => fmtTextGo fields none r >>= fun t => .ok ('}' :: t)
  | none, '}' :: _ => .err .valueError
  | none, c :: r => fmtTextGo fields none r >>= fun t => .ok (c :: t)
  | some _, [] => .err .valueError
  | some acc, c :: r =>
    if c = '}' then fmtValue fields acc.reverse >>= fun v => fmtTextGo fields none r >>= fun t => .ok (v ++ t)
    else if c = '{' then .err .valueError
    else if c = '!' ∨ c = ':' ∨ c = '.' ∨ c = '[' then .err (fmtOdd (fields.map Prod.fst) acc.reverse (c :: r))
    else fmtTextGo fields (some (c :: acc)) r

/-- `text.format(**fields)` (errors/validation_error.py 27) -/
def fmtText (fields : List (Str × Str)) (text : Str) : Res Str := fmtTextGo fields none text

/-- A `ValidationError`: its class, and the attributes set on the object itself (`__dict__`) (errors/validation_error.py 6-14). -/
structure ErrObj where
  cls : ErrClass
  dict : List (Str × Str)

namespace ErrObj

/-- `self.code`, `self.path`, `self.message`: the attribute of the object, else that of the class (errors/validation_error.py 7-9). -/
def code (e : ErrObj) : Str := (dictGet c!"code" e.dict).getD e.cls.code
/-- `self.path` (errors/validation_error.py 9) -/
def path (e : ErrObj) : Str := (dictGet c!"path" e.dict).getD []
/-- `self.message` (errors/validation_error.py 8) -/
def message (e : ErrObj) : Str := (dictGet c!"message" e.dict).getD e.cls.tmpl

/-- `ValidationError.__str__` (errors/validation_error.py 25-27). -/
def str (e : ErrObj) : Res Str := fmtText e.dict (errText e.path e.message)

/-- `ValidationError.__bool__` (errors/validation_error.py 22-23). -/
def truth (_ : ErrObj) : Bool := false

/-- The keyword arguments that become attributes (errors/validation_error.py 12-14). -/
def attrs (c : ErrClass) (kwargs : List (Str × Str)) : List (Str × Str) :=
  kwargs.filter fun p => p.1 ∈ [c!"code", c!"message", c!"path"] || p.1 ∈ c.fields

/-- `ValidationError.__init__` without positional arguments (errors/validation_error.py 11-20): the text is made at once. -/
def new (c : ErrClass) (kwargs : List (Str × Str)) : Res ErrObj := do
  let e : ErrObj := ⟨c, attrs c kwargs⟩
  let _ ← e.str
  .ok e

/-- `ValidationError.__init__` with a message (errors/validation_error.py 11-18): nothing is formatted. -/
def newWith (c : ErrClass) (message : Str) (kwargs : List (Str × Str)) : ErrObj := ⟨c, dictSet c!"message" message (attrs c kwargs)⟩

end ErrObj

/-- The class `ValidationError` itself (errors/validation_error.py 6-9). -/
def ErrClass.plain : ErrClass := ⟨c!"error", [], []⟩

/-- The places where validators raise, with the texts of what they pass (validators/*.py, at the lines below). -/
inductive Raised where
  /-- core_validators.py 115, 122 -/
  | type (expected : Str)
  /-- array_validators.py 17: no path -/
  | notArray (expected : Str)
  /-- core_validators.py 153, 166, 172 -/
  | enum (expected : Str)
  /-- core_validators.py 184, 187 -/
  | const (expected : Str)
  /-- array_validators.py 54 -/
  | minContains (limit : Str)
  /-- array_validators.py 57 -/
  | maxContains (limit : Str)
  /-- array_validators.py 68 -/
  | minItems (limit : Str)
  /-- array_validators.py 82 -/
  | maxItems (limit : Str)
  /-- array_validators.py 93 -/
  | uniqueItems
  /-- number_validators.py 22 -/
  | multipleOf (divisor : Str)
  /-- number_validators.py 35, 38 -/
  | minimum (limit : Str)
  /-- number_validators.py 51, 54 -/
  | maximum (limit : Str)
  /-- object_validators.py 18 -/
  | required (name : Str)
  /-- object_validators.py 30 -/
  | minProperties (limit : Str)
  /-- object_validators.py 39 -/
  | maxProperties (limit : Str)
  /-- object_validators.py 99 -/
  | dependent (name needed : Str)
  /-- string_validators.py 21 -/
  | minLength (limit : Str)
  /-- string_validators.py 35 -/
  | maxLength (limit : Str)
  /-- string_validators.py 49, 61 -/
  | format (name : Str)
  /-- composition_validators.py 49-52 -/
  | oneOf
  /-- composition_validators.py 64 -/
  | not
  /-- core_validators.py 135 -/
  | fail (value : Str)

/-- The class, at the places above (validators/*.py, the lines of `Raised`). -/
def Raised.cls : Raised → ErrClass
  | .type _ => .typeError
  | .notArray _ => .typeError
  | .enum _ => .enumError
  | .const _ => .constError
  | .minContains _ => .minContains
  | .maxContains _ => .maxContains
  | .minItems _ => .minItems
  | .maxItems _ => .maxItems
  | .uniqueItems => .uniqueItems
  | .multipleOf _ => .multipleOf
  | .minimum _ => .minimum
  | .maximum _ => .maximum
  | .required _ => .required
  | .minProperties _ => .minProperties
  | .maxProperties _ => .maxProperties
  | .dependent _ _ => .dependent
  | .minLength _ => .minLength
  | .maxLength _ => .maxLength
  | .format _ => .format
  | .oneOf => .plain
  | .not => .plain
  | .fail _ => .plain

/-- The keyword arguments, in the order of the code (validators/*.py, the lines of `Raised`). -/
def Raised.kwargs (path : Str) : Raised → List (Str × Str)
  | .type t => [(c!"expected_types", t), (c!"path", path)]
  | .notArray t => [(c!"expected_types", t)]
  | .enum t => [(c!"expected_values", t), (c!"path", path)]
  | .const t => [(c!"expected_value", t), (c!"path", path)]
  | .minContains t => [(c!"expected_minimum", t), (c!"path", path)]
  | .maxContains t => [(c!"expected_maximum", t), (c!"path", path)]
  | .minItems t => [(c!"expected_minimum", t), (c!"path", path)]
  | .maxItems t => [(c!"expected_maximum", t), (c!"path", path)]
  | .uniqueItems => [(c!"path", path)]
  | .multipleOf t => [(c!"multiple_of", t), (c!"path", path)]
  | .minimum t => [(c!"expected_minimum", t), (c!"path", path)]
  | .maximum t => [(c!"expected_maximum", t), (c!"path", path)]
  | .required t => [(c!"path", path), (c!"expected_property", t)]
  | .minProperties t => [(c!"path", path), (c!"expected_minimum", t)]
  | .maxProperties t => [(c!"path", path), (c!"expected_maximum", t)]
  | .dependent t u => [(c!"property", t), (c!"expected_property", u), (c!"path", path)]
  | .minLength t => [(c!"expected_minimum", t), (c!"path", path)]
  | .maxLength t => [(c!"expected_maximum", t), (c!"path", path)]
  | .format t => [(c!"path", path), (c!"expected_format", t)]
  | .oneOf => [(c!"message", c!"Passed value matches more than one expression, exactly one expected."), (c!"path", path)]
  | .not => [(c!"path", path)]
  | .fail _ => [(c!"path", path)]

/-- The positional argument (validators/composition_validators.py 64, validators/core_validators.py 135). -/
def Raised.arg : Raised → Option Str
  | .not => some c!"Failed to validate the value."
  | .fail v => some (c!"Unexpected `" ++ v ++ c!"` value passed.")
  | _ => none

/-- What is raised at a path (errors/validation_error.py 11-20). -/
def Raised.error (path : Str) (r : Raised) : Res ErrObj := match r.arg with
  | none => ErrObj.new r.cls (r.kwargs path)
  | some m => .ok (.newWith r.cls m (r.kwargs path))

end Verif
