import Verif.Model.Keywords
/-! # `jsoned/vocabulary.py` -/

namespace Verif

/-- `CORE_VOCABULARY` (vocabulary.py 20-24) -/
def coreVocabulary : List Kw := [.ref, .anchor, .id]

/-- `VALIDATOR_VOCABULARY` (vocabulary.py 26-40) -/
def validatorVocabulary : List Kw :=
  [.type, .enum, .exclusiveMaximum, .exclusiveMinimum, .format, .maxLength, .maximum, .minLength, .minimum,
   .multipleOf, .pattern, .properties, .patternProperties]

/-- `DRAFT_2020_12_VOCABULARY` (vocabulary.py 42) -/
def draft2020Vocabulary : List Kw := coreVocabulary ++ validatorVocabulary

end Verif
