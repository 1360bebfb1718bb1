import Verif.Py.Basic
/-! # RFC 6901 JSON pointers, independent of the code -/

namespace Verif.Spec.Pointer
open Verif

/-- Every `~` is followed by `0` or `1`. -/
def TildesOk (p : Str) : Prop :=
  ∀ a b, p = a ++ '~' :: b → ∃ c b', b = c :: b' ∧ (c = '0' ∨ c = '1')

/-- RFC 6901 section 3: a pointer is empty or starts with `/`, and its tildes are escapes. -/
def IsPointer (p : Str) : Prop := (p = [] ∨ ∃ r, p = '/' :: r) ∧ TildesOk p

/-- RFC 6901 section 4: decoding of one reference token, left to right. -/
def decode : Str → Str
  | '~' :: '0' :: r => '~' :: decode r
  | '~' :: '1' :: r => '/' :: decode r
  | c :: r => c :: decode r
  | [] => []

/-- The tokens a pointer text stands for. -/
inductive Denotes : Str → List Str → Prop
  | nil : Denotes [] []
  | cons {tok rest : Str} {ts : List Str} (h : '/' ∉ tok) (hr : Denotes rest ts) :
      Denotes ('/' :: (tok ++ rest)) (decode tok :: ts)

end Verif.Spec.Pointer
