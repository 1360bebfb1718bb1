import Verif.Py.Basic
/-!
# File names and their extensions
-/

namespace Verif

/-- The last part of the path `name` is something, not only dots, followed by the extension `ext`. -/
def HasExt (ext name : Str) : Prop := ∃ dir stem : Str, name = dir ++ stem ++ ext ∧ '/' ∉ stem ∧ (dir = [] ∨ ∃ d, dir = d ++ ['/']) ∧
  ∃ c ∈ stem, c ≠ '.'

/-- A possible extension: a dot and then neither dots nor slashes. -/
def IsExt (ext : Str) : Prop := ∃ w, ext = '.' :: w ∧ '.' ∉ w ∧ '/' ∉ w

end Verif
