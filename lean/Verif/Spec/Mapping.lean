import Verif.Py.Basic
/-! # What mapping URIs to paths means -/

namespace Verif.Spec
open Verif

/-- The path `k` was mapped to last; the calls are in order. -/
def Given (calls : List (Str × Str)) (k dir : Str) : Prop := ∃ a b, calls = a ++ (k, dir) :: b ∧ ∀ c ∈ b, c.1 ≠ k

/-- Of the mapped texts that begin `s`, `k` was mapped first. -/
def MappedFirst (calls : List (Str × Str)) (s k : Str) : Prop :=
  k <+: s ∧ ∃ a d b, calls = a ++ (k, d) :: b ∧ ∀ c ∈ a, ¬ c.1 <+: s

/-- `s` is `k` followed by `rest`, from segment to segment. -/
def Under (k rest s : Str) : Prop := rest ≠ [] ∧ (s = k ++ '/' :: rest ∨ k.getLast? = some '/' ∧ s = k ++ rest)

/-- `k` is `s`, or something `s` is under. -/
def Reaches (k s : Str) : Prop := s = k ∨ ∃ rest, Under k rest s

/-- `k` is the longest of the mapped texts that reach `s`. -/
def MostSpecific (calls : List (Str × Str)) (s k : Str) : Prop :=
  k ∈ calls.map Prod.fst ∧ Reaches k s ∧ ∀ k' ∈ calls.map Prod.fst, Reaches k' s → k'.length ≤ k.length

/-- `rest` in the directory `dir`. -/
def within (dir rest : Str) : Str := dir ++ if dir.getLast? = some '/' then rest else '/' :: rest

/-- The segments joined again without the empty ones, except for the last. -/
def tidy : List Str → Str
  | [] => []
  | [x] => x
  | x :: y :: xs => if x = [] then tidy (y :: xs) else x ++ '/' :: tidy (y :: xs)

/-- What `s` should be resolved to: what the most specific of the mapped URIs was mapped to last, with the rest of `s`; if there is none,
`otherwise`. -/
def Mapped (calls : List (Str × Str)) (s : Str) (otherwise r : Res Str) : Prop :=
  (∀ k dir, MostSpecific calls s k → Given calls k dir → (s = k → r = .ok dir) ∧ ∀ rest, Under k rest s → r = .ok (within dir rest)) ∧
  ((∀ k ∈ calls.map Prod.fst, ¬ Reaches k s) → r = otherwise)

end Verif.Spec
