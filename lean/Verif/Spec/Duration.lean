import Verif.Spec.Iso
/-! # What ISO 8601 durations look like -/

namespace Verif.Iso
open Verif

/-- `T` is nothing, or digits and one of the letters `L`. -/
def UnitText (u : UDB) (L : List Char) (T : Str) (v : Option Str) : Prop :=
  T = [] ∧ v = none ∨ ∃ ds l, ds ≠ [] ∧ (∀ c ∈ ds, u.isDigit c = true) ∧ l ∈ L ∧ T = ds ++ [l] ∧ v = some ds

/-- `T` is nothing, or digits with an optional fraction and the letter for seconds. -/
def SecText (u : UDB) (T : Str) (v : Option Str) : Prop :=
  T = [] ∧ v = none ∨ ∃ ds F fr l, ds ≠ [] ∧ (∀ c ∈ ds, u.isDigit c = true) ∧ FracText u F fr ∧ l ∈ ['s', 'S', 'ſ'] ∧
    T = ds ++ (F ++ [l]) ∧ v = some (ds ++ F)

/-- The part from `T` on. -/
def ClockPart (u : UDB) (X : Str) (h m sec : Option Str) : Prop :=
  X = [] ∧ h = none ∧ m = none ∧ sec = none ∨ ∃ t H M S, t ∈ ['t', 'T'] ∧ X = t :: (H ++ (M ++ S)) ∧
    UnitText u ['h', 'H'] H h ∧ UnitText u ['m', 'M'] M m ∧ SecText u S sec

/-- A digit, or the letter `T` and a digit, comes first. -/
def StartsDur (u : UDB) (s : Str) : Prop :=
  ∃ a r, s = a :: r ∧ (u.isDigit a = true ∨ a ∈ ['t', 'T'] ∧ ∃ b r', r = b :: r' ∧ u.isDigit b = true)

/-- `s` is a duration, then `N`. -/
def DurText (u : UDB) (s N : Str) (neg : Bool) (w d h m sec : Option Str) : Prop :=
  ∃ p W D X, s = (if neg then ['-'] else []) ++ p :: (W ++ (D ++ (X ++ N))) ∧ p ∈ ['p', 'P'] ∧
    StartsDur u (W ++ (D ++ (X ++ N))) ∧ UnitText u ['w', 'W'] W w ∧ UnitText u ['d', 'D'] D d ∧ ClockPart u X h m sec

/-- The number a unit stands for. -/
def unitVal (u : UDB) (v : Option Str) : Nat := (v.map u.natOf).getD 0

end Verif.Iso
