import Verif.Py.Unicode
import Verif.Py.Calendar
/-! # Specification of ISO 8601 texts (C54–C57) -/

namespace Verif.Iso
open Verif

/-- Number of days of a month in the Gregorian calendar. -/
def monthLength (y m : Nat) : Nat :=
  match m with
  | 4 | 6 | 9 | 11 => 30
  | 2 => if 4 ∣ y ∧ (100 ∣ y → 400 ∣ y) then 29 else 28
  | _ => 31

/-- A real calendar date of the years 1 to 9999. -/
def RealDate (y m d : Nat) : Prop := 1 ≤ y ∧ y ≤ 9999 ∧ 1 ≤ m ∧ m ≤ 12 ∧ 1 ≤ d ∧ d ≤ monthLength y m

/-- `T` is a digit written from `'0'` to `hi` followed by a decimal digit; `n` is the number. -/
def IsTwo (u : UDB) (hi : Char) (T : Str) (n : Nat) : Prop :=
  ∃ a b x, T = [a, b] ∧ '0' ≤ a ∧ a ≤ hi ∧ u.digit b = some x ∧ n = 10 * (a.toNat - 48) + x

/-- `T` is two decimal digits. -/
def IsDigits2 (u : UDB) (T : Str) (n : Nat) : Prop :=
  ∃ a b x y, T = [a, b] ∧ u.digit a = some x ∧ u.digit b = some y ∧ n = 10 * x + y

/-- `T` is four decimal digits. -/
def IsYear (u : UDB) (T : Str) (n : Nat) : Prop :=
  ∃ a b c d w x y z, T = [a, b, c, d] ∧ u.digit a = some w ∧ u.digit b = some x ∧ u.digit c = some y ∧
    u.digit d = some z ∧ n = 1000 * w + 100 * x + 10 * y + z

/-- An optional character. -/
def Opt (p : Char → Prop) (T : Str) : Prop := T = [] ∨ ∃ c, p c ∧ T = [c]

/-- `s` is a date `YYYY-MM-DD`, each dash optional, then `rest`. -/
def DateText (u : UDB) (s rest : Str) (y m d : Nat) : Prop :=
  ∃ Y d1 M d2 D, s = Y ++ (d1 ++ (M ++ (d2 ++ (D ++ rest)))) ∧ IsYear u Y y ∧ Opt (· = '-') d1 ∧ IsTwo u '1' M m ∧
    Opt (· = '-') d2 ∧ IsTwo u '3' D d

/-- `s` is a time of day `HH:MM:SS`, with the first and second colon present or not (`k1`, `k2`). -/
def ClockText (u : UDB) (s : Str) (h mi sec : Nat) (k1 k2 : Bool) : Prop :=
  ∃ H M S, s = H ++ ((if k1 then [':'] else []) ++ (M ++ ((if k2 then [':'] else []) ++ S))) ∧
    IsTwo u '2' H h ∧ IsTwo u '5' M mi ∧ IsTwo u '5' S sec

/-- A leap second as ISO 8601 writes it. -/
def LeapText (s : Str) : Prop := s = c!"23:59:60" ∨ s = c!"235960"

/-- `F` is nothing, or a point and at least one decimal digit. -/
def FracText (u : UDB) (F : Str) (digits : Option Str) : Prop :=
  F = [] ∧ digits = none ∨ ∃ ds, ds ≠ [] ∧ (∀ c ∈ ds, u.isDigit c = true) ∧ F = '.' :: ds ∧ digits = some ds

/-- `Z` is nothing, `z`, or a signed `HH:MM`; `off` is the offset in minutes. -/
def ZoneText (u : UDB) (Z : Str) (off : Option Int) : Prop :=
  Z = [] ∧ off = none ∨ (Z = ['z'] ∨ Z = ['Z']) ∧ off = some 0 ∨
    ∃ sg H M h m, (sg = '+' ∨ sg = '-') ∧ Z = sg :: (H ++ ':' :: M) ∧ IsDigits2 u H h ∧ IsDigits2 u M m ∧
      off = some (if sg = '+' then (h : Int) * 60 + m else -((h : Int) * 60 + m))

/-- Offsets Python's `timezone` takes. -/
def ZoneOk (off : Option Int) : Prop := ∀ t, off = some t → -1440 < t ∧ t < 1440

/-- The end of the text: Python's `$` allows one newline. -/
def End (s : Str) : Prop := s = [] ∨ s = ['\n']

/-- `s` is a time `HH:MM:SS` with fraction and offset, then `N`. -/
def TimeText (u : UDB) (s N : Str) (h mi sec : Nat) (k1 k2 : Bool) (fr : Option Str) (off : Option Int) : Prop :=
  ∃ C F Z, s = C ++ (F ++ (Z ++ N)) ∧ ClockText u C h mi sec k1 k2 ∧ FracText u F fr ∧ ZoneText u Z off

/-- `s` is a leap second with fraction and offset, then `N`. -/
def LeapTimeText (u : UDB) (s N : Str) : Prop :=
  ∃ C F Z fr off, s = C ++ (F ++ (Z ++ N)) ∧ LeapText C ∧ FracText u F fr ∧ ZoneText u Z off

/-- `s` is a date, optionally `t` or white space, then `R`. -/
def DateSepText (u : UDB) (s R : Str) (y m d : Nat) : Prop :=
  ∃ T, DateText u s (T ++ R) y m d ∧ Opt (fun c => c = 't' ∨ c = 'T' ∨ u.space c = true) T

end Verif.Iso
