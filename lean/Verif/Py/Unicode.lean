import Verif.Py.Basic
/-!
# The Unicode tables Python's `re`, `int` and `str` consult

Theorems hold for every table that agrees with ASCII; the real one is such a table.
-/

namespace Verif

/-- What is used of the Unicode character database. -/
structure UDB where
  /-- Decimal digit value (`\d`, `int`). -/
  digit : Char → Option Nat
  /-- White space (`\s`). -/
  space : Char → Bool
  digit_lt : ∀ c n, digit c = some n → n < 10
  digit_ascii : ∀ c : Char, c.toNat < 128 → digit c = if 48 ≤ c.toNat ∧ c.toNat ≤ 57 then some (c.toNat - 48) else none
  /-- `ſ`, which `re.I` takes for an `s`, is not a digit. -/
  digit_long_s : digit 'ſ' = none
  /-- A digit is not white space. -/
  digit_not_space : ∀ c n, digit c = some n → space c = false
  space_ascii : ∀ c : Char, c.toNat < 128 → space c = (c.toNat == 32 || (9 ≤ c.toNat && c.toNat ≤ 13) || (28 ≤ c.toNat && c.toNat ≤ 31))

namespace UDB

/-- `\d` -/
def isDigit (u : UDB) (c : Char) : Bool := (u.digit c).isSome

/-- The number written by decimal digits. -/
def natOf (u : UDB) (s : Str) : Nat := s.foldl (fun n c => n * 10 + (u.digit c).getD 0) 0

/-- `int(s)` on a string of decimal digits; Python refuses more than 4300 of them. -/
def intText (u : UDB) (s : Str) : Res Nat := if s.length > 4300 then .err .valueError else .ok (u.natOf s)

/-- A table with nothing beyond ASCII. -/
def ascii : UDB where
  digit c := if 48 ≤ c.toNat ∧ c.toNat ≤ 57 then some (c.toNat - 48) else none
  space c := c.toNat == 32 || (9 ≤ c.toNat && c.toNat ≤ 13) || (28 ≤ c.toNat && c.toNat ≤ 31)
  digit_lt c n h := by split at h <;> simp at h; omega
  digit_ascii _ _ := rfl
  digit_long_s := by decide
  digit_not_space c n h := by split at h <;> simp at h; simp; omega
  space_ascii _ _ := rfl

end UDB
end Verif
