import Verif.Py.Basic
/-!
# Texts within texts
-/

namespace Verif

/-- `sub` is at place `i` of `s`. -/
def AtPlace (s sub : Str) (i : Nat) : Prop := ∃ p q, s = p ++ (sub ++ q) ∧ p.length = i

/-- Where a search from `start` begins in a text of `n` characters: a negative number counts from the end. -/
def windowStart (n : Nat) (start : Int) : Int := max 0 (if start < 0 then start + n else start)

/-- Where a search up to `stop` ends. -/
def windowEnd (n : Nat) (stop : Int) : Int := min n (max 0 (if stop < 0 then stop + n else stop))

/-- `sub` is at place `i` of `s`, all of it between `start` and `stop`. -/
def Within (s sub : Str) (start stop : Int) (i : Nat) : Prop :=
  AtPlace s sub i ∧ windowStart s.length start ≤ i ∧ (i + sub.length : Int) ≤ windowEnd s.length stop

/-- Rising places where texts of `m` characters do not overlap. -/
def Apart (m : Nat) (is : List Nat) : Prop := is.Pairwise fun i j => i + max 1 m ≤ j

end Verif
