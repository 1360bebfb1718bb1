import Verif.Proofs.Microseconds
/-! # The text of a number of microseconds -/

namespace Verif.Iso
open Verif Flo Num

variable {u : UDB}

/-- Two numbers with `J` decimal places, `J ≤ 6`, that are close are equal. -/
theorem close_eq {a b : Int} {P x : Rat}
    (h1 : (a : Rat) - x * P < 1 / 2) (h2 : x * P - a < 1 / 2) (h3 : (b : Rat) - x * P < 1 / 2) (h4 : x * P - b < 1 / 2) : a = b := by
  have a1 : (a : Rat) < ((b + 1 : Int) : Rat) := by rw [Rat.intCast_add]; grind
  have a2 : (b : Rat) < ((a + 1 : Int) : Rat) := by rw [Rat.intCast_add]; grind
  have a1' : a < b + 1 := by exact_mod_cast a1
  have a2' : b < a + 1 := by exact_mod_cast a2
  omega

theorem pow10_neg (J : Nat) : pow10 (-(J : Int)) * ((10 ^ J : Nat) : Rat) = 1 := by
  rw [← pow10_nat, ← pow10_add, Int.add_left_neg, pow10_zero]

section
variable {J n : Nat} (hJ0 : 1 ≤ J) (hJ : J ≤ 6) (hn : n ≤ 60 * 10 ^ J) (h10 : n % 10 ≠ 0)

/-- The `float` of a number with `J` decimal places. -/
abbrev decVal (n J : Nat) : Rat := (n : Rat) * pow10 (-(J : Int))

theorem pow10J_le (hJ : J ≤ 6) : ((10 ^ J : Nat) : Rat) ≤ 1000000 ∧ (1 : Rat) ≤ ((10 ^ J : Nat) : Rat) := by
  have a : 10 ^ J ≤ 1000000 := by
    have := Nat.pow_le_pow_right (show 0 < 10 by decide) hJ
    omega
  have b : 1 ≤ 10 ^ J := Nat.pow_pos (by decide)
  exact ⟨by exact_mod_cast a, by exact_mod_cast b⟩

theorem dec_err (hn : n ≤ 60 * 10 ^ J) : 0 ≤ decVal n J ∧ decVal n J ≤ 60 ∧ decVal n J - 1 / 281474976710656 ≤ fl (decVal n J) ∧
    fl (decVal n J) ≤ decVal n J + 1 / 281474976710656 := by
  have hp := pow10_pos (-(J : Int))
  have hn0 : (0 : Rat) ≤ n := by exact_mod_cast Nat.zero_le _
  have h0 : 0 ≤ decVal n J := Rat.mul_nonneg hn0 (Rat.le_of_lt hp)
  have h1 : decVal n J ≤ 60 := by
    have : (n : Rat) ≤ 60 * ((10 ^ J : Nat) : Rat) := by exact_mod_cast hn
    have h2 := Rat.mul_le_mul_of_nonneg_right this (Rat.le_of_lt hp)
    have h3 := pow10_neg J
    have : 60 * ((10 ^ J : Nat) : Rat) * pow10 (-(J : Int)) = 60 := by grind
    rw [this] at h2
    exact h2
  have := fl_err6 h0 (by grind)
  exact ⟨h0, h1, this⟩

/-- Integers for the last of `J` places: the one with the `float` of `decVal n J` is `n`. -/
theorem dec_unique (hJ : J ≤ 6) (hn : n ≤ 60 * 10 ^ J) {m : Int} (hm : 0 ≤ m)
    (h : fl ((m : Rat) * pow10 (-(J : Int))) = fl (decVal n J)) : m = n := by
  obtain ⟨a1, a2, a3, a4⟩ := dec_err hn
  have hp := pow10_pos (-(J : Int))
  obtain ⟨b1, b2⟩ := pow10J_le hJ
  have h3 := pow10_neg J
  have hm0 : (0 : Rat) ≤ m := by exact_mod_cast hm
  have c0 : 0 ≤ (m : Rat) * pow10 (-(J : Int)) := Rat.mul_nonneg hm0 (Rat.le_of_lt hp)
  have d64 : Double 64 := double_int (m := 64) (by decide)
  have c1 : (m : Rat) * pow10 (-(J : Int)) ≤ 64 := by
    rcases Rat.le_total (a := (m : Rat) * pow10 (-(J : Int))) (b := 64) with h' | h'
    · exact h'
    · have := le_fl d64 h'
      grind
  have c2 := fl_err6 c0 c1
  rw [h] at c2
  generalize hx : fl (decVal n J) = x at *
  have e1 : (m : Rat) = (m : Rat) * pow10 (-(J : Int)) * ((10 ^ J : Nat) : Rat) := by grind
  have e2 : (n : Rat) = decVal n J * ((10 ^ J : Nat) : Rat) := by unfold decVal; grind
  generalize ((10 ^ J : Nat) : Rat) = P at *
  generalize (m : Rat) * pow10 (-(J : Int)) = y at *
  generalize decVal n J = z at *
  have f1 := Rat.mul_le_mul_of_nonneg_right a3 (show 0 ≤ P by grind)
  have f2 := Rat.mul_le_mul_of_nonneg_right a4 (show 0 ≤ P by grind)
  have f3 := Rat.mul_le_mul_of_nonneg_right c2.1 (show 0 ≤ P by grind)
  have f4 := Rat.mul_le_mul_of_nonneg_right c2.2 (show 0 ≤ P by grind)
  have e3 : ((n : Int) : Rat) = (n : Rat) := rfl
  refine close_eq (x := x) (P := P) ?_ ?_ (by rw [e3]; grind) (by rw [e3]; grind) <;> grind

theorem cand_none (hJ : J ≤ 6) (hn : n ≤ 60 * 10 ^ J) (h10 : n % 10 ≠ 0) {e : Int} {k : Nat} (hk : -(J : Int) < e - k + 1) :
    cand (fl (decVal n J)) e k = none := by
  have h0 := fl_nonneg (dec_err hn).1
  unfold cand
  dsimp only
  generalize hp : e - (k : Int) + 1 = p at *
  obtain ⟨d, hd⟩ := Int.eq_ofNat_of_zero_le (show 0 ≤ p + J - 1 by omega)
  have hpp := pow10_pos p
  have key : ∀ m : Int, 0 ≤ m → fl ((m : Rat) * pow10 p) ≠ fl (decVal n J) := by
    intro m hm h
    have e1 : (m : Rat) * pow10 p = ((m * (10 ^ (d + 1) : Nat) : Int) : Rat) * pow10 (-(J : Int)) := by
      rw [show p = ((d + 1 : Nat) : Int) + -(J : Int) by omega, pow10_add, pow10_nat, Rat.intCast_mul, Rat.intCast_natCast, Rat.mul_assoc]
    rw [e1] at h
    have := dec_unique hJ hn (Int.mul_nonneg hm (by exact_mod_cast Nat.zero_le _)) h
    have e2 : m * ((10 ^ (d + 1) : Nat) : Int) = (m * ((10 ^ d : Nat) : Int)) * 10 := by
      rw [Nat.pow_succ, Int.natCast_mul, ← Int.mul_assoc]; rfl
    rw [e2] at this
    omega
  have s0 : 0 ≤ fl (decVal n J) / pow10 p := by
    refine Rat.le_of_mul_le_mul_right (c := pow10 p) ?_ hpp
    have : fl (decVal n J) / pow10 p * pow10 p = fl (decVal n J) := by grind
    rw [this]; simpa using h0
  generalize fl (decVal n J) / pow10 p = s at *
  have f0 : 0 ≤ s.floor := by rw [Rat.le_floor_iff]; exact s0
  have f1 : halfEven s = s.floor ∨ halfEven s = s.floor + 1 := by
    unfold halfEven; dsimp only; split
    · exact .inl rfl
    split
    · exact .inr rfl
    split
    · exact .inl rfl
    · exact .inr rfl
  rw [if_neg (key _ (by omega)), if_neg (key _ (by split <;> omega))]

theorem cand_some (hJ : J ≤ 6) (hn : n ≤ 60 * 10 ^ J) {e : Int} {k : Nat} (hk : e - k + 1 = -(J : Int)) :
    cand (fl (decVal n J)) e k = some n := by
  obtain ⟨a1, a2, a3, a4⟩ := dec_err hn
  have hp := pow10_pos (-(J : Int))
  obtain ⟨b1, b2⟩ := pow10J_le hJ
  have h3 := pow10_neg J
  unfold cand
  dsimp only
  rw [hk]
  have e0 : fl (decVal n J) / pow10 (-(J : Int)) = fl (decVal n J) * ((10 ^ J : Nat) : Rat) := by grind
  have e2 : (n : Rat) = decVal n J * ((10 ^ J : Nat) : Rat) := by unfold decVal; grind
  have hh : halfEven (fl (decVal n J) / pow10 (-(J : Int))) = (n : Int) := by
    rw [e0]
    generalize fl (decVal n J) = x at *
    generalize ((10 ^ J : Nat) : Rat) = P at *
    generalize decVal n J = z at *
    have f1 := Rat.mul_le_mul_of_nonneg_right a3 (show 0 ≤ P by grind)
    have f2 := Rat.mul_le_mul_of_nonneg_right a4 (show 0 ≤ P by grind)
    refine halfEven_eq ?_ ?_ <;> rw [Rat.intCast_natCast] <;> grind
  rw [hh, Rat.intCast_natCast, if_pos rfl]
  rfl

theorem shortest_go (hJ : J ≤ 6) (hn : n ≤ 60 * 10 ^ J) (h10 : n % 10 ≠ 0) : ∀ (j more k : Nat), j < more →
    adjusted (fl (decVal n J)) - (k + j : Nat) + 1 = -(J : Int) → shortest (fl (decVal n J)) more k = (n, -(J : Int))
  | j, 0, _, h, _ => absurd h (by omega)
  | 0, more + 1, k, _, he => by
    rw [shortest, cand_some hJ hn (by simpa using he)]
    simpa using he
  | j + 1, more + 1, k, h, he => by
    rw [shortest, cand_none hJ hn h10 (by omega)]
    exact shortest_go hJ hn h10 j more (k + 1) (by omega) (by omega)

/-- 10^-J is not above its `float`, except for 10^-6. -/
theorem tenth_le : ∀ J : Nat, 1 ≤ J → J ≤ 5 → pow10 (-(J : Int)) ≤ fl (pow10 (-(J : Int))) := by
  intro J h1 h2
  rcases (by omega : J = 1 ∨ J = 2 ∨ J = 3 ∨ J = 4 ∨ J = 5) with rfl | rfl | rfl | rfl | rfl <;> decide +kernel

theorem shortest_eq (hJ0 : 1 ≤ J) (hJ : J ≤ 6) (hn : n ≤ 60 * 10 ^ J) (h10 : n % 10 ≠ 0) (h1 : ¬ (n = 1 ∧ J = 6)) :
    shortest (fl (decVal n J)) 16 1 = (n, -(J : Int)) := by
  obtain ⟨a1, a2, a3, a4⟩ := dec_err hn
  have hp := pow10_pos (-(J : Int))
  obtain ⟨b1, b2⟩ := pow10J_le hJ
  have h3 := pow10_neg J
  have lo : pow10 (-(J : Int)) ≤ fl (decVal n J) := by
    by_cases hn1 : n = 1
    · subst hn1
      have e : decVal 1 J = pow10 (-(J : Int)) := by
        unfold decVal; rw [show ((1 : Nat) : Rat) = 1 from rfl, Rat.one_mul]
      rw [e]
      exact tenth_le J hJ0 (by omega)
    · have hn2 : (2 : Rat) ≤ n := by exact_mod_cast (by omega : 2 ≤ n)
      have h4 := Rat.mul_le_mul_of_nonneg_right hn2 (Rat.le_of_lt hp)
      have h5 : 1 / 1000000 ≤ pow10 (-(J : Int)) := by
        refine Rat.le_of_mul_le_mul_right (c := ((10 ^ J : Nat) : Rat)) ?_ (by grind)
        rw [h3]; grind
      unfold decVal at *
      grind
  have hne : fl (decVal n J) ≠ 0 := by intro h; rw [h] at lo; grind
  have hmag := mag_of_nonneg (fl_nonneg a1)
  obtain ⟨c1, c2⟩ := adjusted_spec hne
  rw [hmag] at c1 c2
  have l1 : -(J : Int) ≤ adjusted (fl (decVal n J)) := by
    rcases Int.lt_or_le (adjusted (fl (decVal n J))) (-(J : Int)) with h | h
    · have := pow10_mono (show adjusted (fl (decVal n J)) + 1 ≤ -(J : Int) by omega)
      grind
    · exact h
  have l2 : adjusted (fl (decVal n J)) ≤ 1 := by
    rcases Int.lt_or_le 1 (adjusted (fl (decVal n J))) with h | h
    · have := pow10_mono (show 2 ≤ adjusted (fl (decVal n J)) by omega)
      have h100 : pow10 2 = 100 := by have := pow10_nat 2; exact this
      grind
    · exact h
  obtain ⟨j, hj⟩ := Int.eq_ofNat_of_zero_le (show 0 ≤ adjusted (fl (decVal n J)) + J by omega)
  exact shortest_go hJ hn h10 j 16 1 (by omega) (by omega)

end

theorem natStr_last (n : Nat) : ∃ A, natStr n = A ++ [(n % 10).digitChar] := by
  unfold natStr
  by_cases h : n < 10
  · exact ⟨[], by rw [Nat.toDigits_of_lt_base h, Nat.mod_eq_of_lt h]; rfl⟩
  · exact ⟨Nat.toDigits 10 (n / 10), by rw [Nat.toDigits_of_base_le (by decide) (by omega)]⟩

theorem stripZeros_natStr {n : Nat} (h : n % 10 ≠ 0) : stripZeros (natStr n) = natStr n := by
  obtain ⟨A, e⟩ := natStr_last n
  have hc : ((n % 10).digitChar == '0') = false := by
    have : n % 10 < 10 := by omega
    generalize n % 10 = d at *
    rcases (by omega : d = 1 ∨ d = 2 ∨ d = 3 ∨ d = 4 ∨ d = 5 ∨ d = 6 ∨ d = 7 ∨ d = 8 ∨ d = 9) with
      rfl | rfl | rfl | rfl | rfl | rfl | rfl | rfl | rfl <;> rfl
  unfold stripZeros
  rw [e]
  simp [hc]

theorem isDigit_zero : u.isDigit '0' = true := by
  have := (natStr_digits (u := u) 0).1 '0' (by decide)
  exact this

theorem natOf_zeros (k : Nat) (s : Str) : u.natOf (List.replicate k '0' ++ s) = u.natOf s := by
  have hz : (u.digit '0').getD 0 = 0 := by
    have := (natStr_digits (u := u) 0).2
    simpa [natStr, UDB.natOf] using this
  induction k with
  | zero => simp
  | succ k ih =>
    rw [List.replicate_succ, List.cons_append]
    unfold UDB.natOf at *
    rw [List.foldl_cons, hz]
    exact ih

/-- What `f"{x}"` prints for a number of `J` decimal places with a last digit that is not 0. -/
theorem repr_plain {J n : Nat} (hJ0 : 1 ≤ J) (hJ : J ≤ 6) (hn : n ≤ 60 * 10 ^ J) (h10 : n % 10 ≠ 0) (hL : J < (natStr n).length + 4) :
    ∃ ds fr, reprPos (fl (decVal n J)) = ds ++ '.' :: fr ∧ ds ≠ [] ∧ fr ≠ [] ∧ (∀ c ∈ ds, u.isDigit c = true) ∧
      (∀ c ∈ fr, u.isDigit c = true) ∧ fr.length = J ∧ u.natOf (ds ++ fr) = n := by
  have hd := natStr_digits (u := u) n
  have hL8 : (natStr n).length ≤ 16 := by
    refine (Nat.length_toDigits_le_iff (by decide) (by decide)).2 (Nat.lt_of_le_of_lt hn ?_)
    have := Nat.pow_le_pow_right (show 0 < 10 by decide) hJ
    omega
  have h1 : ¬ (n = 1 ∧ J = 6) := by
    rintro ⟨rfl, rfl⟩
    revert hL; decide
  unfold reprPos
  rw [shortest_eq hJ0 hJ hn h10 h1]
  dsimp only
  rw [stripZeros_natStr h10, if_pos (by omega)]
  by_cases hc : ((natStr n).length : Int) + -(J : Int) ≤ 0
  · rw [if_pos hc]
    refine ⟨['0'], List.replicate (J - (natStr n).length) '0' ++ natStr n, ?_, by simp, ?_, ?_, ?_, ?_, ?_⟩
    · rw [show (-(((natStr n).length : Int) + -(J : Int))).toNat = J - (natStr n).length by omega]
      rfl
    · intro h
      rw [List.append_eq_nil_iff] at h
      exact absurd h.2 Nat.toDigits_ne_nil
    · simpa using isDigit_zero
    · intro c hcm
      rw [List.mem_append] at hcm
      rcases hcm with hcm | hcm
      · rw [List.eq_of_mem_replicate hcm]; exact isDigit_zero
      · exact hd.1 c hcm
    · simp; omega
    · have := natOf_zeros (u := u) (1 + (J - (natStr n).length)) (natStr n)
      rw [hd.2, ← List.replicate_append_replicate, List.append_assoc] at this
      exact this
  · have ht : ((natStr n).length : Int) + -(J : Int) = (((natStr n).length - J : Nat) : Int) := by omega
    rw [if_neg hc, if_neg (by omega), ht, Int.toNat_natCast]
    refine ⟨(natStr n).take ((natStr n).length - J), (natStr n).drop ((natStr n).length - J), rfl, ?_, ?_, ?_, ?_, ?_, ?_⟩
    · intro h
      have := congrArg List.length h
      rw [List.length_take] at this
      simp only [List.length_nil] at this
      omega
    · intro h
      have := congrArg List.length h
      rw [List.length_drop] at this
      simp only [List.length_nil] at this
      omega
    · exact fun c h => hd.1 c (List.mem_of_mem_take h)
    · exact fun c h => hd.1 c (List.mem_of_mem_drop h)
    · rw [List.length_drop]; omega
    · rw [List.take_append_drop]; exact hd.2

/-- Small numbers are printed with an exponent. -/
theorem repr_exponent {J n : Nat} (hJ0 : 1 ≤ J) (hJ : J ≤ 6) (hn : n ≤ 60 * 10 ^ J) (h10 : n % 10 ≠ 0) (hL : (natStr n).length + 4 ≤ J) :
    'e' ∈ reprPos (fl (decVal n J)) := by
  by_cases h1 : n = 1 ∧ J = 6
  · obtain ⟨rfl, rfl⟩ := h1
    decide +kernel
  · unfold reprPos
    rw [shortest_eq hJ0 hJ hn h10 h1]
    dsimp only
    rw [if_neg (by omega)]
    simp

/-- A number of microseconds in a minute without the zeros at its end. -/
theorem places (r : Nat) (h : r < 60000000) (h6 : r % 1000000 ≠ 0) : ∃ n J, 1 ≤ J ∧ J ≤ 6 ∧ n ≤ 60 * 10 ^ J ∧ n % 10 ≠ 0 ∧
    r * 10 ^ J = n * 1000000 ∧ (r : Rat) / 1000000 = decVal n J ∧ ((natStr n).length + 4 ≤ J ↔ r < 100) := by
  have aux : ∀ n J k : Nat, J + k = 6 → r = n * 10 ^ k → (r : Rat) / 1000000 = decVal n J := by
    intro n J k hk e
    have h3 := pow10_neg J
    have h4 : ((10 ^ k : Nat) : Rat) * ((10 ^ J : Nat) : Rat) = 1000000 := by
      rw [← Rat.natCast_mul, ← Nat.pow_add, Nat.add_comm, hk]; rfl
    rw [e, Rat.natCast_mul]
    unfold decVal
    grind
  have len : ∀ n k : Nat, 0 < k → ((natStr n).length ≤ k ↔ n < 10 ^ k) := fun n k hk =>
    Nat.length_toDigits_le_iff (by decide) hk
  have pos : ∀ n : Nat, 0 < (natStr n).length := fun n => Nat.length_toDigits_pos
  by_cases h1 : r % 10 ≠ 0
  · refine ⟨r, 6, by omega, by omega, by omega, h1, by omega, aux r 6 0 rfl (by omega), ?_⟩
    have := len r 2 (by omega)
    omega
  by_cases h2 : r / 10 % 10 ≠ 0
  · refine ⟨r / 10, 5, by omega, by omega, by omega, h2, by omega, aux _ 5 1 rfl (by omega), ?_⟩
    have := len (r / 10) 1 (by omega)
    omega
  by_cases h3 : r / 100 % 10 ≠ 0
  · refine ⟨r / 100, 4, by omega, by omega, by omega, h3, by omega, aux _ 4 2 rfl (by omega), ?_⟩
    have := pos (r / 100)
    omega
  by_cases h4 : r / 1000 % 10 ≠ 0
  · refine ⟨r / 1000, 3, by omega, by omega, by omega, h4, by omega, aux _ 3 3 rfl (by omega), ?_⟩
    have := pos (r / 1000)
    omega
  by_cases h5 : r / 10000 % 10 ≠ 0
  · refine ⟨r / 10000, 2, by omega, by omega, by omega, h5, by omega, aux _ 2 4 rfl (by omega), ?_⟩
    have := pos (r / 10000)
    omega
  · refine ⟨r / 100000, 1, by omega, by omega, by omega, by omega, by omega, aux _ 1 5 rfl (by omega), ?_⟩
    have := pos (r / 100000)
    omega

/-- The text of the seconds, with a fraction. -/
theorem secondsText_fraction (r : Nat) (h : r < 60000000) (h6 : r % 1000000 ≠ 0) :
    secondsText (fl ((r : Rat) / 1000000)) = reprPos (fl ((r : Rat) / 1000000)) ++ ['S'] := by
  have h0 : (0 : Rat) ≤ r := by exact_mod_cast Nat.zero_le _
  have h1 : (r : Rat) ≤ 60000000 := by exact_mod_cast Nat.le_of_lt h
  have e := fl_err6 (v := (r : Rat) / 1000000) (by grind) (by grind)
  have hint : ∀ k : Int, (k : Rat) ≠ fl ((r : Rat) / 1000000) := by
    intro k hk
    rw [← hk] at e
    have a1 : ((k * 1000000 : Int) : Rat) < ((r + 1 : Int) : Rat) := by
      rw [Rat.intCast_mul, Rat.intCast_add, Rat.intCast_natCast]
      have c : ((1000000 : Int) : Rat) = 1000000 := rfl
      have c' : ((1 : Int) : Rat) = 1 := rfl
      rw [c, c']; grind
    have a2 : ((r - 1 : Int) : Rat) < ((k * 1000000 : Int) : Rat) := by
      rw [Rat.intCast_mul, Rat.intCast_sub, Rat.intCast_natCast]
      have c : ((1000000 : Int) : Rat) = 1000000 := rfl
      have c' : ((1 : Int) : Rat) = 1 := rfl
      rw [c, c']; grind
    have b1 : k * 1000000 < r + 1 := Rat.intCast_lt_intCast.1 a1
    have b2 : (r : Int) - 1 < k * 1000000 := Rat.intCast_lt_intCast.1 a2
    omega
  unfold secondsText
  rw [if_neg (fun h => hint 0 h.symm), if_neg (hint _)]

/-- The text of whole seconds. -/
theorem secondsText_whole (r : Nat) (h : r < 60000000) (h6 : r % 1000000 = 0) :
    secondsText (fl ((r : Rat) / 1000000)) = unitText (r / 1000000) 'S' := by
  have e : (r : Rat) / 1000000 = ((r / 1000000 : Nat) : Int) := by
    have : r = r / 1000000 * 1000000 := by omega
    have h2 : (r : Rat) = ((r / 1000000 : Nat) : Rat) * 1000000 := by
      rw [← show ((1000000 : Nat) : Rat) = 1000000 from rfl, ← Rat.natCast_mul, ← this]
    rw [Rat.intCast_natCast, h2]; grind
  rw [e, fl_int (by omega)]
  generalize r / 1000000 = r at *
  unfold secondsText unitText
  by_cases hz : r = 0
  · rw [hz]; rfl
  · rw [if_neg (by intro hc; exact hz (by exact_mod_cast hc)), if_neg hz]
    have : (((r : Int) : Rat).floor) = (r : Int) := floor_eq Rat.le_refl (by grind)
    rw [this, if_pos rfl]
    rfl

end Verif.Iso
