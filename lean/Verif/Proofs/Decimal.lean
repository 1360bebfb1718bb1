import Verif.Py.Number
/-! # Rounding in the default decimal context -/

namespace Verif.Num
open Verif

theorem pow10_pos (e : Int) : 0 < pow10 e := by unfold pow10; exact Rat.zpow_pos (by decide +kernel)

theorem pow10_add (a b : Int) : pow10 (a + b) = pow10 a * pow10 b := by unfold pow10; exact Rat.zpow_add (by decide +kernel) a b

theorem pow10_zero : pow10 0 = 1 := by unfold pow10; rfl

theorem pow10_one : pow10 1 = 10 := by unfold pow10; exact Rat.zpow_one 10

theorem pow10_succ (a : Int) : pow10 (a + 1) = 10 * pow10 a := by
  rw [pow10_add, Rat.mul_comm, pow10_one]

theorem pow10_nat (n : Nat) : pow10 n = ((10 ^ n : Nat) : Rat) := by
  induction n with
  | zero => exact pow10_zero
  | succ n ih => rw [Int.natCast_succ, pow10_succ, ih, Nat.pow_succ]; push_cast; grind

theorem one_le_pow10 (n : Nat) : 1 ≤ pow10 n := by
  induction n with
  | zero => rw [show ((0 : Nat) : Int) = 0 from rfl, pow10_zero]; exact Rat.le_refl
  | succ n ih => rw [Int.natCast_succ, pow10_succ]; grind

theorem pow10_mono {a b : Int} (h : a ≤ b) : pow10 a ≤ pow10 b := by
  obtain ⟨n, rfl⟩ := Int.le.dest h
  rw [pow10_add]
  have := Rat.mul_le_mul_of_nonneg_left (one_le_pow10 n) (Rat.le_of_lt (pow10_pos a))
  simpa using this

theorem pow10_lt {a b : Int} (h : a < b) : pow10 a < pow10 b := by
  have h1 := pow10_mono (show a + 1 ≤ b by omega)
  rw [pow10_succ] at h1
  have := pow10_pos a
  grind

theorem mag_nonneg (q : Rat) : 0 ≤ mag q := by unfold mag; split <;> grind
theorem mag_pos {q : Rat} (h : q ≠ 0) : 0 < mag q := by unfold mag; split <;> grind
theorem mag_eq_zero {q : Rat} : mag q = 0 ↔ q = 0 := by unfold mag; split <;> grind
theorem le_mag (q : Rat) : q ≤ mag q ∧ -q ≤ mag q := by unfold mag; split <;> grind
theorem mag_le {q b : Rat} : mag q ≤ b ↔ -b ≤ q ∧ q ≤ b := by unfold mag; split <;> grind

theorem mag_mul_pos (q : Rat) {p : Rat} (h : 0 < p) : mag (q * p) = mag q * p := by
  unfold mag
  by_cases hq : q < 0
  · have : q * p < 0 * p := (Rat.mul_lt_mul_right h).2 hq
    rw [if_pos hq, if_pos (by simpa using this)]; grind
  · have : 0 * p ≤ q * p := Rat.mul_le_mul_of_nonneg_right (Rat.not_lt.1 hq) (Rat.le_of_lt h)
    rw [if_neg hq, if_neg (by simpa [Rat.not_lt] using this)]

theorem numDigits_lt (n : Nat) : n < 10 ^ numDigits n :=
  (Nat.length_toDigits_le_iff (by decide) (Nat.length_toDigits_pos)).1 (Nat.le_refl _)

theorem le_numDigits {n : Nat} (h : 0 < n) : 10 ^ (numDigits n - 1) ≤ n := by
  rcases Nat.lt_or_ge n (10 ^ (numDigits n - 1)) with hl | hl
  · exfalso
    by_cases h1 : 0 < numDigits n - 1
    · have := (Nat.length_toDigits_le_iff (b := 10) (by decide) h1).2 hl
      unfold numDigits natStr at *
      omega
    · have : numDigits n - 1 = 0 := by omega
      rw [this] at hl
      simp at hl
      omega
  · exact hl

theorem numDigits_pos (n : Nat) : 0 < numDigits n := Nat.length_toDigits_pos

theorem mag_eq (q : Rat) : mag q * (q.den : Rat) = (q.num.natAbs : Rat) := by
  have hq : q * (q.den : Rat) = (q.num : Rat) := by
    have : (q.num : Rat) / ((q.den : Int) : Rat) = q := by rw [← Rat.divInt_eq_div, Rat.num_divInt_den]
    have h0 : ((q.den : Int) : Rat) ≠ 0 := by exact_mod_cast q.den_nz
    rw [← Rat.intCast_natCast]
    grind
  have hd : (0 : Rat) < q.den := by exact_mod_cast q.den_pos
  rw [← mag_mul_pos q hd, hq]
  unfold mag
  split
  · next h =>
    have : q.num < 0 := by exact_mod_cast h
    rw [show (q.num : Rat) = -((q.num.natAbs : Int) : Rat) by rw [← Rat.intCast_neg]; congr 1; omega]
    rw [Rat.neg_neg]; rfl
  · next h =>
    have : ¬ q.num < 0 := by intro hn; exact h (by exact_mod_cast hn)
    rw [show (q.num : Rat) = ((q.num.natAbs : Int) : Rat) by congr 1; omega]
    rfl

/-- The exponent of the first digit. -/
theorem adjusted_spec {q : Rat} (h : q ≠ 0) : pow10 (adjusted q) ≤ mag q ∧ mag q < pow10 (adjusted q + 1) := by
  have hn : 0 < q.num.natAbs := by
    have : q.num ≠ 0 := fun e => h (Rat.num_eq_zero.1 e)
    omega
  have n1 := le_numDigits hn
  have n2 := numDigits_lt q.num.natAbs
  have d1 := le_numDigits q.den_pos
  have d2 := numDigits_lt q.den
  have pn := numDigits_pos q.num.natAbs
  have pd := numDigits_pos q.den
  have hm := mag_eq q
  have hd : (0 : Rat) < q.den := by exact_mod_cast q.den_pos
  have hp := mag_pos h
  unfold adjusted
  generalize numDigits q.num.natAbs = a at *
  generalize numDigits q.den = b at *
  have hup : mag q < pow10 ((a : Int) - b + 1) := by
    have e1 : ((10 ^ (b - 1) : Nat) : Rat) ≤ q.den := by exact_mod_cast d1
    have e2 : (q.num.natAbs : Rat) < ((10 ^ a : Nat) : Rat) := by exact_mod_cast n2
    rw [← pow10_nat] at e1 e2
    have e3 := Rat.mul_le_mul_of_nonneg_left e1 (Rat.le_of_lt hp)
    refine Rat.lt_of_mul_lt_mul_right (c := pow10 ((b - 1 : Nat) : Int)) ?_ (Rat.le_of_lt (pow10_pos _))
    rw [← pow10_add, show (a : Int) - b + 1 + ((b - 1 : Nat) : Int) = a by omega]
    grind
  have hlo : pow10 ((a : Int) - b - 1) ≤ mag q := by
    have e1 : (q.den : Rat) ≤ ((10 ^ b : Nat) : Rat) := by exact_mod_cast Nat.le_of_lt d2
    have e2 : ((10 ^ (a - 1) : Nat) : Rat) ≤ (q.num.natAbs : Rat) := by exact_mod_cast n1
    rw [← pow10_nat] at e1 e2
    have e3 := Rat.mul_le_mul_of_nonneg_left e1 (Rat.le_of_lt hp)
    refine Rat.le_of_mul_le_mul_right (c := pow10 (b : Int)) ?_ (pow10_pos _)
    rw [← pow10_add, show (a : Int) - b - 1 + b = ((a - 1 : Nat) : Int) by omega]
    grind
  dsimp only
  split
  · next hc => exact ⟨hc, hup⟩
  · next hc =>
    refine ⟨hlo, ?_⟩
    rw [show (a : Int) - b - 1 + 1 = a - b by omega]
    exact Rat.not_le.1 hc

/-- Rounding goes to an integer at most one half away. -/
theorem halfEven_near (x : Rat) : mag (halfEven x - x) ≤ 1 / 2 := by
  have h1 := Rat.floor_le x
  have h2 := Rat.lt_floor_add_one x
  rw [Rat.intCast_add] at h2
  rw [mag_le]
  unfold halfEven
  dsimp only
  split
  · grind
  split
  · rw [Rat.intCast_add]; grind
  split
  · grind
  · rw [Rat.intCast_add]; grind

theorem quantum_spec {q : Rat} (h : q ≠ 0) : -1000026 ≤ quantum q ∧ mag q < pow10 (quantum q + 28) ∧
    (quantum q = -1000026 ∨ pow10 (quantum q + 27) ≤ mag q) := by
  have ha := adjusted_spec h
  unfold quantum
  refine ⟨by omega, ?_, ?_⟩
  · have := pow10_mono (show adjusted q + 1 ≤ max (-1000026) (adjusted q - 27) + 28 by omega)
    grind
  · by_cases hc : max (-1000026) (adjusted q - 27) = -1000026
    · exact .inl hc
    · refine .inr ?_
      rw [show max (-1000026) (adjusted q - 27) + 27 = adjusted q by omega]
      exact ha.1

/-- The last digit that is kept. -/
theorem fix_eq {q : Rat} (h : q ≠ 0) : fix q = if pow10 1000000 ≤ mag (halfEven (q / pow10 (quantum q)) * pow10 (quantum q)) then
    .err .decimalOverflow else .ok (halfEven (q / pow10 (quantum q)) * pow10 (quantum q)) := by
  simp only [fix, if_neg h]

theorem fix_zero : fix 0 = .ok 0 := rfl

theorem fix_finishes (q : Rat) : (∃ y, fix q = .ok y) ∨ fix q = .err .decimalOverflow := by
  by_cases h : q = 0
  · exact .inl ⟨0, by rw [h]; rfl⟩
  · rw [fix_eq h]
    split
    · exact .inr rfl
    · exact .inl ⟨_, rfl⟩

/-- A number of the context's range that is not 0 is not rounded to 0. -/
theorem fix_ne_zero {q : Rat} (h : q ≠ 0) (hm : ∃ j : Int, q = j * pow10 (-1000026)) (hb : mag q ≤ pow10 999999) :
    ∃ y, fix q = .ok y ∧ y ≠ 0 := by
  obtain ⟨h1, h2, h3⟩ := quantum_spec h
  rw [fix_eq h]
  generalize quantum q = e at *
  have he := pow10_pos e
  have hx : 1 ≤ mag (q / pow10 e) := by
    have : mag q = mag (q / pow10 e) * pow10 e := by rw [← mag_mul_pos _ he]; congr 1; grind
    refine Rat.le_of_mul_le_mul_right (c := pow10 e) ?_ he
    rw [← this]
    rcases h3 with rfl | h3
    · obtain ⟨j, rfl⟩ := hm
      rw [mag_mul_pos _ he]
      refine Rat.mul_le_mul_of_nonneg_right ?_ (Rat.le_of_lt he)
      have hj : j ≠ 0 := by rintro rfl; exact h (by simp)
      unfold mag
      split
      · next hl =>
        have : j < 0 := by exact_mod_cast hl
        have : (j : Rat) ≤ ((-1 : Int) : Rat) := by exact_mod_cast (by omega : j ≤ -1)
        grind
      · next hl =>
        have : ¬ j < 0 := fun hn => hl (by exact_mod_cast hn)
        exact_mod_cast (by omega : 1 ≤ j)
    · have := pow10_mono (show e ≤ e + 27 by omega)
      grind
  have hn := halfEven_near (q / pow10 e)
  generalize hr : halfEven (q / pow10 e) = r at *
  have hmag : mag q = mag (q / pow10 e) * pow10 e := by rw [← mag_mul_pos _ he]; congr 1; grind
  have hr0 : mag (r : Rat) ≤ 2 * mag (q / pow10 e) ∧ (r : Rat) ≠ 0 := by
    rw [mag_le] at hn
    unfold mag at hx ⊢
    constructor
    · split <;> split <;> grind
    · intro e0; rw [e0] at hn; split at hx <;> grind
  have hb2 : mag ((r : Rat) * pow10 e) ≤ 2 * pow10 999999 := by
    rw [mag_mul_pos _ he]
    have := Rat.mul_le_mul_of_nonneg_right hr0.1 (Rat.le_of_lt he)
    grind
  have hlt : ¬ pow10 1000000 ≤ mag ((r : Rat) * pow10 e) := by
    have e1 : pow10 1000000 = 10 * pow10 999999 := pow10_succ 999999
    have := pow10_pos 999999
    grind
  rw [if_neg hlt]
  refine ⟨_, rfl, ?_⟩
  intro e0
  rcases Rat.mul_eq_zero.1 e0 with e1 | e1
  · exact hr0.2 e1
  · rw [e1] at he; exact absurd he (by decide +kernel)

/-- A number below the smallest exponent is rounded to 0. -/
theorem fix_tiny {q : Rat} (h : mag q < pow10 (-1000027)) : fix q = .ok 0 := by
  by_cases h0 : q = 0
  · rw [h0]; rfl
  have hq : quantum q = -1000026 := by
    obtain ⟨h1, h2, h3⟩ := quantum_spec h0
    rcases h3 with h3 | h3
    · exact h3
    · exact absurd h (Rat.not_lt.2 (Rat.le_trans (pow10_mono (by omega)) h3))
  rw [fix_eq h0, hq]
  have he := pow10_pos (-1000026)
  have hs : pow10 (-1000026) = 10 * pow10 (-1000027) := by rw [← pow10_succ]; rfl
  have hx : mag (q / pow10 (-1000026)) < 1 / 10 := by
    have : mag q = mag (q / pow10 (-1000026)) * pow10 (-1000026) := by rw [← mag_mul_pos _ he]; congr 1; grind
    refine Rat.not_le.1 fun hc => ?_
    have := Rat.mul_le_mul_of_nonneg_right hc (Rat.le_of_lt he)
    grind
  have hn := halfEven_near (q / pow10 (-1000026))
  have hl := le_mag (q / pow10 (-1000026))
  have hz : halfEven (q / pow10 (-1000026)) = 0 := by
    generalize halfEven (q / pow10 (-1000026)) = r at *
    rw [mag_le] at hn
    have h1 : (r : Rat) < ((1 : Int) : Rat) := by grind
    have h2 : ((-1 : Int) : Rat) < (r : Rat) := by grind
    have h1' : r < 1 := by exact_mod_cast h1
    have h2' : -1 < r := by exact_mod_cast h2
    omega
  rw [hz]
  have hp := pow10_pos 1000000
  simp [mag, Rat.not_le.2 hp]

/-- A number beyond the largest exponent raises. -/
theorem fix_huge {q : Rat} (h : pow10 1000001 ≤ mag q) : fix q = .err .decimalOverflow := by
  have hp := pow10_pos 1000001
  have h0 : q ≠ 0 := by rintro rfl; simp [mag] at h; grind
  obtain ⟨h1, h2, h3⟩ := quantum_spec h0
  have hle : pow10 (quantum q) ≤ mag q := by
    rcases h3 with h3 | h3
    · rw [h3]; exact Rat.le_trans (pow10_mono (by omega)) h
    · exact Rat.le_trans (pow10_mono (by omega)) h3
  rw [fix_eq h0]
  generalize quantum q = e at *
  have he := pow10_pos e
  have hn := halfEven_near (q / pow10 e)
  generalize halfEven (q / pow10 e) = r at *
  have hd : mag ((r : Rat) * pow10 e - q) ≤ 1 / 2 * pow10 e := by
    have := Rat.mul_le_mul_of_nonneg_right hn (Rat.le_of_lt he)
    rw [← mag_mul_pos _ he] at this
    rw [show (r : Rat) * pow10 e - q = (r - q / pow10 e) * pow10 e by grind]
    exact this
  have hs : pow10 1000001 = 10 * pow10 1000000 := by rw [← pow10_succ]; rfl
  rw [if_pos]
  rw [mag_le] at hd
  unfold mag at h hle ⊢
  split at h <;> split <;> grind

end Verif.Num
