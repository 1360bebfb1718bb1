import Verif.Proofs.Decimal
import Verif.Spec.Arith

namespace Verif.Num

/-- No integer is closer than the rounded one. -/
theorem halfEven_best (x : Rat) (k : Int) : mag (halfEven x - x) ≤ mag (k - x) := by
  have h1 := Rat.floor_le x
  have h2 := Rat.lt_floor_add_one x
  rw [Rat.intCast_add] at h2
  unfold halfEven
  dsimp only
  generalize x.floor = f at *
  have hk : (k : Rat) ≤ f ∨ (f : Rat) + 1 ≤ k := by
    rcases (by omega : k ≤ f ∨ f + 1 ≤ k) with h | h
    · exact .inl (by exact_mod_cast h)
    · exact .inr (by exact_mod_cast h)
  unfold mag
  repeat' split
  all_goals (try rw [Rat.intCast_add] at *)
  all_goals grind

/-- A tie goes to the even integer, and the other candidate is one away. -/
theorem halfEven_tie (x : Rat) (k : Int) (hk : k ≠ halfEven x) (h : mag (halfEven x - x) = mag (k - x)) :
    halfEven x % 2 = 0 ∧ (k = halfEven x + 1 ∨ k = halfEven x - 1) := by
  have h1 := Rat.floor_le x
  have h2 := Rat.lt_floor_add_one x
  rw [Rat.intCast_add] at h2
  have hn := halfEven_near x
  rw [h, mag_le] at hn
  have hk2 : k = x.floor ∨ k = x.floor + 1 := by
    have a : (k : Rat) < ((x.floor + 2 : Int) : Rat) := by rw [Rat.intCast_add]; grind
    have b : ((x.floor - 1 : Int) : Rat) < (k : Rat) := by rw [Rat.intCast_sub]; grind
    have a' : k < x.floor + 2 := by exact_mod_cast a
    have b' : x.floor - 1 < k := by exact_mod_cast b
    omega
  unfold halfEven at *
  dsimp only at *
  generalize x.floor = f at *
  split at hk
  · next hc =>
    rw [if_pos hc] at h
    exfalso
    rcases hk2 with rfl | rfl
    · exact hk rfl
    · rw [Rat.intCast_add] at h
      unfold mag at h; split at h <;> split at h <;> grind
  split at hk
  · next hc hc2 =>
    rw [if_neg hc, if_pos hc2] at h
    exfalso
    rcases hk2 with rfl | rfl
    · rw [Rat.intCast_add] at h
      unfold mag at h; split at h <;> split at h <;> grind
    · exact hk rfl
  · next hc hc2 =>
    rw [if_neg hc, if_neg hc2]
    split at hk
    · next hm => rw [if_pos hm]; omega
    · next hm => rw [if_neg hm]; omega

theorem halfEven_bound (x : Rat) (n : Int) (h1 : -n ≤ x) (h2 : x ≤ n) : -n ≤ halfEven x ∧ halfEven x ≤ n := by
  have a := halfEven_best x n
  have b := halfEven_best x (-n)
  have hn := halfEven_near x
  rw [mag_le] at hn
  rw [Rat.intCast_neg] at b
  have c : (halfEven x : Rat) < ((n + 1 : Int) : Rat) := by rw [Rat.intCast_add]; grind
  have d : ((-n - 1 : Int) : Rat) < (halfEven x : Rat) := by rw [Rat.intCast_sub, Rat.intCast_neg]; grind
  have c' : halfEven x < n + 1 := by exact_mod_cast c
  have d' : -n - 1 < halfEven x := by exact_mod_cast d
  omega

theorem pow10_28 : pow10 28 = 10 ^ 28 := by have := pow10_nat 28; rw [Rat.natCast_pow] at this; exact this
theorem pow10_27 : pow10 27 = 10 ^ 27 := by have := pow10_nat 27; rw [Rat.natCast_pow] at this; exact this

/-- Scaling by a power of ten. -/
theorem mag_scaled (a q : Rat) (e : Int) : mag (a * pow10 e - q) = mag (a - q / pow10 e) * pow10 e := by
  have he := pow10_pos e
  rw [← mag_mul_pos _ he]; congr 1; grind

/-- The rounded number, whether it is in range or not. -/
def rounded (q : Rat) : Rat := halfEven (q / pow10 (quantum q)) * pow10 (quantum q)

/-- Every number of 28 digits either is a multiple of the last place of `q`, or is closer to 0 than the least number of 28 digits there. -/
theorem digits_cases {q y : Rat} (h : q ≠ 0) (hy : Digits28 y) :
    (∃ k : Int, y = k * pow10 (quantum q)) ∨ mag (y / pow10 (quantum q)) < 10 ^ 27 ∧ 10 ^ 27 ≤ mag (q / pow10 (quantum q)) := by
  obtain ⟨m, e, rfl, hm, he⟩ := hy
  obtain ⟨h1, h2, h3⟩ := quantum_spec h
  generalize quantum q = f at *
  have hf := pow10_pos f
  by_cases hc : f ≤ e
  · obtain ⟨d, hd⟩ := Int.eq_ofNat_of_zero_le (show 0 ≤ e - f by omega)
    refine .inl ⟨m * (10 ^ d : Nat), ?_⟩
    rw [show e = d + f by omega, pow10_add, pow10_nat, Rat.intCast_mul, Rat.intCast_natCast, Rat.mul_assoc]
  · refine .inr ⟨?_, ?_⟩
    · have e1 : (m : Rat) * pow10 e / pow10 f = m * pow10 (e - f) := by
        rw [show e = (e - f) + f by omega, pow10_add]
        rw [show (e - f + f - f : Int) = e - f by omega]
        grind
      rw [e1, mag_mul_pos _ (pow10_pos _)]
      have hm2 : mag (m : Rat) < pow10 28 := by
        rw [pow10_28]
        have : (m.natAbs : Rat) < ((10 ^ 28 : Nat) : Rat) := by exact_mod_cast hm
        have e2 : mag (m : Rat) = (m.natAbs : Rat) := by
          unfold mag
          split
          · next hl =>
            have hl' : m < 0 := by exact_mod_cast hl
            have : ((m.natAbs : Int) : Rat) = ((-m : Int) : Rat) := by congr 1; omega
            rw [Rat.intCast_natCast, Rat.intCast_neg] at this
            exact this.symm
          · next hl =>
            have hl' : ¬ m < 0 := fun hn => hl (by exact_mod_cast hn)
            have : ((m.natAbs : Int) : Rat) = (m : Rat) := by congr 1; omega
            rw [Rat.intCast_natCast] at this
            exact this.symm
        rw [e2]
        rw [Rat.natCast_pow] at this
        exact this
      have h4 : pow10 (e - f) ≤ pow10 (-1) := pow10_mono (by omega)
      have h5 : pow10 28 * pow10 (-1) = pow10 27 := by rw [← pow10_add]; rfl
      have h6 : mag (m : Rat) * pow10 (e - f) < pow10 28 * pow10 (e - f) := Rat.mul_lt_mul_of_pos_right hm2 (pow10_pos _)
      have h7 : pow10 28 * pow10 (e - f) ≤ pow10 28 * pow10 (-1) := Rat.mul_le_mul_of_nonneg_left h4 (Rat.le_of_lt (pow10_pos _))
      rw [← pow10_27]
      grind
    · rcases h3 with h3 | h3
      · omega
      · have e1 : mag q = mag (q / pow10 f) * pow10 f := by rw [← mag_mul_pos _ hf]; congr 1; grind
        rw [pow10_add, pow10_27, e1, Rat.mul_comm] at h3
        exact Rat.le_of_mul_le_mul_right h3 hf

theorem rounded_spec {q : Rat} (h : q ≠ 0) : Rounds q (rounded q) := by
  have hcases := fun y hy => digits_cases (y := y) h hy
  obtain ⟨h1, h2, h3⟩ := quantum_spec h
  unfold rounded
  generalize quantum q = f at *
  have hf := pow10_pos f
  have e1 : mag q = mag (q / pow10 f) * pow10 f := by rw [← mag_mul_pos _ hf]; congr 1; grind
  have hx : mag (q / pow10 f) < 10 ^ 28 := by
    rw [e1, pow10_add, pow10_28, Rat.mul_comm] at h2
    exact Rat.lt_of_mul_lt_mul_left h2 (Rat.le_of_lt hf)
  have hd : ∀ y, y = y / pow10 f * pow10 f := fun y => by grind
  generalize hxx : q / pow10 f = x at *
  have hl := le_mag x
  have c28 : ((10 ^ 28 : Int) : Rat) = 10 ^ 28 := by rw [Rat.intCast_pow]; rfl
  have hb := halfEven_bound x (10 ^ 28) (by rw [c28]; grind) (by rw [c28]; grind)
  have far : ∀ y : Rat, mag y < 10 ^ 27 → 10 ^ 27 ≤ mag x → mag (halfEven x - x) < mag (y - x) := by
    intro y hy hx'
    have a := halfEven_best x (10 ^ 27)
    have b := halfEven_best x (-10 ^ 27)
    have c : ((10 ^ 27 : Int) : Rat) = 10 ^ 27 := by rw [Rat.intCast_pow]; rfl
    have d : ((-10 ^ 27 : Int) : Rat) = -10 ^ 27 := by rw [Rat.intCast_neg, c]
    rw [c] at a; rw [d] at b
    generalize mag (halfEven x - x) = z at *
    unfold mag at *
    split at hx' <;> grind
  refine ⟨?_, ?_, ?_⟩
  · generalize halfEven x = r at *
    by_cases hr : r.natAbs < 10 ^ 28
    · exact ⟨r, f, rfl, hr, h1⟩
    · have e2 : pow10 (f + 1) = 10 * pow10 f := pow10_succ f
      rcases (by omega : r = 10 ^ 28 ∨ r = -10 ^ 28) with rfl | rfl
      · exact ⟨10 ^ 27, f + 1, by rw [e2]; push_cast; grind, by decide, by omega⟩
      · exact ⟨-10 ^ 27, f + 1, by rw [e2]; push_cast; grind, by decide, by omega⟩
  · intro y hy
    rcases hcases y hy with ⟨k, rfl⟩ | ⟨hy', hx'⟩
    · rw [mag_scaled, mag_scaled, hxx]
      exact Rat.mul_le_mul_of_nonneg_right (halfEven_best x k) (Rat.le_of_lt hf)
    · rw [hd y, mag_scaled, mag_scaled, hxx]
      exact Rat.mul_le_mul_of_nonneg_right (Rat.le_of_lt (far _ hy' hx')) (Rat.le_of_lt hf)
  · intro y hy hne heq
    rcases hcases y hy with ⟨k, rfl⟩ | ⟨hy', hx'⟩
    · rw [mag_scaled, mag_scaled, hxx] at heq
      have heq' : mag (halfEven x - x) = mag (k - x) := by grind
      obtain ⟨t1, t2⟩ := halfEven_tie x k (by rintro rfl; exact hne rfl) heq'
      refine ⟨halfEven x / 2, f, by congr 2; omega, ?_⟩
      rcases t2 with t2 | t2
      · left; congr 2; omega
      · right; congr 2; omega
    · rw [hd y, mag_scaled, mag_scaled, hxx] at heq
      have := Rat.mul_lt_mul_of_pos_right (far _ hy' hx') hf
      grind

theorem fix_rounded {q : Rat} (h : q ≠ 0) : fix q = if pow10 1000000 ≤ mag (rounded q) then .err .decimalOverflow else .ok (rounded q) := fix_eq h

theorem digits_zero : Digits28 0 := ⟨0, 0, by simp, by decide, by omega⟩

theorem rounds_zero : Rounds 0 0 := by
  refine ⟨digits_zero, ?_, ?_⟩
  · intro y _
    have := mag_nonneg (y - 0)
    have e : mag (0 - 0 : Rat) = 0 := by decide +kernel
    rw [e]; exact this
  · intro y _ hne h
    have e : mag (0 - 0 : Rat) = 0 := by decide +kernel
    rw [e] at h
    have := mag_eq_zero.1 h.symm
    exact absurd (by grind) hne

/-- Two roundings of one number are the same. -/
theorem rounds_unique {s r t : Rat} (h : Rounds s r) (h' : Rounds s t) : r = t := by
  by_cases hne : t = r
  · exact hne.symm
  exfalso
  have e : mag (r - s) = mag (t - s) := by
    have := h.near t h'.digits
    have := h'.near r h.digits
    grind
  obtain ⟨m, e1, a, b⟩ := h.even t h'.digits hne e
  obtain ⟨k, e2, c, d⟩ := h'.even r h.digits (fun x => hne x.symm) e.symm
  have key : (2 * m * (2 * k) : Int) = (if t = (2 * m + 1 : Int) * pow10 e1 then 2 * m + 1 else 2 * m - 1) *
      (if r = (2 * k + 1 : Int) * pow10 e2 then 2 * k + 1 else 2 * k - 1) := by
    have p1 := pow10_pos e1
    have p2 := pow10_pos e2
    have ht : t = (if t = (2 * m + 1 : Int) * pow10 e1 then 2 * m + 1 else 2 * m - 1 : Int) * pow10 e1 := by
      split
      · next h => exact h
      · next h => exact b.resolve_left h
    have hr : r = (if r = (2 * k + 1 : Int) * pow10 e2 then 2 * k + 1 else 2 * k - 1 : Int) * pow10 e2 := by
      split
      · next h => exact h
      · next h => exact d.resolve_left h
    generalize (if t = (2 * m + 1 : Int) * pow10 e1 then 2 * m + 1 else 2 * m - 1) = i at *
    generalize (if r = (2 * k + 1 : Int) * pow10 e2 then 2 * k + 1 else 2 * k - 1) = j at *
    have h1 : ((2 * m : Int) * (2 * k : Int) : Rat) * (pow10 e1 * pow10 e2) = (i * j : Rat) * (pow10 e1 * pow10 e2) := by
      have : r * t = t * r := Rat.mul_comm _ _
      have l : r * t = ((2 * m : Int) * (2 * k : Int) : Rat) * (pow10 e1 * pow10 e2) := by rw [a, c]; grind
      have u : t * r = (i * j : Rat) * (pow10 e1 * pow10 e2) := by rw [ht, hr]; grind
      rw [← l, ← u, this]
    have h2 : ((2 * m : Int) * (2 * k : Int) : Rat) = (i * j : Rat) := by
      have := Rat.mul_pos p1 p2
      grind
    exact_mod_cast h2
  have o1 : ∃ u : Int, (if t = (2 * m + 1 : Int) * pow10 e1 then 2 * m + 1 else 2 * m - 1) = 2 * u + 1 := by
    split
    · exact ⟨m, rfl⟩
    · exact ⟨m - 1, by omega⟩
  have o2 : ∃ v : Int, (if r = (2 * k + 1 : Int) * pow10 e2 then 2 * k + 1 else 2 * k - 1) = 2 * v + 1 := by
    split
    · exact ⟨k, rfl⟩
    · exact ⟨k - 1, by omega⟩
  obtain ⟨u, hu⟩ := o1
  obtain ⟨v, hv⟩ := o2
  rw [hu, hv] at key
  have l : 2 * m * (2 * k) = 2 * (2 * (m * k)) := by grind
  have n : (2 * u + 1) * (2 * v + 1) = 2 * (2 * (u * v) + u + v) + 1 := by grind
  rw [l, n] at key
  omega

/-- A number of 28 digits is its own rounding. -/
theorem rounds_self {q : Rat} (h : Digits28 q) : Rounds q q := by
  have e : mag (q - q) = 0 := mag_eq_zero.2 (by grind)
  refine ⟨h, fun y _ => by rw [e]; exact mag_nonneg _, fun y _ hne hy => ?_⟩
  rw [e] at hy
  have := mag_eq_zero.1 hy.symm
  exact absurd (by grind) hne

theorem halfEven_up (x : Rat) (n : Int) (hn : n % 2 = 1) : n + 1 ≤ halfEven x ↔ (n : Rat) + 1 / 2 ≤ x := by
  have h1 := Rat.floor_le x
  have h2 := Rat.lt_floor_add_one x
  rw [Rat.intCast_add] at h2
  unfold halfEven
  dsimp only
  generalize x.floor = f at *
  have cmp : n + 1 ≤ f ∨ n = f ∨ f + 1 ≤ n := by omega
  rcases cmp with h | h | h
  · have h' : ((n + 1 : Int) : Rat) ≤ f := by exact_mod_cast h
    rw [Rat.intCast_add] at h'
    constructor
    · intro _; grind
    · intro _; repeat' split
      all_goals omega
  · subst h
    constructor
    · intro hh
      split at hh
      · omega
      · grind
    · intro hh
      rw [if_neg (by grind)]
      split
      · omega
      · rw [if_neg (by omega)]; omega
  · have h' : ((f + 1 : Int) : Rat) ≤ n := by exact_mod_cast h
    rw [Rat.intCast_add] at h'
    constructor
    · intro hh
      exfalso
      revert hh
      repeat' split
      all_goals omega
    · intro _; grind

theorem halfEven_down (x : Rat) (n : Int) (hn : n % 2 = 1) : halfEven x ≤ -(n + 1) ↔ x ≤ -((n : Rat) + 1 / 2) := by
  have h := halfEven_up x (-(n + 2)) (by omega)
  have g : ∀ m : Int, m % 2 = 0 → (halfEven x ≤ m ↔ x ≤ (m : Rat) + 1 / 2) := by
    intro m hm
    have h1 := Rat.floor_le x
    have h2 := Rat.lt_floor_add_one x
    rw [Rat.intCast_add] at h2
    unfold halfEven
    dsimp only
    generalize x.floor = f at *
    have cmp : m + 1 ≤ f ∨ m = f ∨ f + 1 ≤ m := by omega
    rcases cmp with h | h | h
    · have h' : ((m + 1 : Int) : Rat) ≤ f := by exact_mod_cast h
      rw [Rat.intCast_add] at h'
      constructor
      · intro hh
        exfalso
        revert hh
        repeat' split
        all_goals omega
      · intro _; grind
    · subst h
      constructor
      · intro hh
        split at hh
        · grind
        · split at hh
          · omega
          · grind
      · intro hh
        split
        · omega
        · split
          · grind
          · omega
    · have h' : ((f + 1 : Int) : Rat) ≤ m := by exact_mod_cast h
      rw [Rat.intCast_add] at h'
      constructor
      · intro _; grind
      · intro _; repeat' split
        all_goals omega
  rw [g _ (by omega)]
  rw [Rat.intCast_neg, Rat.intCast_add]
  grind

theorem tooLarge_iff {q : Rat} (h : q ≠ 0) : pow10 1000000 ≤ mag (rounded q) ↔ TooLarge q := by
  have R := rounded_spec h
  have p := pow10_pos 999972
  have e1 : pow10 1000000 = 10 ^ 28 * pow10 999972 := by rw [← pow10_28, ← pow10_add]; rfl
  have e2 : pow10 999999 = 10 ^ 27 * pow10 999972 := by rw [← pow10_27, ← pow10_add]; rfl
  unfold TooLarge
  by_cases h1 : pow10 1000000 ≤ mag q
  · have n3 := R.near _ (show Digits28 (pow10 1000000) from ⟨1, 1000000, by simp, by decide, by omega⟩)
    have n4 := R.near _ (show Digits28 (-pow10 1000000) from ⟨-1, 1000000, by simp; grind, by decide, by omega⟩)
    generalize rounded q = r at *
    refine ⟨fun _ => by grind, fun _ => ?_⟩
    unfold mag at h1 n3 n4 ⊢
    split at h1 <;> grind
  by_cases h2 : mag q < pow10 999999
  · have n := R.near 0 digits_zero
    generalize rounded q = r at *
    refine ⟨fun hh => ?_, fun hh => by grind⟩
    unfold mag at h2 n hh
    grind
  have hq : quantum q = 999972 := by
    obtain ⟨a, b, c⟩ := quantum_spec h
    have u1 : ¬ quantum q + 28 ≤ 999999 := fun hh => by have := pow10_mono hh; grind
    rcases c with c | c
    · omega
    · have u2 : ¬ 1000000 ≤ quantum q + 27 := fun hh => by have := pow10_mono hh; grind
      omega
  unfold rounded
  rw [hq, mag_mul_pos _ p, e1]
  have e3 : mag q = mag (q / pow10 999972) * pow10 999972 := by rw [← mag_mul_pos _ p]; congr 1; grind
  rw [e3]
  generalize q / pow10 999972 = x
  have up := halfEven_up x (10 ^ 28 - 1) (by decide)
  have down := halfEven_down x (10 ^ 28 - 1) (by decide)
  rw [Rat.intCast_sub, Rat.intCast_pow] at up down
  have m1 : ∀ a b : Rat, a * pow10 999972 ≤ b * pow10 999972 ↔ a ≤ b := fun a b =>
    ⟨fun hh => Rat.le_of_mul_le_mul_right hh p, fun hh => Rat.mul_le_mul_of_nonneg_right hh (Rat.le_of_lt p)⟩
  rw [m1, m1]
  generalize halfEven x = r at *
  have c1 : (10 ^ 28 : Rat) = ((10 ^ 28 : Int) : Rat) := by rw [Rat.intCast_pow]; rfl
  have k : (10 ^ 28 : Rat) ≤ mag (r : Rat) ↔ (10 ^ 28 : Int) ≤ r ∨ r ≤ -10 ^ 28 := by
    constructor
    · intro hh
      unfold mag at hh
      split at hh
      · right
        have : (r : Rat) ≤ ((-10 ^ 28 : Int) : Rat) := by rw [Rat.intCast_neg, ← c1]; grind
        exact_mod_cast this
      · left
        rw [c1] at hh
        exact_mod_cast hh
    · have := le_mag (r : Rat)
      rintro (hh | hh)
      · have : ((10 ^ 28 : Int) : Rat) ≤ r := by exact_mod_cast hh
        grind
      · have : (r : Rat) ≤ ((-10 ^ 28 : Int) : Rat) := by exact_mod_cast hh
        rw [Rat.intCast_neg] at this
        grind
  rw [k]
  rw [show (10 ^ 28 - 1 + 1 : Int) = 10 ^ 28 by decide] at up down
  rw [up, down]
  unfold mag
  split <;> grind

end Verif.Num
