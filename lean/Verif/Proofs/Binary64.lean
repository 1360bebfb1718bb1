import Verif.Py.Binary64
import Verif.Spec.Binary64
import Verif.Proofs.Arith
/-! # Rounding to 53 bits -/

namespace Verif.Flo
open Verif Num

theorem pow2_pos (e : Int) : 0 < pow2 e := by unfold pow2; exact Rat.zpow_pos (by decide +kernel)

theorem pow2_add (a b : Int) : pow2 (a + b) = pow2 a * pow2 b := by unfold pow2; exact Rat.zpow_add (by decide +kernel) a b

theorem pow2_zero : pow2 0 = 1 := by unfold pow2; rfl

theorem pow2_one : pow2 1 = 2 := by unfold pow2; exact Rat.zpow_one 2

theorem pow2_succ (a : Int) : pow2 (a + 1) = 2 * pow2 a := by
  rw [pow2_add, Rat.mul_comm, pow2_one]

theorem pow2_nat (n : Nat) : pow2 n = ((2 ^ n : Nat) : Rat) := by
  induction n with
  | zero => exact pow2_zero
  | succ n ih => rw [Int.natCast_succ, pow2_succ, ih, Nat.pow_succ]; push_cast; grind

theorem one_le_pow2 (n : Nat) : 1 ≤ pow2 n := by
  induction n with
  | zero => rw [show ((0 : Nat) : Int) = 0 from rfl, pow2_zero]; exact Rat.le_refl
  | succ n ih => rw [Int.natCast_succ, pow2_succ]; grind

theorem pow2_mono {a b : Int} (h : a ≤ b) : pow2 a ≤ pow2 b := by
  obtain ⟨n, rfl⟩ := Int.le.dest h
  rw [pow2_add]
  have := Rat.mul_le_mul_of_nonneg_left (one_le_pow2 n) (Rat.le_of_lt (pow2_pos a))
  simpa using this

theorem pow2_lt {a b : Int} (h : a < b) : pow2 a < pow2 b := by
  have h1 := pow2_mono (show a + 1 ≤ b by omega)
  rw [pow2_succ] at h1
  have := pow2_pos a
  grind

theorem numBits_lt (n : Nat) : n < 2 ^ numBits n :=
  (Nat.length_toDigits_le_iff (by decide) (Nat.length_toDigits_pos)).1 (Nat.le_refl _)

theorem le_numBits {n : Nat} (h : 0 < n) : 2 ^ (numBits n - 1) ≤ n := by
  rcases Nat.lt_or_ge n (2 ^ (numBits n - 1)) with hl | hl
  · exfalso
    by_cases h1 : 0 < numBits n - 1
    · have := (Nat.length_toDigits_le_iff (b := 2) (by decide) h1).2 hl
      unfold numBits at *
      omega
    · have : numBits n - 1 = 0 := by omega
      rw [this] at hl
      simp at hl
      omega
  · exact hl

theorem numBits_pos (n : Nat) : 0 < numBits n := Nat.length_toDigits_pos

/-- The exponent of the first digit. -/
theorem expo_spec {q : Rat} (h : q ≠ 0) : pow2 (expo q) ≤ mag q ∧ mag q < pow2 (expo q + 1) := by
  have hn : 0 < q.num.natAbs := by
    have : q.num ≠ 0 := fun e => h (Rat.num_eq_zero.1 e)
    omega
  have n1 := le_numBits hn
  have n2 := numBits_lt q.num.natAbs
  have d1 := le_numBits q.den_pos
  have d2 := numBits_lt q.den
  have pn := numBits_pos q.num.natAbs
  have pd := numBits_pos q.den
  have hm := mag_eq q
  have hd : (0 : Rat) < q.den := by exact_mod_cast q.den_pos
  have hp := mag_pos h
  unfold expo
  generalize numBits q.num.natAbs = a at *
  generalize numBits q.den = b at *
  have hup : mag q < pow2 ((a : Int) - b + 1) := by
    have e1 : ((2 ^ (b - 1) : Nat) : Rat) ≤ q.den := by exact_mod_cast d1
    have e2 : (q.num.natAbs : Rat) < ((2 ^ a : Nat) : Rat) := by exact_mod_cast n2
    rw [← pow2_nat] at e1 e2
    have e3 := Rat.mul_le_mul_of_nonneg_left e1 (Rat.le_of_lt hp)
    refine Rat.lt_of_mul_lt_mul_right (c := pow2 ((b - 1 : Nat) : Int)) ?_ (Rat.le_of_lt (pow2_pos _))
    rw [← pow2_add, show (a : Int) - b + 1 + ((b - 1 : Nat) : Int) = a by omega]
    grind
  have hlo : pow2 ((a : Int) - b - 1) ≤ mag q := by
    have e1 : (q.den : Rat) ≤ ((2 ^ b : Nat) : Rat) := by exact_mod_cast Nat.le_of_lt d2
    have e2 : ((2 ^ (a - 1) : Nat) : Rat) ≤ (q.num.natAbs : Rat) := by exact_mod_cast n1
    rw [← pow2_nat] at e1 e2
    have e3 := Rat.mul_le_mul_of_nonneg_left e1 (Rat.le_of_lt hp)
    refine Rat.le_of_mul_le_mul_right (c := pow2 (b : Int)) ?_ (pow2_pos _)
    rw [← pow2_add, show (a : Int) - b - 1 + b = ((a - 1 : Nat) : Int) by omega]
    grind
  dsimp only
  split
  · next hc => exact ⟨hc, hup⟩
  · next hc =>
    refine ⟨hlo, ?_⟩
    rw [show (a : Int) - b - 1 + 1 = a - b by omega]
    exact Rat.not_le.1 hc

theorem lastBit_spec {q : Rat} (h : q ≠ 0) : -1074 ≤ lastBit q ∧ mag q < pow2 (lastBit q + 53) ∧
    (lastBit q = -1074 ∨ pow2 (lastBit q + 52) ≤ mag q) := by
  have ha := expo_spec h
  unfold lastBit
  refine ⟨by omega, ?_, ?_⟩
  · have := pow2_mono (show expo q + 1 ≤ max (-1074) (expo q - 52) + 53 by omega)
    grind
  · by_cases hc : max (-1074) (expo q - 52) = -1074
    · exact .inl hc
    · refine .inr ?_
      rw [show max (-1074) (expo q - 52) + 52 = expo q by omega]
      exact ha.1

theorem pow2_53 : pow2 53 = 2 ^ 53 := by have := pow2_nat 53; rw [Rat.natCast_pow] at this; exact this
theorem pow2_52 : pow2 52 = 2 ^ 52 := by have := pow2_nat 52; rw [Rat.natCast_pow] at this; exact this

/-- Scaling by a power of ten. -/
theorem mag_scaled (a q : Rat) (e : Int) : mag (a * pow2 e - q) = mag (a - q / pow2 e) * pow2 e := by
  have he := pow2_pos e
  rw [← mag_mul_pos _ he]; congr 1; grind

/-- Every number of 53 digits either is a multiple of the last place of `q`, or is closer to 0 than the least number of 53 digits there. -/
theorem double_cases {q y : Rat} (h : q ≠ 0) (hy : Double y) :
    (∃ k : Int, y = k * pow2 (lastBit q)) ∨ mag (y / pow2 (lastBit q)) < 2 ^ 52 ∧ 2 ^ 52 ≤ mag (q / pow2 (lastBit q)) := by
  obtain ⟨m, e, rfl, hm, he⟩ := hy
  obtain ⟨h1, h2, h3⟩ := lastBit_spec h
  generalize lastBit q = f at *
  have hf := pow2_pos f
  by_cases hc : f ≤ e
  · obtain ⟨d, hd⟩ := Int.eq_ofNat_of_zero_le (show 0 ≤ e - f by omega)
    refine .inl ⟨m * (2 ^ d : Nat), ?_⟩
    rw [show e = d + f by omega, pow2_add, pow2_nat, Rat.intCast_mul, Rat.intCast_natCast, Rat.mul_assoc]
  · refine .inr ⟨?_, ?_⟩
    · have e1 : (m : Rat) * pow2 e / pow2 f = m * pow2 (e - f) := by
        rw [show e = (e - f) + f by omega, pow2_add]
        rw [show (e - f + f - f : Int) = e - f by omega]
        grind
      rw [e1, mag_mul_pos _ (pow2_pos _)]
      have hm2 : mag (m : Rat) < pow2 53 := by
        rw [pow2_53]
        have : (m.natAbs : Rat) < ((2 ^ 53 : Nat) : Rat) := by exact_mod_cast hm
        have e2 : mag (m : Rat) = (m.natAbs : Rat) := by
          unfold mag
          split
          · next hl =>
            have hl' : m < 0 := by exact_mod_cast hl
            have : ((m.natAbs : Int) : Rat) = ((-m : Int) : Rat) := by congr 1; omega
            rw [Rat.intCast_natCast, Rat.intCast_neg] at this
            exact this.symm
          · next hl =>
            have hl' : ¬ m < 0 := fun hn => hl (by exact_mod_cast hn)
            have : ((m.natAbs : Int) : Rat) = (m : Rat) := by congr 1; omega
            rw [Rat.intCast_natCast] at this
            exact this.symm
        rw [e2]
        rw [Rat.natCast_pow] at this
        exact this
      have h4 : pow2 (e - f) ≤ pow2 (-1) := pow2_mono (by omega)
      have h5 : pow2 53 * pow2 (-1) = pow2 52 := by rw [← pow2_add]; rfl
      have h6 : mag (m : Rat) * pow2 (e - f) < pow2 53 * pow2 (e - f) := Rat.mul_lt_mul_of_pos_right hm2 (pow2_pos _)
      have h7 : pow2 53 * pow2 (e - f) ≤ pow2 53 * pow2 (-1) := Rat.mul_le_mul_of_nonneg_left h4 (Rat.le_of_lt (pow2_pos _))
      rw [← pow2_52]
      grind
    · rcases h3 with h3 | h3
      · omega
      · have e1 : mag q = mag (q / pow2 f) * pow2 f := by rw [← mag_mul_pos _ hf]; congr 1; grind
        rw [pow2_add, pow2_52, e1, Rat.mul_comm] at h3
        exact Rat.le_of_mul_le_mul_right h3 hf

theorem fl_spec {q : Rat} (h : q ≠ 0) : Nearest q (fl q) := by
  have hcases := fun y hy => double_cases (y := y) h hy
  obtain ⟨h1, h2, h3⟩ := lastBit_spec h
  unfold fl
  rw [if_neg h]
  generalize lastBit q = f at *
  have hf := pow2_pos f
  have e1 : mag q = mag (q / pow2 f) * pow2 f := by rw [← mag_mul_pos _ hf]; congr 1; grind
  have hx : mag (q / pow2 f) < 2 ^ 53 := by
    rw [e1, pow2_add, pow2_53, Rat.mul_comm] at h2
    exact Rat.lt_of_mul_lt_mul_left h2 (Rat.le_of_lt hf)
  have hd : ∀ y, y = y / pow2 f * pow2 f := fun y => by grind
  generalize hxx : q / pow2 f = x at *
  have hl := le_mag x
  have c53 : ((2 ^ 53 : Int) : Rat) = 2 ^ 53 := by rw [Rat.intCast_pow]; rfl
  have hb := halfEven_bound x (2 ^ 53) (by rw [c53]; grind) (by rw [c53]; grind)
  have far : ∀ y : Rat, mag y < 2 ^ 52 → 2 ^ 52 ≤ mag x → mag (halfEven x - x) < mag (y - x) := by
    intro y hy hx'
    have a := halfEven_best x (2 ^ 52)
    have b := halfEven_best x (-2 ^ 52)
    have c : ((2 ^ 52 : Int) : Rat) = 2 ^ 52 := by rw [Rat.intCast_pow]; rfl
    have d : ((-2 ^ 52 : Int) : Rat) = -2 ^ 52 := by rw [Rat.intCast_neg, c]
    rw [c] at a; rw [d] at b
    generalize mag (halfEven x - x) = z at *
    unfold mag at *
    split at hx' <;> grind
  refine ⟨?_, ?_, ?_⟩
  · generalize halfEven x = r at *
    by_cases hr : r.natAbs < 2 ^ 53
    · exact ⟨r, f, rfl, hr, h1⟩
    · have e2 : pow2 (f + 1) = 2 * pow2 f := pow2_succ f
      rcases (by omega : r = 2 ^ 53 ∨ r = -2 ^ 53) with rfl | rfl
      · exact ⟨2 ^ 52, f + 1, by rw [e2]; push_cast; grind, by decide, by omega⟩
      · exact ⟨-2 ^ 52, f + 1, by rw [e2]; push_cast; grind, by decide, by omega⟩
  · intro y hy
    rcases hcases y hy with ⟨k, rfl⟩ | ⟨hy', hx'⟩
    · rw [mag_scaled, mag_scaled, hxx]
      exact Rat.mul_le_mul_of_nonneg_right (halfEven_best x k) (Rat.le_of_lt hf)
    · rw [hd y, mag_scaled, mag_scaled, hxx]
      exact Rat.mul_le_mul_of_nonneg_right (Rat.le_of_lt (far _ hy' hx')) (Rat.le_of_lt hf)
  · intro y hy hne heq
    rcases hcases y hy with ⟨k, rfl⟩ | ⟨hy', hx'⟩
    · rw [mag_scaled, mag_scaled, hxx] at heq
      have heq' : mag (halfEven x - x) = mag (k - x) := by grind
      obtain ⟨t1, t2⟩ := halfEven_tie x k (by rintro rfl; exact hne rfl) heq'
      refine ⟨halfEven x / 2, f, by congr 2; omega, ?_⟩
      rcases t2 with t2 | t2
      · left; congr 2; omega
      · right; congr 2; omega
    · rw [hd y, mag_scaled, mag_scaled, hxx] at heq
      have := Rat.mul_lt_mul_of_pos_right (far _ hy' hx') hf
      grind

theorem double_zero : Double 0 := ⟨0, 0, by simp, by decide, by omega⟩

theorem nearest_zero : Nearest 0 0 := by
  refine ⟨double_zero, ?_, ?_⟩
  · intro y _
    have := mag_nonneg (y - 0)
    have e : mag (0 - 0 : Rat) = 0 := by decide +kernel
    rw [e]; exact this
  · intro y _ hne h
    have e : mag (0 - 0 : Rat) = 0 := by decide +kernel
    rw [e] at h
    have := mag_eq_zero.1 h.symm
    exact absurd (by grind) hne

/-- Two roundings of one number are the same. -/
theorem nearest_unique {s r t : Rat} (h : Nearest s r) (h' : Nearest s t) : r = t := by
  by_cases hne : t = r
  · exact hne.symm
  exfalso
  have e : mag (r - s) = mag (t - s) := by
    have := h.near t h'.double
    have := h'.near r h.double
    grind
  obtain ⟨m, e1, a, b⟩ := h.even t h'.double hne e
  obtain ⟨k, e2, c, d⟩ := h'.even r h.double (fun x => hne x.symm) e.symm
  have key : (2 * m * (2 * k) : Int) = (if t = (2 * m + 1 : Int) * pow2 e1 then 2 * m + 1 else 2 * m - 1) *
      (if r = (2 * k + 1 : Int) * pow2 e2 then 2 * k + 1 else 2 * k - 1) := by
    have p1 := pow2_pos e1
    have p2 := pow2_pos e2
    have ht : t = (if t = (2 * m + 1 : Int) * pow2 e1 then 2 * m + 1 else 2 * m - 1 : Int) * pow2 e1 := by
      split
      · next h => exact h
      · next h => exact b.resolve_left h
    have hr : r = (if r = (2 * k + 1 : Int) * pow2 e2 then 2 * k + 1 else 2 * k - 1 : Int) * pow2 e2 := by
      split
      · next h => exact h
      · next h => exact d.resolve_left h
    generalize (if t = (2 * m + 1 : Int) * pow2 e1 then 2 * m + 1 else 2 * m - 1) = i at *
    generalize (if r = (2 * k + 1 : Int) * pow2 e2 then 2 * k + 1 else 2 * k - 1) = j at *
    have h1 : ((2 * m : Int) * (2 * k : Int) : Rat) * (pow2 e1 * pow2 e2) = (i * j : Rat) * (pow2 e1 * pow2 e2) := by
      have : r * t = t * r := Rat.mul_comm _ _
      have l : r * t = ((2 * m : Int) * (2 * k : Int) : Rat) * (pow2 e1 * pow2 e2) := by rw [a, c]; grind
      have u : t * r = (i * j : Rat) * (pow2 e1 * pow2 e2) := by rw [ht, hr]; grind
      rw [← l, ← u, this]
    have h2 : ((2 * m : Int) * (2 * k : Int) : Rat) = (i * j : Rat) := by
      have := Rat.mul_pos p1 p2
      grind
    exact_mod_cast h2
  have o1 : ∃ u : Int, (if t = (2 * m + 1 : Int) * pow2 e1 then 2 * m + 1 else 2 * m - 1) = 2 * u + 1 := by
    split
    · exact ⟨m, rfl⟩
    · exact ⟨m - 1, by omega⟩
  have o2 : ∃ v : Int, (if r = (2 * k + 1 : Int) * pow2 e2 then 2 * k + 1 else 2 * k - 1) = 2 * v + 1 := by
    split
    · exact ⟨k, rfl⟩
    · exact ⟨k - 1, by omega⟩
  obtain ⟨u, hu⟩ := o1
  obtain ⟨v, hv⟩ := o2
  rw [hu, hv] at key
  have l : 2 * m * (2 * k) = 2 * (2 * (m * k)) := by grind
  have n : (2 * u + 1) * (2 * v + 1) = 2 * (2 * (u * v) + u + v) + 1 := by grind
  rw [l, n] at key
  omega

/-- A number of 53 digits is its own rounding. -/
theorem nearest_self {q : Rat} (h : Double q) : Nearest q q := by
  have e : mag (q - q) = 0 := mag_eq_zero.2 (by grind)
  refine ⟨h, fun y _ => by rw [e]; exact mag_nonneg _, fun y _ hne hy => ?_⟩
  rw [e] at hy
  have := mag_eq_zero.1 hy.symm
  exact absurd (by grind) hne

theorem fl_nearest (q : Rat) : Nearest q (fl q) := by
  by_cases h : q = 0
  · subst h; exact nearest_zero
  · exact fl_spec h

theorem fl_self {q : Rat} (h : Double q) : fl q = q := nearest_unique (fl_nearest q) (nearest_self h)

theorem fl_zero : fl 0 = 0 := rfl

/-- An integer times a power of two is a `float` if the integer has at most 53 bits, or is 2^53. -/
theorem double_of {m e : Int} (hm : m.natAbs ≤ 2 ^ 53) (he : -1074 ≤ e) : Double (m * pow2 e) := by
  by_cases hc : m.natAbs < 2 ^ 53
  · exact ⟨m, e, rfl, hc, he⟩
  · have e2 : pow2 (e + 1) = 2 * pow2 e := pow2_succ e
    rcases (by omega : m = 2 ^ 53 ∨ m = -2 ^ 53) with rfl | rfl
    · exact ⟨2 ^ 52, e + 1, by rw [e2]; push_cast; grind, by decide, by omega⟩
    · exact ⟨-2 ^ 52, e + 1, by rw [e2]; push_cast; grind, by decide, by omega⟩

theorem double_int {m : Int} (hm : m.natAbs ≤ 2 ^ 53) : Double m := by
  have := double_of (e := 0) hm (by omega)
  rwa [pow2_zero, Rat.mul_one] at this

theorem fl_int {m : Int} (hm : m.natAbs ≤ 2 ^ 53) : fl m = m := fl_self (double_int hm)

/-- The error is at most half of any unit that is fine enough for the number to have 53 bits. -/
theorem fl_error {q : Rat} {e : Int} (he : -1074 ≤ e) (h : mag q ≤ 2 ^ 53 * pow2 e) : mag (fl q - q) ≤ 1 / 2 * pow2 e := by
  have hp := pow2_pos e
  have h1 : mag (q / pow2 e) ≤ 2 ^ 53 := by
    have : mag q = mag (q / pow2 e) * pow2 e := by rw [← mag_mul_pos _ hp]; congr 1; grind
    rw [this] at h
    exact Rat.le_of_mul_le_mul_right h hp
  have c53 : ((2 ^ 53 : Int) : Rat) = 2 ^ 53 := by rw [Rat.intCast_pow]; rfl
  have hb := halfEven_bound (q / pow2 e) (2 ^ 53) (by rw [c53]; exact (mag_le.1 h1).1) (by rw [c53]; exact (mag_le.1 h1).2)
  have h2 := (fl_nearest q).near _ (double_of (m := halfEven (q / pow2 e)) (e := e) (by omega) he)
  rw [mag_scaled] at h2
  have h3 := Rat.mul_le_mul_of_nonneg_right (halfEven_near (q / pow2 e)) (Rat.le_of_lt hp)
  grind

theorem fl_nonneg {q : Rat} (h : 0 ≤ q) : 0 ≤ fl q := by
  have := (fl_nearest q).near 0 double_zero
  unfold mag at this
  split at this <;> split at this <;> grind

/-- Rounding is monotone in comparison with `float`s. -/
theorem fl_le {q y : Rat} (hy : Double y) (h : q ≤ y) : fl q ≤ y := by
  have := (fl_nearest q).near y hy
  unfold mag at this
  split at this <;> split at this <;> grind

theorem le_fl {q y : Rat} (hy : Double y) (h : y ≤ q) : y ≤ fl q := by
  have := (fl_nearest q).near y hy
  unfold mag at this
  split at this <;> split at this <;> grind

theorem halfEven_eq {x : Rat} {k : Int} (h1 : (k : Rat) - 1 / 2 < x) (h2 : x < k + 1 / 2) : halfEven x = k := by
  have hn := mag_le.1 (halfEven_near x)
  have a : (halfEven x : Rat) < ((k + 1 : Int) : Rat) := by rw [Rat.intCast_add]; grind
  have b : ((k - 1 : Int) : Rat) < (halfEven x : Rat) := by rw [Rat.intCast_sub]; grind
  have a' : halfEven x < k + 1 := by exact_mod_cast a
  have b' : k - 1 < halfEven x := by exact_mod_cast b
  omega

theorem floor_eq {x : Rat} {k : Int} (h1 : (k : Rat) ≤ x) (h2 : x < k + 1) : x.floor = k := by
  have a := Rat.floor_le x
  have b := Rat.lt_floor_add_one x
  have a' : k < x.floor + 1 := by
    have : (k : Rat) < ((x.floor + 1 : Int) : Rat) := by grind
    exact_mod_cast this
  have b' : x.floor < k + 1 := by
    have : (x.floor : Rat) < ((k + 1 : Int) : Rat) := by rw [Rat.intCast_add]; grind
    exact_mod_cast this
  omega

/-- `divmod` by an integer is exact for `float`s below 2^53. -/
theorem divmod_eq {x : Rat} {w : Nat} (hw : 0 < w) (h0 : 0 ≤ x) (h : x ≤ 2 ^ 53) :
    divmod x w = (((x / w).floor : Rat), x - w * ((x / w).floor : Rat)) := by
  have hw' : (0 : Rat) < w := by exact_mod_cast hw
  have a := Rat.floor_le (x / w)
  have hx : x = x / w * w := by grind
  have f0 : 0 ≤ (x / w).floor := by
    rw [Rat.le_floor_iff]
    have : 0 * (w : Rat) ≤ x / w * w := by rw [← hx]; simpa using h0
    simpa using Rat.le_of_mul_le_mul_right this hw'
  have le : ((w * (x / w).floor : Int) : Rat) ≤ ((2 ^ 53 : Int) : Rat) := by
    rw [Rat.intCast_mul, Rat.intCast_pow]
    have := Rat.mul_le_mul_of_nonneg_right a (Rat.le_of_lt hw')
    rw [← hx] at this
    have e1 : ((2 : Int) : Rat) = 2 := rfl
    have e2 : (((w : Nat) : Int) : Rat) = w := rfl
    rw [e1, e2]
    grind
  have le' : (w : Int) * (x / w).floor ≤ 2 ^ 53 := by exact_mod_cast le
  have f1 : (x / w).floor ≤ 2 ^ 53 := by
    have : (x / w).floor * 1 ≤ (x / w).floor * w := Int.mul_le_mul_of_nonneg_left (by omega) f0
    rw [Int.mul_comm] at le'
    omega
  generalize hq : (x / w).floor = Q at *
  unfold divmod
  dsimp only
  rw [hq]
  have e1 : x - (x - (w : Rat) * (Q : Rat)) = ((w * Q : Int) : Rat) := by
    rw [Rat.intCast_mul]
    have e2 : (((w : Nat) : Int) : Rat) = w := rfl
    rw [e2]; grind
  have hwQ : 0 ≤ (w : Int) * Q := Int.mul_nonneg (by omega) f0
  rw [e1, fl_int (by omega)]
  have e3 : ((w * Q : Int) : Rat) / w = (Q : Rat) := by
    rw [Rat.intCast_mul]
    have e2 : (((w : Nat) : Int) : Rat) = w := rfl
    rw [e2]; grind
  rw [e3, fl_int (by omega), floor_eq (x := (Q : Rat)) (k := Q) Rat.le_refl (by grind)]
  have e4 : (Q : Rat) - Q = 0 := by grind
  rw [e4, fl_zero, if_neg (by grind)]

end Verif.Flo
