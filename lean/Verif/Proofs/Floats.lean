import Verif.Model.Floats
import Verif.Proofs.Microseconds
/-! # The text of a `float` -/

namespace Verif.Flo
open Verif Num

/-- Between a `float` and any other there is a distance of at least 2^-53 of it. -/
theorem gap {x y : Rat} (hx : Double x) (hy : Double y) (h0 : 0 < x) (hne : y ≠ x) : x ≤ 2 ^ 53 * mag (x - y) := by
  obtain ⟨m, f, rfl, hm, hf⟩ := hx
  obtain ⟨k, g, rfl, hk, hg⟩ := hy
  have pf := pow2_pos f
  have pg := pow2_pos g
  have bm : (m : Rat) ≤ 2 ^ 53 := by
    have : (m : Rat) ≤ ((2 ^ 53 : Int) : Rat) := Rat.intCast_le_intCast.2 (by omega)
    rw [Rat.intCast_pow] at this; exact this
  have one : ∀ (j : Int) (P : Rat), 0 < P → j ≠ 0 → P ≤ mag ((j : Rat) * P) := by
    intro j P hP hj
    rw [mag_mul_pos _ hP]
    have : (1 : Rat) ≤ mag (j : Rat) := by
      unfold mag
      rcases (by omega : 1 ≤ j ∨ j ≤ -1) with h | h
      · have : ((1 : Int) : Rat) ≤ j := Rat.intCast_le_intCast.2 h
        have c : ((1 : Int) : Rat) = 1 := rfl
        rw [c] at this
        split <;> grind
      · have : (j : Rat) ≤ ((-1 : Int) : Rat) := Rat.intCast_le_intCast.2 h
        have c : ((-1 : Int) : Rat) = -1 := rfl
        rw [c] at this
        split <;> grind
    have := Rat.mul_le_mul_of_nonneg_right this (Rat.le_of_lt hP)
    rw [Rat.one_mul] at this
    exact this
  by_cases hc : f ≤ g
  · obtain ⟨d, hd⟩ := Int.eq_ofNat_of_zero_le (show 0 ≤ g - f by omega)
    have e : (k : Rat) * pow2 g = ((k * (2 ^ d : Nat) : Int) : Rat) * pow2 f := by
      rw [show g = d + f by omega, pow2_add, pow2_nat, Rat.intCast_mul, Rat.intCast_natCast, Rat.mul_assoc]
    rw [e] at hne ⊢
    generalize k * ((2 ^ d : Nat) : Int) = K at *
    have e2 : (m : Rat) * pow2 f - (K : Rat) * pow2 f = ((m - K : Int) : Rat) * pow2 f := by rw [Rat.intCast_sub]; grind
    rw [e2]
    have := one (m - K) (pow2 f) pf (by intro h; apply hne; congr 2; omega)
    have h3 := Rat.mul_le_mul_of_nonneg_right bm (Rat.le_of_lt pf)
    grind
  · obtain ⟨d, hd⟩ := Int.eq_ofNat_of_zero_le (show 0 ≤ f - g by omega)
    have e : (m : Rat) * pow2 f = ((m * (2 ^ d : Nat) : Int) : Rat) * pow2 g := by
      rw [show f = d + g by omega, pow2_add, pow2_nat, Rat.intCast_mul, Rat.intCast_natCast, Rat.mul_assoc]
    rw [e] at hne h0 ⊢
    generalize m * ((2 ^ d : Nat) : Int) = M at *
    have e2 : (M : Rat) * pow2 g - (k : Rat) * pow2 g = ((M - k : Int) : Rat) * pow2 g := by rw [Rat.intCast_sub]; grind
    by_cases hM : M ≤ 2 ^ 53
    · rw [e2]
      have := one (M - k) (pow2 g) pg (by intro h; apply hne; congr 2; omega)
      have bM : (M : Rat) ≤ 2 ^ 53 := by
        have : (M : Rat) ≤ ((2 ^ 53 : Int) : Rat) := Rat.intCast_le_intCast.2 (by omega)
        rw [Rat.intCast_pow] at this; exact this
      have h3 := Rat.mul_le_mul_of_nonneg_right bM (Rat.le_of_lt pg)
      grind
    · have bk : (k : Rat) + 1 ≤ 2 ^ 53 := by
        have : ((k + 1 : Int) : Rat) ≤ ((2 ^ 53 : Int) : Rat) := Rat.intCast_le_intCast.2 (by omega)
        rw [Rat.intCast_pow, Rat.intCast_add] at this; exact this
      have bM : (2 : Rat) ^ 53 ≤ M := by
        have : ((2 ^ 53 : Int) : Rat) ≤ (M : Rat) := Rat.intCast_le_intCast.2 (by omega)
        rw [Rat.intCast_pow] at this; exact this
      have h3 := Rat.mul_le_mul_of_nonneg_right bk (Rat.le_of_lt pg)
      have h4 := Rat.mul_le_mul_of_nonneg_right bM (Rat.le_of_lt pg)
      have h5 := (le_mag ((M : Rat) * pow2 g - (k : Rat) * pow2 g)).1
      grind

/-- A number that is closer to a `float` than half the distance to the next one is rounded to it. -/
theorem fl_of_close {x c : Rat} (hx : Double x) (h0 : 0 < x) (h : 2 ^ 54 * mag (c - x) < x) : fl c = x := by
  have far : ∀ y, Double y → y ≠ x → mag (x - c) < mag (y - c) := by
    intro y hy hne
    have g := gap hx hy h0 hne
    unfold mag at *
    split at g <;> split at h <;> split <;> split <;> grind
  refine nearest_unique (fl_nearest c) ⟨hx, fun y hy => ?_, fun y hy hne he => ?_⟩
  · by_cases hne : y = x
    · rw [hne]; exact Rat.le_refl
    · exact Rat.le_of_lt (far y hy hne)
  · have := far y hy hne
    grind

/-- 17 digits are enough. -/
theorem fl_seventeen {x : Rat} (hx : Double x) (h0 : 0 < x) :
    fl ((halfEven (x / pow10 (adjusted x - 17 + 1)) : Rat) * pow10 (adjusted x - 17 + 1)) = x := by
  have ha := adjusted_spec (q := x) (by grind)
  have hm : mag x = x := by unfold mag; rw [if_neg (by grind)]
  rw [hm] at ha
  have hp := pow10_pos (adjusted x - 17 + 1)
  have e : pow10 (adjusted x) = 10 ^ 16 * pow10 (adjusted x - 17 + 1) := by
    have : pow10 16 = 10 ^ 16 := by have := pow10_nat 16; rw [Rat.natCast_pow] at this; exact this
    rw [← this, ← pow10_add]; congr 1; omega
  rw [e] at ha
  refine fl_of_close hx h0 ?_
  rw [Num.mag_scaled]
  have := halfEven_near (x / pow10 (adjusted x - 17 + 1))
  generalize mag (_ - _) = z at *
  generalize pow10 (adjusted x - 17 + 1) = T at *
  have h1 := Rat.mul_le_mul_of_nonneg_right this (Rat.le_of_lt hp)
  grind

theorem cand_value {x : Rat} {e : Int} {k n : Nat} (h0 : 0 < x) (h : cand x e k = some n) :
    fl ((n : Rat) * pow10 (e - k + 1)) = x := by
  have hp := pow10_pos (e - k + 1)
  have hs : 0 ≤ x / pow10 (e - k + 1) := by
    rw [Rat.div_def]; exact Rat.mul_nonneg (Rat.le_of_lt h0) (Rat.le_of_lt (Rat.inv_pos.2 hp))
  have hf : 0 ≤ (x / pow10 (e - k + 1)).floor := Rat.le_floor_iff.2 (by simpa using hs)
  have ha : (x / pow10 (e - k + 1)).floor ≤ halfEven (x / pow10 (e - k + 1)) := by unfold halfEven; grind
  unfold cand at h
  simp only at h
  generalize halfEven (x / pow10 (e - k + 1)) = a at *
  generalize (x / pow10 (e - k + 1)).floor = f at *
  have toNat : ∀ j : Int, 0 ≤ j → ((j.toNat : Nat) : Rat) = (j : Rat) := by
    intro j hj
    rw [← Rat.intCast_natCast, Int.toNat_of_nonneg hj]
  generalize hb : (if a = f then a + 1 else a - 1) = b at h
  have hb0 : 0 ≤ b := by grind
  split at h
  · next h1 => cases h; rw [toNat a (by omega)]; exact h1
  · split at h
    · next h1 => cases h; rw [toNat b hb0]; exact h1
    · cases h

/-- The value of a decimal number. -/
def value (r : Nat × Int) : Rat := (r.1 : Rat) * pow10 r.2

/-- What is printed is read as the same `float`. -/
theorem fl_shortest {x : Rat} (hx : Double x) (h0 : 0 < x) : ∀ more k : Nat, more + k = 17 → fl (value (shortest x more k)) = x
  | 0, k, h => by
    have := fl_seventeen hx h0
    obtain rfl : k = 17 := by omega
    have hs : 0 ≤ x / pow10 (adjusted x - (17 : Nat) + 1) := by
      rw [Rat.div_def]; exact Rat.mul_nonneg (Rat.le_of_lt h0) (Rat.le_of_lt (Rat.inv_pos.2 (pow10_pos _)))
    have hf : 0 ≤ (x / pow10 (adjusted x - (17 : Nat) + 1)).floor := Rat.le_floor_iff.2 (by simpa using hs)
    have ha : 0 ≤ halfEven (x / pow10 (adjusted x - (17 : Nat) + 1)) := by unfold halfEven; grind
    unfold value shortest
    simp only
    rw [← Rat.intCast_natCast, Int.toNat_of_nonneg ha]
    exact this
  | more + 1, k, h => by
    unfold shortest
    split
    · next n hn => exact cand_value h0 hn
    · exact fl_shortest hx h0 more (k + 1) (by omega)

theorem fl_mono {a b : Rat} (h : a ≤ b) : fl a ≤ fl b := by
  by_cases hc : fl b ≤ a
  · refine Rat.not_lt.1 fun hl => ?_
    have h1 := (fl_nearest a).near _ (fl_nearest b).double
    have h2 := (fl_nearest b).near _ (fl_nearest a).double
    have h3 := le_fl (fl_nearest a).double (q := b)
    have h4 := fl_le (fl_nearest b).double (q := a)
    have hab : a = b ∨ a < b := by grind
    rcases hab with rfl | hab
    · grind
    · unfold mag at h1 h2
      split at h1 <;> split at h1 <;> split at h2 <;> split at h2 <;> grind
  · exact fl_le (fl_nearest b).double (Rat.le_of_lt (Rat.not_le.1 hc))

/-- If all decimal numbers of at most `K` digits that are read as `x` are equal to `d`, and `d` is one of them, then `d` is printed. -/
theorem shortest_finds {x d : Rat} (h0 : 0 < x) {K : Nat} (hK : K ≤ 16)
    (U : ∀ k : Nat, 1 ≤ k → k ≤ K → ∀ m : Nat, fl ((m : Rat) * pow10 (adjusted x - k + 1)) = x → (m : Rat) * pow10 (adjusted x - k + 1) = d)
    {D : Int} (hd : d = D * pow10 (adjusted x - K + 1)) (hD : halfEven (x / pow10 (adjusted x - K + 1)) = D) (hx : fl d = x) :
    ∀ more k : Nat, 1 ≤ k → k ≤ K → more + k = 17 → value (shortest x more k) = d
  | 0, k, _, _, h => by omega
  | more + 1, k, h1, h2, h => by
    unfold shortest
    split
    · next n hn => exact U k h1 h2 n (cand_value h0 hn)
    · next hn =>
      by_cases hk : k = K
      · subst hk
        exfalso
        unfold cand at hn
        simp only [hD] at hn
        rw [← hd, if_pos hx] at hn
        cases hn
      · exact shortest_finds h0 hK U hd hD hx more (k + 1) (by omega) (by omega) (by omega)

/-- The relative error. -/
theorem fl_rel {q M : Rat} (h0 : 0 ≤ q) (h1 : q ≤ M) (h2 : pow2 (-1022) ≤ M) : mag (fl q - q) * 2 ^ 53 ≤ M := by
  by_cases hq : q = 0
  · subst hq
    rw [fl_zero, mag_eq_zero.2 (by grind)]
    have := pow2_pos (-1022)
    grind
  · obtain ⟨a, b, c⟩ := lastBit_spec hq
    have hm : mag q = q := by unfold mag; rw [if_neg (by grind)]
    rw [hm] at b c
    have e : pow2 (lastBit q + 53) = 2 ^ 53 * pow2 (lastBit q) := by rw [pow2_add, pow2_53, Rat.mul_comm]
    have e' : pow2 (lastBit q + 52) = 2 ^ 52 * pow2 (lastBit q) := by rw [pow2_add, pow2_52, Rat.mul_comm]
    have err := fl_error a (q := q) (by rw [hm, ← e]; exact Rat.le_of_lt b)
    have hl : pow2 (lastBit q + 52) ≤ M := by
      rcases c with c | c
      · rw [c]; exact h2
      · exact Rat.le_trans c h1
    rw [e'] at hl
    generalize mag (fl q - q) = z at *
    generalize pow2 (lastBit q) = P at *
    grind

end Verif.Flo
