import Verif.Proofs.Floats
import Verif.Props.Schema
/-! # C102, C37: `float`s in `JsonNumber`s -/

namespace Verif.Props
open Verif Flo Num Iso

/-- The `float`s that are numbers. -/
def Finite (x : Rat) : Prop := Double x ∧ mag x < pow2 1024

theorem mag_neg (x : Rat) : mag (-x) = mag x := by unfold mag; split <;> split <;> grind

theorem double_neg {x : Rat} (h : Double x) : Double (-x) := by
  obtain ⟨m, e, rfl, hm, he⟩ := h
  exact ⟨-m, e, by rw [Rat.intCast_neg]; grind, by omega, he⟩

theorem shown_pos {x : Rat} (h : 0 < x) : shown x = value (shortest x 16 1) := by
  have hm : mag x = x := by unfold mag; rw [if_neg (by grind)]
  unfold shown value
  rw [if_neg (by grind), hm]
  simp only
  rw [if_neg (by grind)]

theorem shown_neg (x : Rat) : shown (-x) = -shown x := by
  unfold shown
  rw [mag_neg]
  by_cases h0 : x = 0
  · subst h0; decide
  · rw [if_neg (by grind), if_neg h0]
    simp only
    split <;> split <;> grind

/-- C102: the text of a `float` is read as that `float`. -/
theorem fl_shown {x : Rat} (h : Double x) : fl (shown x) = x := by
  have pos : ∀ {y : Rat}, Double y → 0 < y → fl (shown y) = y := by
    intro y hy h0
    rw [shown_pos h0]
    exact fl_shortest hy h0 16 1 rfl
  by_cases h0 : x = 0
  · subst h0; decide
  · rcases (by grind : 0 < x ∨ 0 < -x) with hp | hp
    · exact pos h hp
    · have := pos (double_neg h) hp
      rw [shown_neg, fl_neg] at this
      grind

/-- C102: `float(JsonNumber(x)) == x` for every `float`. -/
theorem C102_float {x : Rat} (h : Finite x) : jnFloat (fltOf x).shownNum = fltOf x := by
  have e := fl_shown h.1
  have ht : tooLarge (shown x) = false := by
    unfold tooLarge
    rw [e]
    have := h.2
    exact decide_eq_false (by grind)
  simp only [fltOf, Flt.shownNum, jnFloat, ht, e]
  rfl

/-- C102: infinities and NaN survive as well. -/
theorem C102_special (b : Bool) : jnFloat (Flt.inf b).shownNum = .inf b ∧ jnFloat Flt.nan.shownNum = .nan := ⟨rfl, rfl⟩

theorem shown_le {a b : Rat} (ha : Double a) (hb : Double b) : shown a ≤ shown b ↔ a ≤ b := by
  constructor
  · intro h
    have := fl_mono h
    rwa [fl_shown ha, fl_shown hb] at this
  · intro h
    refine Rat.not_lt.1 fun hl => ?_
    have := fl_mono (Rat.le_of_lt hl)
    rw [fl_shown ha, fl_shown hb] at this
    obtain rfl : a = b := Rat.le_antisymm h this
    grind

/-- C102: `JsonNumber`s of `float`s, and a `JsonNumber` and a `float`, compare as the `float`s do. -/
theorem C102_order {a b : Rat} (ha : Double a) (hb : Double b) (o : Operand)
    (ho : o = .node (wrap (.flt (fltOf b))) ∨ o = .val (.flt (fltOf b))) :
    let n := (fltOf a).shownNum
    jnEq n o = .ok (decide (a = b)) ∧ jnLt n o = .ok (decide (a < b)) ∧ jnLe n o = .ok (decide (a ≤ b)) ∧
      jnGt n o = .ok (decide (b < a)) ∧ jnGe n o = .ok (decide (b ≤ a)) := by
  have e : o.num = .ok (.fin (shown b)) := by rcases ho with rfl | rfl <;> rfl
  have h1 := shown_le ha hb
  have h2 := shown_le hb ha
  simp only [fltOf, Flt.shownNum, jnEq, jnLt, jnLe, jnGt, jnGe, e, Res.ok_bind, Num.eq, Num.lt, Num.le]
  refine ⟨?_, ?_, ?_, ?_, ?_⟩ <;> (congr 1; simp only [decide_eq_decide]; grind)

theorem near_int {a b : Int} {P : Rat} (hP : 0 < P) (h : mag ((a : Rat) * P - b * P) < P) : a = b := by
  have e : (a : Rat) * P - b * P = ((a - b : Int) : Rat) * P := by rw [Rat.intCast_sub]; grind
  rw [e, mag_mul_pos _ hP] at h
  refine Classical.byContradiction fun hne => ?_
  have : (1 : Rat) ≤ mag ((a - b : Int) : Rat) := by
    unfold mag
    rcases (by omega : 1 ≤ a - b ∨ a - b ≤ -1) with h | h
    · have : ((1 : Int) : Rat) ≤ (a - b : Int) := Rat.intCast_le_intCast.2 h
      have c : ((1 : Int) : Rat) = 1 := rfl
      rw [c] at this
      split <;> grind
    · have : ((a - b : Int) : Rat) ≤ ((-1 : Int) : Rat) := Rat.intCast_le_intCast.2 h
      have c : ((-1 : Int) : Rat) = -1 := rfl
      rw [c] at this
      split <;> grind
  have := Rat.mul_le_mul_of_nonneg_right this (Rat.le_of_lt hP)
  grind

theorem scale (m : Int) {p j : Int} (h : j ≤ p) : ∃ D : Int, (m : Rat) * pow10 p = D * pow10 j := by
  obtain ⟨d, hd⟩ := Int.eq_ofNat_of_zero_le (show 0 ≤ p - j by omega)
  refine ⟨m * (10 ^ d : Nat), ?_⟩
  rw [show p = d + j by omega, pow10_add, pow10_nat, Rat.intCast_mul, Rat.intCast_natCast, Rat.mul_assoc]

theorem digits_pos {n : Nat} {p : Int} (h0 : 0 < n) (hn : n < 10 ^ 15) (hp : pow2 (-1022) ≤ (n : Rat) * pow10 p) :
    shown (fl ((n : Rat) * pow10 p)) = (n : Rat) * pow10 p := by
  generalize hd : (n : Rat) * pow10 p = d at *
  have hpp := pow2_pos (-1022)
  have d0 : 0 < d := by grind
  have tiny : Double (pow2 (-1022)) := ⟨1, -1022, by simp, by decide, by omega⟩
  have xl := le_fl tiny hp
  have rel := fl_rel (Rat.le_of_lt d0) Rat.le_refl hp
  generalize hx : fl d = x at *
  have x0 : 0 < x := by grind
  rw [shown_pos x0]
  have ha := adjusted_spec (q := x) (by grind)
  rw [show mag x = x by unfold mag; rw [if_neg (by grind)]] at ha
  have rel' := (le_mag (x - d))
  -- the last of 15 places
  have hT := pow10_pos (adjusted x - 15 + 1)
  have e15 : pow10 (adjusted x + 1) = 10 ^ 15 * pow10 (adjusted x - 15 + 1) := by
    have : pow10 15 = 10 ^ 15 := by have := pow10_nat 15; rw [Rat.natCast_pow] at this; exact this
    rw [← this, ← pow10_add]; congr 1; omega
  have hj : adjusted x - 15 + 1 ≤ p := by
    refine Int.not_lt.1 fun hlt => ?_
    -- then the number is smaller by a factor of ten
    have q1 : pow10 (p + 15) ≤ pow10 (adjusted x) := pow10_mono (by omega)
    have q2 : pow10 (p + 15) = 10 ^ 15 * pow10 p := by
      have : pow10 15 = 10 ^ 15 := by have := pow10_nat 15; rw [Rat.natCast_pow] at this; exact this
      rw [pow10_add, this, Rat.mul_comm]
    have q3 : (n : Rat) + 1 ≤ 10 ^ 15 := by
      have : ((n + 1 : Nat) : Rat) ≤ ((10 ^ 15 : Nat) : Rat) := Rat.natCast_le_natCast.2 (by omega)
      rw [Rat.natCast_pow, Rat.natCast_add] at this; exact this
    have q4 := pow10_pos p
    have q5 := Rat.mul_le_mul_of_nonneg_right q3 (Rat.le_of_lt q4)
    generalize mag (x - d) = z at *
    generalize pow10 p = P at *
    grind
  obtain ⟨D, hD⟩ := scale n hj
  rw [Rat.intCast_natCast, hd] at hD
  refine shortest_finds (K := 15) x0 (by decide) ?_ hD ?_ hx 16 1 (by omega) (by omega) (by omega)
  · intro k hk1 hk m hm
    have hle : adjusted x - 15 + 1 ≤ adjusted x - k + 1 := by omega
    obtain ⟨C, hC⟩ := scale m hle
    rw [Rat.intCast_natCast] at hC
    rw [hC] at hm ⊢
    rw [hD]
    have c0 : 0 ≤ (C : Rat) * pow10 (adjusted x - 15 + 1) := by
      rw [← hC]; exact Rat.mul_nonneg (by exact_mod_cast Nat.zero_le m) (Rat.le_of_lt (pow10_pos _))
    congr 2
    apply near_int hT
    rw [← hD]
    have relc : mag (x - (C : Rat) * pow10 (adjusted x - 15 + 1)) * 2 ^ 52 ≤ x := by
      by_cases hc : (C : Rat) * pow10 (adjusted x - 15 + 1) ≤ x
      · have := fl_rel c0 hc xl
        rw [hm] at this
        have := mag_nonneg (x - (C : Rat) * pow10 (adjusted x - 15 + 1))
        grind
      · have := fl_rel c0 Rat.le_refl (by grind)
        rw [hm] at this
        have b := (le_mag (x - (C : Rat) * pow10 (adjusted x - 15 + 1)))
        generalize mag _ = z at *
        grind
    have b1 := (le_mag (x - (C : Rat) * pow10 (adjusted x - 15 + 1)))
    generalize (C : Rat) * pow10 (adjusted x - 15 + 1) = c at *
    generalize mag (x - c) = z at *
    generalize mag (x - d) = y at *
    generalize pow10 (adjusted x - 15 + 1) = T at *
    unfold mag
    split <;> grind
  · have hs : x / pow10 (adjusted x - (15 : Nat) + 1) * pow10 (adjusted x - 15 + 1) = x := Rat.div_mul_cancel (by grind)
    generalize x / pow10 (adjusted x - (15 : Nat) + 1) = s at *
    generalize mag (x - d) = z at *
    generalize pow10 (adjusted x - 15 + 1) = T at *
    have aux : ∀ u v : Rat, u ≤ v → u * T ≤ v * T := fun u v h => Rat.mul_le_mul_of_nonneg_right h (Rat.le_of_lt hT)
    apply halfEven_eq
    · refine Rat.not_le.1 fun hl => ?_
      have := aux _ _ hl
      grind
    · refine Rat.not_le.1 fun hl => ?_
      have := aux _ _ hl
      grind

theorem integers_pos {n : Nat} (h0 : 0 < n) (hn : n < 2 ^ 53) : shown n = n := by
  have q0 : (0 : Rat) < n := by exact_mod_cast h0
  have q1 : (n : Rat) < 2 ^ 53 := by
    have : (n : Rat) < ((2 ^ 53 : Nat) : Rat) := Rat.natCast_lt_natCast.2 hn
    rw [Rat.natCast_pow] at this; exact this
  have hfl : fl (n : Rat) = n := by have := fl_int (m := (n : Int)) (by omega); rwa [Rat.intCast_natCast] at this
  rw [shown_pos q0]
  have ha := adjusted_spec (q := (n : Rat)) (by grind)
  rw [show mag (n : Rat) = n by unfold mag; rw [if_neg (by grind)]] at ha
  have lo : 0 ≤ adjusted (n : Rat) := by
    refine Int.not_lt.1 fun hl => ?_
    have := pow10_mono (show adjusted (n : Rat) + 1 ≤ 0 by omega)
    rw [pow10_zero] at this
    have : (n : Rat) < ((1 : Nat) : Rat) := by have c : ((1 : Nat) : Rat) = 1 := rfl; rw [c]; grind
    have := Rat.natCast_lt_natCast.1 this
    omega
  have hi : adjusted (n : Rat) ≤ 15 := by
    refine Int.not_lt.1 fun hl => ?_
    have := pow10_mono (show 16 ≤ adjusted (n : Rat) by omega)
    have c : pow10 16 = 10 ^ 16 := by have := pow10_nat 16; rw [Rat.natCast_pow] at this; exact this
    rw [c] at this
    grind
  obtain ⟨E, hE⟩ := Int.eq_ofNat_of_zero_le lo
  refine shortest_finds (K := E + 1) (D := n) q0 (by omega) ?_ ?_ ?_ hfl 16 1 (by omega) (by omega) (by omega)
  · intro k hk1 hk m hm
    obtain ⟨C, hC⟩ := scale m (show 0 ≤ adjusted (n : Rat) - k + 1 by omega)
    rw [Rat.intCast_natCast, pow10_zero, Rat.mul_one] at hC
    have c0 : 0 ≤ (C : Rat) := by
      rw [← hC]; exact Rat.mul_nonneg (by exact_mod_cast Nat.zero_le m) (Rat.le_of_lt (pow10_pos _))
    rw [hC] at hm ⊢
    have hb : (C : Rat) < 2 ^ 53 := by
      refine Rat.not_le.1 fun hl => ?_
      have d53 : Double (2 ^ 53) := by
        have := double_int (m := 2 ^ 53) (by decide)
        rwa [Rat.intCast_pow] at this
      have := le_fl d53 hl
      grind
    have hb' : C < 2 ^ 53 := by
      have : (C : Rat) < ((2 ^ 53 : Int) : Rat) := by rw [Rat.intCast_pow]; exact hb
      exact Rat.intCast_lt_intCast.1 this
    have hc' : 0 ≤ C := by
      have : ((0 : Int) : Rat) ≤ C := c0
      exact Rat.intCast_le_intCast.1 this
    rw [fl_int (m := C) (by omega)] at hm
    exact hm
  · rw [show adjusted (n : Rat) - ((E + 1 : Nat) : Int) + 1 = 0 by omega, pow10_zero, Rat.mul_one, Rat.intCast_natCast]
  · rw [show adjusted (n : Rat) - ((E + 1 : Nat) : Int) + 1 = 0 by omega, pow10_zero, Rat.div_def, show (1 : Rat)⁻¹ = 1 by decide +kernel, Rat.mul_one]
    apply halfEven_eq <;> rw [Rat.intCast_natCast] <;> grind

/-- C102: a decimal number of up to 15 digits that is given as a `float` is the `JsonNumber` it was written as, unless it is so small that
`float`s have fewer bits there. -/
theorem C102_digits {n p : Int} (hn : n.natAbs < 10 ^ 15) (hp : n = 0 ∨ pow2 (-1022) ≤ mag ((n : Rat) * pow10 p)) :
    (fltOf (fl ((n : Rat) * pow10 p))).shownNum = .fin ((n : Rat) * pow10 p) := by
  simp only [fltOf, Flt.shownNum]
  congr 1
  by_cases h0 : n = 0
  · subst h0; simp; decide
  · have hp := hp.resolve_left h0
    have e := digits_pos (n := n.natAbs) (p := p) (by omega) hn
    have hpp := pow10_pos p
    rw [mag_mul_pos _ hpp] at hp
    rcases Int.natAbs_eq n with hs | hs
    · have c : ((n.natAbs : Nat) : Rat) = (n : Rat) := by rw [← Rat.intCast_natCast, ← hs]
      have cm : mag (n : Rat) = n := by
        have : (0 : Rat) ≤ n := by rw [← c]; exact_mod_cast Nat.zero_le _
        unfold mag; rw [if_neg (by grind)]
      rw [cm] at hp
      rw [c] at e
      exact e hp
    · have c : ((n.natAbs : Nat) : Rat) = -(n : Rat) := by rw [← Rat.intCast_natCast, ← Rat.intCast_neg]; congr 1; omega
      have cm : mag (n : Rat) = -n := by
        have : (0 : Rat) ≤ -n := by rw [← c]; exact_mod_cast Nat.zero_le _
        unfold mag; split <;> grind
      rw [cm] at hp
      rw [c] at e
      have := e hp
      rw [Rat.neg_mul, fl_neg, shown_neg] at this
      grind

theorem shown_int {n : Int} (h : n.natAbs < 2 ^ 53) : shown n = n := by
  by_cases h0 : n = 0
  · subst h0; decide
  · have e := integers_pos (n := n.natAbs) (by omega) h
    rcases Int.natAbs_eq n with hs | hs
    · have c : ((n.natAbs : Nat) : Rat) = (n : Rat) := by rw [← Rat.intCast_natCast, ← hs]
      rwa [c] at e
    · have c : ((n.natAbs : Nat) : Rat) = -(n : Rat) := by rw [← Rat.intCast_natCast, ← Rat.intCast_neg]; congr 1; omega
      rw [c, shown_neg] at e
      grind

/-- C102: an integer below 2^53 given as a `float` is the `JsonNumber` of the integer. -/
theorem C102_integer {n : Int} (h : n.natAbs < 2 ^ 53) : wrap (.flt (fltOf n)) = wrap (.int n) := by
  simp only [wrap, fltOf, Flt.shownNum, shown_int h]

theorem compare_shown {a b c : Rat} (ha : Double a) (hb : Double b) (e : shown b = c) {o : Operand} (ho : o.num = .ok (.fin c)) :
    let n := (fltOf a).shownNum
    jnEq n o = .ok (decide (a = b)) ∧ jnLt n o = .ok (decide (a < b)) ∧ jnLe n o = .ok (decide (a ≤ b)) ∧
      jnGt n o = .ok (decide (b < a)) ∧ jnGe n o = .ok (decide (b ≤ a)) := by
  have h1 := shown_le ha hb
  have h2 := shown_le hb ha
  rw [e] at h1 h2
  simp only [fltOf, Flt.shownNum, jnEq, jnLt, jnLe, jnGt, jnGe, ho, Res.ok_bind, Num.eq, Num.lt, Num.le]
  refine ⟨?_, ?_, ?_, ?_, ?_⟩ <;> (congr 1; simp only [decide_eq_decide]; grind)

/-- C102: the `JsonNumber` of a `float` and an integer below 2^53 compare as the `float` and the integer do.  For larger integers this is
false (`C102_mixed_violated`). -/
theorem C102_mixed_partial {a : Rat} (ha : Double a) {n : Int} (h : n.natAbs < 2 ^ 53) (o : Operand)
    (ho : o = .node (wrap (.int n)) ∨ o = .val (.int n)) :
    let x := (fltOf a).shownNum
    jnEq x o = .ok (decide (a = n)) ∧ jnLt x o = .ok (decide (a < n)) ∧ jnLe x o = .ok (decide (a ≤ n)) ∧
      jnGt x o = .ok (decide (n < a)) ∧ jnGe x o = .ok (decide (n ≤ a)) := by
  have hn : Double (n : Rat) := by have := (fl_nearest (n : Rat)).double; rwa [fl_int (by omega)] at this
  refine compare_shown ha hn (shown_int h) ?_
  rcases ho with rfl | rfl <;> rfl

/-- C102: the `JsonNumber` of a `float` and a `Decimal` of at most 15 digits compare as the `float` and the `float` nearest to the
`Decimal` do, so `JsonNumber(0.1) == Decimal("0.1")` although the two are different numbers in Python. -/
theorem C102_decimal {a : Rat} (ha : Double a) {n p : Int} (hn : n.natAbs < 10 ^ 15) (hp : n = 0 ∨ pow2 (-1022) ≤ mag ((n : Rat) * pow10 p))
    (o : Operand) (ho : o = .node (wrap (.dec (.fin (n * pow10 p)))) ∨ o = .val (.dec (.fin (n * pow10 p)))) :
    let x := (fltOf a).shownNum
    let b := fl ((n : Rat) * pow10 p)
    jnEq x o = .ok (decide (a = b)) ∧ jnLt x o = .ok (decide (a < b)) ∧ jnLe x o = .ok (decide (a ≤ b)) ∧
      jnGt x o = .ok (decide (b < a)) ∧ jnGe x o = .ok (decide (b ≤ a)) := by
  have e := C102_digits hn hp
  simp only [fltOf, Flt.shownNum, Num.fin.injEq] at e
  refine compare_shown ha (fl_nearest _).double e ?_
  rcases ho with rfl | rfl <;> rfl

/-- a tenth, as a `float` and as a `Decimal` -/
example : Double (fl (1 / 10)) ∧ fl (1 / 10) ≠ 1 / 10 ∧ jnEq (fltOf (fl (1 / 10))).shownNum (.val (.dec (.fin ((1 : Int) * pow10 (-1))))) = .ok true :=
  ⟨(fl_nearest _).double, by decide +kernel, by decide +kernel⟩

/-- C102: comparing the `JsonNumber` of a `float` with any integer or `Decimal` gives what Python gives for the `float` itself, exactly when
the other number is not between the `float` and the number it is printed as. -/
theorem C102_mixed_iff (a c : Rat) (o : Operand) (ho : o.num = .ok (.fin c)) :
    let x := (fltOf a).shownNum
    (jnEq x o = .ok (decide (a = c)) ∧ jnLt x o = .ok (decide (a < c)) ∧ jnLe x o = .ok (decide (a ≤ c)) ∧
      jnGt x o = .ok (decide (c < a)) ∧ jnGe x o = .ok (decide (c ≤ a))) ↔
    (a = shown a ∨ c < a ∧ c < shown a ∨ a < c ∧ shown a < c) := by
  simp only [fltOf, Flt.shownNum, jnEq, jnLt, jnLe, jnGt, jnGe, ho, Res.ok_bind, Num.eq, Num.lt, Num.le, Res.ok.injEq, decide_eq_decide]
  constructor
  · rintro ⟨h1, h2, h3, h4, h5⟩
    grind
  · rintro (h | h | h)
    · rw [← h]; simp
    · refine ⟨?_, ?_, ?_, ?_, ?_⟩ <;> grind
    · refine ⟨?_, ?_, ?_, ?_, ?_⟩ <;> grind

/-- C102: the `JsonNumber` of a `float` compares with an integer or a `Decimal` that is not rounded to the same `float` as the `float`
does in Python. -/
theorem C102_mixed_rounded {a c : Rat} (ha : Double a) (hc : fl c ≠ a) (o : Operand) (ho : o.num = .ok (.fin c)) :
    let x := (fltOf a).shownNum
    jnEq x o = .ok (decide (a = c)) ∧ jnLt x o = .ok (decide (a < c)) ∧ jnLe x o = .ok (decide (a ≤ c)) ∧
      jnGt x o = .ok (decide (c < a)) ∧ jnGe x o = .ok (decide (c ≤ a)) := by
  refine (C102_mixed_iff a c o ho).2 ?_
  have e := fl_shown ha
  have e' := fl_self ha
  have key : ∀ {p q : Rat}, p ≤ c → c ≤ q → fl p = a → fl q = a → False := by
    intro p q h1 h2 hp hq
    have h1 := fl_mono h1
    have h2 := fl_mono h2
    rw [hp] at h1
    rw [hq] at h2
    exact hc (Rat.le_antisymm h2 h1)
  by_cases h1 : c < a
  · by_cases h2 : c < shown a
    · exact .inr (.inl ⟨h1, h2⟩)
    · exact (key (Rat.not_lt.1 h2) (Rat.le_of_lt h1) e e').elim
  · by_cases h2 : shown a < c
    · by_cases h3 : a = c
      · exact absurd (h3 ▸ e') hc
      · exact .inr (.inr ⟨by grind, h2⟩)
    · exact (key (Rat.not_lt.1 h1) (Rat.not_lt.1 h2) e' e).elim

/-- a large integer that is not rounded to 1e23 -/
example : Double (fl (10 ^ 23)) ∧ fl (10 ^ 23 + 10 ^ 10) ≠ fl (10 ^ 23) ∧ Operand.num (.val (.int (10 ^ 23 + 10 ^ 10))) = .ok (.fin (10 ^ 23 + 10 ^ 10)) :=
  ⟨(fl_nearest _).double, by decide +kernel, by simp only [Operand.num]; congr 2; decide +kernel⟩

/-- C102 fails for mixed comparisons: the `float` `1e23` is not the integer 10^23, but their `JsonNumber`s are equal. -/
theorem C102_mixed_violated : fl (10 ^ 23) ≠ 10 ^ 23 ∧ Finite (fl (10 ^ 23)) ∧
    jnEq (fltOf (fl (10 ^ 23))).shownNum (.val (.int (10 ^ 23))) = .ok true := by
  refine ⟨by decide +kernel, ⟨(fl_nearest _).double, by decide +kernel⟩, by decide +kernel⟩

/-- C102_digits needs its bound: of 16 digits the last may be lost. -/
theorem C102_sixteen_violated : (fltOf (fl (9007199254740993 : Int))).shownNum ≠ .fin (9007199254740993 : Int) := by decide +kernel

/-- C37: a `float` that is an integer below 2^53 satisfies `const`, `enum`, `maximum` and `minimum` with its own literal. -/
theorem C37_integral (w : World) (docs : List Doc) (voc : List Kw) (f : Nat) (ctx : Ctx) (hc : CtxOk ctx) {n : Int} (h : n.natAbs < 2 ^ 53) :
    let x : Val := .flt (fltOf n)
    (.const ∈ voc → validateN w docs voc (f + 2) (wrap (.dict [(c!"const", x)])) x ctx = .ok ()) ∧
    (.enum ∈ voc → validateN w docs voc (f + 2) (wrap (.dict [(c!"enum", .list [x])])) x ctx = .ok ()) ∧
    (.maximum ∈ voc → validateN w docs voc (f + 2) (wrap (.dict [(c!"maximum", x)])) x ctx = .ok ()) ∧
    (.minimum ∈ voc → validateN w docs voc (f + 2) (wrap (.dict [(c!"minimum", x)])) x ctx = .ok ()) := by
  intro x
  have hx : x = .flt (.fin n n) := by simp only [x, fltOf, shown_int h]
  rw [hx]
  have := C37_literal_iff w docs voc f ctx (.flt (.fin n n)) n n (.inr (.inr ⟨_, _, rfl⟩)) rfl rfl hc
  exact ⟨fun hk => (this.1 hk).2 rfl, fun hk => (this.2.1 hk).2 rfl, fun hk => (this.2.2.1 hk).2 Rat.le_refl,
    fun hk => (this.2.2.2 hk).2 Rat.le_refl⟩

/-- The `float` of `C37_float_violated` is the one Python reads from the text `0.1`. -/
example : fltOf (fl (1 / 10)) = .fin (3602879701896397 / 36028797018963968) (1 / 10) := by decide +kernel

example : Finite (fl (1 / 10)) ∧ Finite (fl (1 / 3)) ∧ Finite (pow2 (-1074)) :=
  ⟨⟨(fl_nearest _).double, by decide +kernel⟩, ⟨(fl_nearest _).double, by decide +kernel⟩, ⟨⟨1, -1074, by simp, by decide, by omega⟩, by decide +kernel⟩⟩

/-- A third needs 16 digits, the smallest `float` is shown with one. -/
example : shown (fl (1 / 3)) = 3333333333333333 / 10 ^ 16 ∧ shown (pow2 (-1074)) = 5 * pow10 (-324) := by decide +kernel

/-- `C102_digits` applies to 1.1 and to 123456789012345e300. -/
example : pow2 (-1022) ≤ mag (((11 : Int) : Rat) * pow10 (-1)) ∧ pow2 (-1022) ≤ mag (((123456789012345 : Int) : Rat) * pow10 300) := by
  decide +kernel

end Verif.Props
