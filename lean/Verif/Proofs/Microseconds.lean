import Verif.Model.Microseconds
import Verif.Proofs.Duration
/-! # Durations with fractions of a second -/

namespace Verif.Iso
open Verif Flo Num

variable {u : UDB}

theorem pow2_m20 : pow2 (-20) = 1 / 1048576 := by unfold pow2; decide +kernel
theorem pow2_m33 : pow2 (-33) = 1 / 8589934592 := by unfold pow2; decide +kernel
theorem pow2_m47 : pow2 (-47) = 1 / 140737488355328 := by unfold pow2; decide +kernel

theorem mag_of_nonneg {q : Rat} (h : 0 ≤ q) : mag q = q := by unfold mag; rw [if_neg (by grind)]

theorem fl_err33 {v : Rat} (h0 : 0 ≤ v) (h : v ≤ 8589934592) : v - 1 / 2097152 ≤ fl v ∧ fl v ≤ v + 1 / 2097152 := by
  have := fl_error (q := v) (e := -20) (by decide) (by rw [mag_of_nonneg h0, pow2_m20]; grind)
  rw [pow2_m20, mag_le] at this
  grind

theorem fl_err20 {v : Rat} (h0 : 0 ≤ v) (h : v ≤ 1048576) : v - 1 / 17179869184 ≤ fl v ∧ fl v ≤ v + 1 / 17179869184 := by
  have := fl_error (q := v) (e := -33) (by decide) (by rw [mag_of_nonneg h0, pow2_m33]; grind)
  rw [pow2_m33, mag_le] at this
  grind

theorem fl_err6 {v : Rat} (h0 : 0 ≤ v) (h : v ≤ 64) : v - 1 / 281474976710656 ≤ fl v ∧ fl v ≤ v + 1 / 281474976710656 := by
  have := fl_error (q := v) (e := -47) (by decide) (by rw [mag_of_nonneg h0, pow2_m47]; grind)
  rw [pow2_m47, mag_le] at this
  grind

/-! ## Reading -/

/-- What is added up for a `float` close to `v`. -/
theorem microsOf_close (v : Rat) (h0 : 0 ≤ v) (h : v ≤ 8589934592) :
    ∃ p : Rat, microsOf (fl v) = (fl v).floor * 1000000 + halfEven p ∧
      ((fl v).floor : Rat) * 1000000 + p - 1000000 * v ≤ 48 / 100 ∧ -(48 / 100) ≤ ((fl v).floor : Rat) * 1000000 + p - 1000000 * v := by
  have a := fl_err33 h0 h
  have f1 := Rat.floor_le (fl v)
  have f2 := Rat.lt_floor_add_one (fl v)
  rw [Rat.intCast_add] at f2
  refine ⟨fl (1000000 * (fl v - (fl v).floor)), rfl, ?_⟩
  generalize fl v = x at *
  have e1 : ((1 : Int) : Rat) = 1 := rfl
  rw [e1] at f2
  have b := fl_err20 (v := 1000000 * (x - x.floor)) (by grind) (by grind)
  generalize fl (1000000 * (x - x.floor)) = p at *
  grind

/-- Six decimal places are read exactly. -/
theorem microsOf_exact (n : Nat) (h : n ≤ 8589934592000000) : microsOf (fl ((n : Rat) / 1000000)) = n := by
  have hn : (0 : Rat) ≤ n := by exact_mod_cast Nat.zero_le n
  have hn2 : (n : Rat) ≤ 8589934592000000 := by exact_mod_cast h
  obtain ⟨p, e, h1, h2⟩ := microsOf_close ((n : Rat) / 1000000) (by grind) (by grind)
  rw [e]
  have c : (((n : Int) - (fl ((n : Rat) / 1000000)).floor * 1000000 : Int) : Rat) = n - (fl ((n : Rat) / 1000000)).floor * 1000000 := by
    rw [Rat.intCast_sub, Rat.intCast_mul]; rfl
  have := halfEven_eq (x := p) (k := (n : Int) - (fl ((n : Rat) / 1000000)).floor * 1000000) (by rw [c]; grind) (by rw [c]; grind)
  omega

/-- Any fraction is read to within a microsecond. -/
theorem microsOf_near (v : Rat) (h0 : 0 ≤ v) (h : v ≤ 8589934592) :
    -(98 / 100) ≤ (microsOf (fl v) : Rat) - 1000000 * v ∧ (microsOf (fl v) : Rat) - 1000000 * v ≤ 98 / 100 := by
  obtain ⟨p, e, h1, h2⟩ := microsOf_close v h0 h
  have := mag_le.1 (halfEven_near p)
  rw [e, Rat.intCast_add, Rat.intCast_mul]
  have c : ((1000000 : Int) : Rat) = 1000000 := rfl
  rw [c]
  grind

theorem digit_ne_point {c : Char} (h : u.isDigit c = true) : (c != '.') = true := by
  have : u.isDigit '.' = false := isDigit_not (by decide) (by decide)
  rw [bne_iff_ne]
  rintro rfl
  rw [this] at h; cases h

theorem decimalOf_digits {ds : Str} (h : ∀ c ∈ ds, u.isDigit c = true) : decimalOf u ds = u.natOf ds := by
  have h1 : ds.takeWhile (· != '.') = ds := by
    simpa using List.takeWhile_append_of_pos (l₂ := []) fun c hc => digit_ne_point (h c hc)
  have h2 : ds.dropWhile (· != '.') = [] := by
    simpa using List.dropWhile_append_of_pos (l₂ := []) fun c hc => digit_ne_point (h c hc)
  simp only [decimalOf, h1, h2, List.drop_nil, List.append_nil, List.length_nil, Nat.pow_zero]
  grind

theorem decimalOf_point {ds fr : Str} (h : ∀ c ∈ ds, u.isDigit c = true) :
    decimalOf u (ds ++ '.' :: fr) = (u.natOf (ds ++ fr) : Rat) / ((10 ^ fr.length : Nat) : Rat) := by
  have h1 : (ds ++ '.' :: fr).takeWhile (· != '.') = ds := by
    rw [List.takeWhile_append_of_pos fun c hc => digit_ne_point (h c hc)]
    simp
  have h2 : (ds ++ '.' :: fr).dropWhile (· != '.') = '.' :: fr := by
    rw [List.dropWhile_append_of_pos fun c hc => digit_ne_point (h c hc)]
    simp
  simp only [decimalOf, h1, h2]
  rfl

theorem not_tooLarge {v : Rat} (h0 : 0 ≤ v) (h : v ≤ 2 ^ 53) : tooLarge v = false := by
  have c : ((2 ^ 53 : Int) : Rat) = 2 ^ 53 := by rw [Rat.intCast_pow]; rfl
  have d : Double (2 ^ 53) := by rw [← c]; exact double_int (by decide)
  have a := fl_le d h
  have b := fl_nonneg h0
  have e := pow2_lt (show (53 : Int) < 1024 by decide)
  have f : pow2 53 = 2 ^ 53 := pow2_53
  simp only [tooLarge, decide_eq_false_iff_not, mag_of_nonneg b]
  grind

theorem secMicros_whole (ds : Str) (h : ∀ c ∈ ds, u.isDigit c = true) (hn : u.natOf ds < 9007199254740992) :
    secMicros u ds = some (u.natOf ds * 1000000) := by
  have h1 : ((u.natOf ds : Int) : Rat) = (u.natOf ds : Rat) := rfl
  have h2 : (u.natOf ds : Rat) ≤ 2 ^ 53 := by
    have : (u.natOf ds : Rat) < 9007199254740992 := by exact_mod_cast hn
    grind
  have h0 : (0 : Rat) ≤ (u.natOf ds : Rat) := by exact_mod_cast Nat.zero_le _
  have h3 : fl (u.natOf ds : Rat) = ((u.natOf ds : Int) : Rat) := by rw [← h1]; exact fl_int (by omega)
  unfold secMicros
  rw [decimalOf_digits h, not_tooLarge h0 h2, h3]
  simp only [Bool.false_eq_true, if_false, microsOf, floor_eq (x := ((u.natOf ds : Int) : Rat)) (k := (u.natOf ds : Int)) Rat.le_refl (by grind)]
  have h4 : (1000000 : Rat) * (((u.natOf ds : Int) : Rat) - ((u.natOf ds : Int) : Rat)) = 0 := by grind
  rw [h4, fl_zero, halfEven_eq (x := 0) (k := 0) (by decide +kernel) (by decide +kernel)]
  simp

/-- Python's seconds. -/
def binary64 (u : UDB) : Secs u := ⟨secMicros u, secMicros_whole⟩

/-! ## Printing -/

theorem nearest_neg {q r : Rat} (h : Nearest q r) : Nearest (-q) (-r) := by
  have hd : ∀ {y}, Double y → Double (-y) := by
    rintro y ⟨m, e, rfl, hm, he⟩
    exact ⟨-m, e, by rw [Rat.intCast_neg]; grind, by omega, he⟩
  have hm : ∀ a b : Rat, mag (-a - b) = mag (a - -b) := by intro a b; unfold mag; split <;> split <;> grind
  refine ⟨hd h.double, fun y hy => ?_, fun y hy hne he => ?_⟩
  · have := h.near (-y) (hd hy)
    have e1 : mag (-r - -q) = mag (r - q) := by rw [hm, Rat.neg_neg]
    have e2 : mag (y - -q) = mag (-y - q) := (hm y q).symm
    rw [e1, e2]; exact this
  · have e1 : mag (-r - -q) = mag (r - q) := by rw [hm, Rat.neg_neg]
    have e2 : mag (y - -q) = mag (-y - q) := (hm y q).symm
    rw [e1, e2] at he
    obtain ⟨m, e, h1, h2⟩ := h.even (-y) (hd hy) (by grind) he
    refine ⟨-m, e, ?_, ?_⟩
    · rw [h1, show 2 * -m = -(2 * m) by omega, Rat.intCast_neg]; grind
    · rcases h2 with h2 | h2
      · right; rw [show 2 * -m - 1 = -(2 * m + 1) by omega, Rat.intCast_neg]; grind
      · left; rw [show 2 * -m + 1 = -(2 * m - 1) by omega, Rat.intCast_neg]; grind

theorem fl_neg (q : Rat) : fl (-q) = -fl q := nearest_unique (fl_nearest (-q)) (nearest_neg (fl_nearest q))

theorem divmod_nat (q w : Nat) (hw : 0 < w) (hq : q ≤ 2 ^ 53) : divmod (q : Rat) (w : Rat) = (((q / w : Nat) : Rat), ((q % w : Nat) : Rat)) := by
  have hw' : (0 : Rat) < w := by exact_mod_cast hw
  have hq' : (q : Rat) ≤ 2 ^ 53 := by
    have : (q : Rat) ≤ ((2 ^ 53 : Nat) : Rat) := by exact_mod_cast hq
    rw [Rat.natCast_pow] at this; exact this
  have e : (q : Rat) = w * ((q / w : Nat) : Rat) + ((q % w : Nat) : Rat) := by
    rw [← Rat.natCast_mul, ← Rat.natCast_add, Nat.div_add_mod]
  have hm : ((q % w : Nat) : Rat) < w := by exact_mod_cast Nat.mod_lt _ hw
  have hm0 : (0 : Rat) ≤ ((q % w : Nat) : Rat) := by exact_mod_cast Nat.zero_le _
  have hx : (q : Rat) / w * w = q := by grind
  have hf : ((q : Rat) / w).floor = ((q / w : Nat) : Int) := by
    refine floor_eq ?_ ?_
    · refine Rat.le_of_mul_le_mul_right (c := (w : Rat)) ?_ hw'
      rw [Rat.intCast_natCast, hx]; grind
    · refine Rat.lt_of_mul_lt_mul_right (c := (w : Rat)) ?_ (Rat.le_of_lt hw')
      rw [Rat.intCast_natCast, hx]; grind
  rw [divmod_eq hw (by exact_mod_cast Nat.zero_le q) hq', hf, Rat.intCast_natCast]
  congr 1
  grind

theorem floor_nat (n : Nat) : ((n : Rat).floor).toNat = n := by
  have : (n : Rat).floor = (n : Int) := floor_eq (by rw [Rat.intCast_natCast]; exact Rat.le_refl) (by rw [Rat.intCast_natCast]; grind)
  rw [this]; rfl

/-- The parts, if the `float` of the seconds is close enough. -/
theorem print_of (t : Int) (hn : t.natAbs ≤ 9007199254740992000000)
    (h1 : (t.natAbs : Rat) / 1000000 - 1 / 2097152 ≤ fl ((t.natAbs : Rat) / 1000000))
    (h2 : fl ((t.natAbs : Rat) / 1000000) ≤ (t.natAbs : Rat) / 1000000 + 1 / 2097152) :
    printDuration t = joinDuration (decide (t < 0)) (t.natAbs / 60000000 / 60 / 24 / 7) (t.natAbs / 60000000 / 60 / 24 % 7)
      (t.natAbs / 60000000 / 60 % 24) (t.natAbs / 60000000 % 60)
      (secondsText (fl (((t.natAbs % 60000000 : Nat) : Rat) / 1000000))) := by
  have hpos : t ≠ 0 → 0 < fl ((t.natAbs : Rat) / 1000000) := by
    intro h
    have : (1 : Rat) ≤ t.natAbs := by exact_mod_cast (by omega : 1 ≤ t.natAbs)
    have d : Double (1 / 1048576) := by rw [← pow2_m20]; have := double_of (m := 1) (e := -20) (by decide) (by decide); rwa [show ((1 : Int) : Rat) = 1 from rfl, Rat.one_mul] at this
    have := le_fl d (q := (t.natAbs : Rat) / 1000000) (by grind)
    grind
  have hneg : t < 0 → fl ((t : Rat) / 1000000) = -fl ((t.natAbs : Rat) / 1000000) := by
    intro h
    rw [← fl_neg]; congr 1
    have : (t : Rat) = -((t.natAbs : Int) : Rat) := by rw [← Rat.intCast_neg]; congr 1; omega
    rw [this, Rat.intCast_natCast]; grind
  have hnn : ¬ t < 0 → fl ((t : Rat) / 1000000) = fl ((t.natAbs : Rat) / 1000000) := by
    intro h
    have : (t : Rat) = ((t.natAbs : Int) : Rat) := by congr 1; omega
    rw [this, Rat.intCast_natCast]
  have hn0 : 0 ≤ fl ((t.natAbs : Rat) / 1000000) := fl_nonneg (by have : (0 : Rat) ≤ t.natAbs := by exact_mod_cast Nat.zero_le _
                                                                  grind)
  have e1 : decide (fl ((t : Rat) / 1000000) < 0) = decide (t < 0) := by
    by_cases h : t < 0
    · have := hpos (by omega)
      rw [hneg h, decide_eq_true h, decide_eq_true (by grind)]
    · rw [hnn h, decide_eq_false h, decide_eq_false (by grind)]
  have e2 : mag (fl ((t : Rat) / 1000000)) = fl ((t.natAbs : Rat) / 1000000) := by
    by_cases h : t < 0
    · have := hpos (by omega)
      rw [hneg h]; unfold mag; rw [if_pos (by grind)]; grind
    · rw [hnn h, mag_of_nonneg hn0]
  generalize t.natAbs = n at *
  have eq : n = 60000000 * (n / 60000000) + n % 60000000 := by omega
  have hr : n % 60000000 ≤ 59999999 := by omega
  have hQ : n / 60000000 ≤ 150119987579017 := by omega
  unfold printDuration
  simp only [e1, e2]
  generalize n / 60000000 = Q at *
  generalize n % 60000000 = r at *
  have eq' : (n : Rat) = 60000000 * (Q : Rat) + (r : Rat) := by rw [eq, Rat.natCast_add, Rat.natCast_mul]; rfl
  have r0 : (0 : Rat) ≤ r := by exact_mod_cast Nat.zero_le _
  have r1 : (r : Rat) ≤ 59999999 := by exact_mod_cast hr
  have d60 : Double ((60 * Q : Int) : Rat) := double_int (by omega)
  have c60 : ((60 * Q : Int) : Rat) = 60 * (Q : Rat) := by rw [Rat.intCast_mul]; rfl
  rw [c60] at d60
  have lo := le_fl d60 (q := (n : Rat) / 1000000) (by grind)
  have up : fl ((n : Rat) / 1000000) < 60 * (Q : Rat) + 60 := by grind
  have hb : fl ((n : Rat) / 1000000) ≤ 2 ^ 53 := by
    have : (Q : Rat) ≤ 150119987579017 := by exact_mod_cast hQ
    have d : Double (2 ^ 53) := by
      have c : ((2 ^ 53 : Int) : Rat) = 2 ^ 53 := by rw [Rat.intCast_pow]; rfl
      rw [← c]; exact double_int (by decide)
    have : (n : Rat) ≤ 9007199254740992000000 := by exact_mod_cast hn
    exact fl_le d (by grind)
  generalize fl ((n : Rat) / 1000000) = x at *
  have hf : (x / ((60 : Nat) : Rat)).floor = (Q : Int) := by
    have c : ((60 : Nat) : Rat) = 60 := rfl
    rw [c]
    exact floor_eq (by rw [Rat.intCast_natCast]; grind) (by rw [Rat.intCast_natCast]; grind)
  rw [divmod_eq (w := 60) (by decide) hn0 hb, hf, Rat.intCast_natCast]
  dsimp only
  rw [divmod_nat Q 60 (by decide) (by omega)]
  dsimp only
  rw [divmod_nat (Q / 60) 24 (by decide) (by omega)]
  dsimp only
  rw [divmod_nat (Q / 60 / 24) 7 (by decide) (by omega)]
  dsimp only
  rw [floor_nat, floor_nat, floor_nat, floor_nat]
  have c : ((60 : Nat) : Rat) = 60 := rfl
  have hh : halfEven ((x - ((60 : Nat) : Rat) * (Q : Rat)) * 1000000) = (r : Int) := by
    refine halfEven_eq ?_ ?_ <;> rw [Rat.intCast_natCast, c] <;> grind
  rw [round6, hh, Rat.intCast_natCast]

/-- The parts of a duration of less than 2^33 seconds. -/
theorem print_eq (t : Int) (hn : t.natAbs ≤ 8589934592000000) :
    printDuration t = joinDuration (decide (t < 0)) (t.natAbs / 60000000 / 60 / 24 / 7) (t.natAbs / 60000000 / 60 / 24 % 7)
      (t.natAbs / 60000000 / 60 % 24) (t.natAbs / 60000000 % 60)
      (secondsText (fl (((t.natAbs % 60000000 : Nat) : Rat) / 1000000))) := by
  have h0 : (0 : Rat) ≤ t.natAbs := by exact_mod_cast Nat.zero_le _
  have h1 : (t.natAbs : Rat) ≤ 8589934592000000 := by exact_mod_cast hn
  have := fl_err33 (v := (t.natAbs : Rat) / 1000000) (by grind) (by grind)
  exact print_of t (by omega) this.1 this.2

/-- Whole seconds are exact. -/
theorem print_whole (t : Int) (hn : t.natAbs ≤ 9007199254740992) : printDuration (t * 1000000) = durationText t := by
  have e : (t * 1000000).natAbs = t.natAbs * 1000000 := by omega
  have e1 : ((t.natAbs * 1000000 : Nat) : Rat) / 1000000 = ((t.natAbs : Int) : Rat) := by
    rw [Rat.natCast_mul, Rat.intCast_natCast]
    have : ((1000000 : Nat) : Rat) = 1000000 := rfl
    rw [this]; grind
  have hf : fl (((t * 1000000).natAbs : Rat) / 1000000) = ((t * 1000000).natAbs : Rat) / 1000000 := by
    rw [e, e1, fl_int (by omega)]
  rw [print_of (t * 1000000) (by omega) (by rw [hf]; grind) (by rw [hf]; grind), e]
  have a1 : t.natAbs * 1000000 / 60000000 = t.natAbs / 60 := by omega
  have a2 : t.natAbs * 1000000 % 60000000 = t.natAbs % 60 * 1000000 := by omega
  have a3 : decide (t * 1000000 < 0) = decide (t < 0) := by
    by_cases h : t < 0
    · rw [decide_eq_true h, decide_eq_true (by omega)]
    · rw [decide_eq_false h, decide_eq_false (by omega)]
  have a4 : ((t.natAbs % 60 * 1000000 : Nat) : Rat) / 1000000 = ((t.natAbs % 60 : Nat) : Int) := by
    rw [Rat.natCast_mul, Rat.intCast_natCast]
    have : ((1000000 : Nat) : Rat) = 1000000 := rfl
    rw [this]; grind
  rw [a1, a2, a3, a4, fl_int (by omega)]
  have a5 : secondsText (((t.natAbs % 60 : Nat) : Int) : Rat) = unitText (t.natAbs % 60) 'S' := by
    unfold secondsText unitText
    by_cases h : t.natAbs % 60 = 0
    · rw [h]; rfl
    · rw [if_neg (by intro hc; exact h (by exact_mod_cast hc)), if_neg h]
      have : ((((t.natAbs % 60 : Nat) : Int) : Rat).floor) = ((t.natAbs % 60 : Nat) : Int) := floor_eq Rat.le_refl (by grind)
      rw [this, if_pos rfl]
      rfl
  rw [a5]
  unfold joinDuration durationText
  by_cases h : t < 0 <;> simp [h]

end Verif.Iso
