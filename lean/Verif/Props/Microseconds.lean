import Verif.Props.Duration
import Verif.Proofs.MicrosecondsText
/-! # C101, C62: durations with fractions of a second -/

namespace Verif.Props
open Verif Iso Re Flo Num

variable (u : UDB) (s : Str)

/-- The arithmetic of `float`s of the model is that of IEEE 754: every result is the closest number of 53 bits, ties go to the even one. -/
theorem C101_floats (q : Rat) : Nearest q (fl q) := fl_nearest q

theorem natOf_from (b : Str) : ∀ n : Nat, b.foldl (fun n c => n * 10 + (u.digit c).getD 0) n = n * 10 ^ b.length + u.natOf b := by
  induction b with
  | nil => intro n; simp [UDB.natOf]
  | cons c b ih =>
    intro n
    unfold UDB.natOf
    rw [List.foldl_cons, List.foldl_cons, ih, ih (0 * 10 + _), List.length_cons, Nat.pow_succ]
    grind

theorem natOf_join (a b : Str) : u.natOf (a ++ b) = u.natOf a * 10 ^ b.length + u.natOf b := by
  rw [UDB.natOf, List.foldl_append, natOf_from]; rfl

/-! ## Reading -/

theorem seconds_value {ds fr : Str} (h1 : ∀ c ∈ ds, u.isDigit c = true) (h6 : fr.length ≤ 6) :
    decimalOf u (ds ++ '.' :: fr) = ((u.natOf ds * 1000000 + u.natOf fr * 10 ^ (6 - fr.length) : Nat) : Rat) / 1000000 := by
  rw [decimalOf_point h1, natOf_join]
  have e : ((10 ^ fr.length : Nat) : Rat) * ((10 ^ (6 - fr.length) : Nat) : Rat) = 1000000 := by
    rw [← Rat.natCast_mul, ← Nat.pow_add, show fr.length + (6 - fr.length) = 6 by omega]; rfl
  have p : (0 : Rat) < ((10 ^ fr.length : Nat) : Rat) := by exact_mod_cast Nat.pow_pos (n := fr.length) (show 0 < 10 by decide)
  simp only [Rat.natCast_add, Rat.natCast_mul]
  have c : ((1000000 : Nat) : Rat) = 1000000 := rfl
  rw [c]
  generalize ((10 ^ fr.length : Nat) : Rat) = P at *
  generalize ((10 ^ (6 - fr.length) : Nat) : Rat) = R at *
  grind

theorem natOf_lt (fr : Str) : u.natOf fr < 10 ^ fr.length := by
  have hd : ∀ c, (u.digit c).getD 0 ≤ 9 := by
    intro c
    cases h : u.digit c with
    | none => simp
    | some n => have := u.digit_lt c n h; simp; omega
  induction fr with
  | nil => simp [UDB.natOf]
  | cons c fr ih =>
    have := natOf_join u [c] fr
    rw [List.singleton_append] at this
    rw [this, List.length_cons, Nat.pow_succ]
    have h2 : u.natOf [c] ≤ 9 := by simpa [UDB.natOf] using hd c
    have h3 := Nat.mul_le_mul_right (10 ^ fr.length) h2
    omega

theorem secMicros_exact {ds fr : Str} (h1 : ∀ c ∈ ds, u.isDigit c = true) (h6 : fr.length ≤ 6) (hb : u.natOf ds < 8589934592) :
    secMicros u (ds ++ '.' :: fr) = some ((u.natOf ds * 1000000 + u.natOf fr * 10 ^ (6 - fr.length) : Nat) : Int) := by
  have hle : u.natOf fr * 10 ^ (6 - fr.length) ≤ 1000000 := by
    have := Nat.mul_le_mul_right (10 ^ (6 - fr.length)) (Nat.le_of_lt (natOf_lt u fr))
    rw [← Nat.pow_add, show fr.length + (6 - fr.length) = 6 by omega] at this
    omega
  unfold secMicros
  rw [seconds_value u h1 h6]
  have hN : u.natOf ds * 1000000 + u.natOf fr * 10 ^ (6 - fr.length) ≤ 8589934592000000 := by omega
  generalize u.natOf ds * 1000000 + u.natOf fr * 10 ^ (6 - fr.length) = N at *
  have h0 : (0 : Rat) ≤ N := by exact_mod_cast Nat.zero_le _
  have h2 : (N : Rat) ≤ 8589934592000000 := by exact_mod_cast hN
  rw [not_tooLarge (by grind) (by grind), microsOf_exact N hN]
  rfl

/-- What a duration text of the given shape is read as, if the seconds are `k` microseconds. -/
theorem parse_with {neg : Bool} {w d h m : Option Str} {t : Str} {k : Int} (hx : DurText u s [] neg w d h m (some t))
    (hw : shortDigits w ∧ shortDigits d ∧ shortDigits h ∧ shortDigits m) (hk : secMicros u t = some k) :
    parseDuration u (binary64 u) s =
      let total : Int := (if neg then -1 else 1) * (unitVal u w * 604800000000 + unitVal u d * 86400000000 +
        unitVal u h * 3600000000 + unitVal u m * 60000000 + k)
      if -86399999913600000000 ≤ total ∧ total < 86400000000000000000 then .ok total else .err .overflowError := by
  rw [parseDuration_text u (binary64 u) s hx]
  have e : ∀ v, shortDigits v → intOr u v = .ok (unitVal u v) := fun v hv =>
    (intOr_eq u v).elim (·.2) (fun hh => absurd hv hh.1)
  have es : secOr (binary64 u) (some t) = .ok k := by simp only [secOr, binary64, hk]
  simp only [e w hw.1, e d hw.2.1, e h hw.2.2.1, e m hw.2.2.2, es, Res.ok_bind, mkDelta]
  generalize (if neg = true then -1 else 1 : Int) * _ = T
  by_cases hT : -86399999913600000000 ≤ T ∧ T < 86400000000000000000
  · rw [if_pos (by omega), if_pos hT]
  · rw [if_neg (by omega), if_neg hT]

/-- C62 with fractions: up to six decimal places and seconds below 2^33 (272 years) are read exactly. -/
theorem C62_fraction {neg : Bool} {w d h m : Option Str} {ds fr : Str} (hx : DurText u s [] neg w d h m (some (ds ++ '.' :: fr)))
    (hw : shortDigits w ∧ shortDigits d ∧ shortDigits h ∧ shortDigits m) (h1 : ∀ c ∈ ds, u.isDigit c = true)
    (h6 : fr.length ≤ 6) (hb : u.natOf ds < 8589934592) :
    parseDuration u (binary64 u) s =
      let total : Int := (if neg then -1 else 1) * (unitVal u w * 604800000000 + unitVal u d * 86400000000 +
        unitVal u h * 3600000000 + unitVal u m * 60000000 + (u.natOf ds * 1000000 + u.natOf fr * 10 ^ (6 - fr.length) : Nat))
      if -86399999913600000000 ≤ total ∧ total < 86400000000000000000 then .ok total else .err .overflowError :=
  parse_with u s hx hw (secMicros_exact u h1 h6 hb)

theorem decimal_ge {ds t : Str} (h1 : ∀ c ∈ ds, u.isDigit c = true) (ht : t = ds ∨ ∃ fr, t = ds ++ '.' :: fr) : (u.natOf ds : Rat) ≤ decimalOf u t := by
  rcases ht with rfl | ⟨fr, rfl⟩
  · rw [decimalOf_digits h1]; exact Rat.le_refl
  · rw [decimalOf_point h1, natOf_join, Rat.natCast_add, Rat.natCast_mul]
    have p : (0 : Rat) < ((10 ^ fr.length : Nat) : Rat) := by exact_mod_cast Nat.pow_pos (n := fr.length) (show 0 < 10 by decide)
    have l : (0 : Rat) ≤ (u.natOf fr : Rat) := by exact_mod_cast Nat.zero_le _
    generalize ((10 ^ fr.length : Nat) : Rat) = P at *
    refine Rat.le_of_mul_le_mul_right (c := P) ?_ p
    have : ((u.natOf ds : Rat) * P + u.natOf fr) / P * P = u.natOf ds * P + u.natOf fr := by grind
    rw [this]; grind

/-- C62: 10^9 days in seconds and more are refused, whether or not the number is in the range of `float`. -/
theorem C62_beyond {neg : Bool} {w d h m : Option Str} {ds t : Str} (hx : DurText u s [] neg w d h m (some t))
    (hw : shortDigits w ∧ shortDigits d ∧ shortDigits h ∧ shortDigits m) (h1 : ∀ c ∈ ds, u.isDigit c = true)
    (ht : t = ds ∨ ∃ fr, t = ds ++ '.' :: fr) (hb : 86400000000000 ≤ u.natOf ds) : parseDuration u (binary64 u) s = .err .overflowError := by
  have hv := decimal_ge u h1 ht
  have hb' : ((86400000000000 : Int) : Rat) ≤ u.natOf ds := Rat.intCast_le_intCast.2 (Int.ofNat_le.2 hb)
  have hf : ((86400000000000 : Int) : Rat) ≤ fl (decimalOf u t) := le_fl (double_int (by decide)) (by grind)
  cases hk : secMicros u t with
  | none =>
    rw [parseDuration_text u (binary64 u) s hx]
    have e : ∀ v, shortDigits v → intOr u v = .ok (unitVal u v) := fun v hv =>
      (intOr_eq u v).elim (·.2) (fun hh => absurd hv hh.1)
    have es : secOr (binary64 u) (some t) = .err .overflowError := by simp only [secOr, binary64, hk]
    simp only [e w hw.1, e d hw.2.1, e h hw.2.2.1, e m hw.2.2.2, es, Res.ok_bind]
    rfl
  | some k =>
    rw [parse_with u s hx hw hk]
    have hk0 : 86400000000000 * 1000000 ≤ k := by
      unfold secMicros at hk
      split at hk
      · cases hk
      · simp only [Option.some.injEq] at hk
        subst hk
        have g1 : 86400000000000 ≤ (fl (decimalOf u t)).floor := Rat.le_floor_iff.2 hf
        have g2 := Rat.floor_le (fl (decimalOf u t))
        have g3 : 0 ≤ fl (1000000 * (fl (decimalOf u t) - (fl (decimalOf u t)).floor)) := fl_nonneg (by grind)
        have g4 : 0 ≤ halfEven (fl (1000000 * (fl (decimalOf u t) - (fl (decimalOf u t)).floor))) := by
          generalize fl (1000000 * (fl (decimalOf u t) - (fl (decimalOf u t)).floor)) = y at g3
          have := mag_le.1 (halfEven_near y)
          have a : ((-1 : Int) : Rat) < halfEven y := by grind
          have := Rat.intCast_lt_intCast.1 a
          omega
        unfold microsOf
        omega
    have := Int.natCast_nonneg (unitVal u w)
    have := Int.natCast_nonneg (unitVal u d)
    have := Int.natCast_nonneg (unitVal u h)
    have := Int.natCast_nonneg (unitVal u m)
    cases neg
    · simp only [Bool.false_eq_true, if_false]
      rw [if_neg (by omega)]
    · simp only [if_true]
      rw [if_neg (by omega)]

/-- C62 with any fraction: what is read is less than a microsecond off. -/
theorem C62_near {neg : Bool} {w d h m : Option Str} {ds fr : Str} (hx : DurText u s [] neg w d h m (some (ds ++ '.' :: fr)))
    (hw : shortDigits w ∧ shortDigits d ∧ shortDigits h ∧ shortDigits m) (h1 : ∀ c ∈ ds, u.isDigit c = true)
    (hb : u.natOf ds < 8589934592) :
    ∃ k : Int, mag (k - 1000000 * ((u.natOf ds : Rat) + (u.natOf fr : Rat) / ((10 ^ fr.length : Nat) : Rat))) < 1 ∧
      parseDuration u (binary64 u) s =
      let total : Int := (if neg then -1 else 1) * (unitVal u w * 604800000000 + unitVal u d * 86400000000 +
        unitVal u h * 3600000000 + unitVal u m * 60000000 + k)
      if -86399999913600000000 ≤ total ∧ total < 86400000000000000000 then .ok total else .err .overflowError := by
  have e : decimalOf u (ds ++ '.' :: fr) = (u.natOf ds : Rat) + (u.natOf fr : Rat) / ((10 ^ fr.length : Nat) : Rat) := by
    rw [decimalOf_point h1, natOf_join, Rat.natCast_add, Rat.natCast_mul]
    have p : (0 : Rat) < ((10 ^ fr.length : Nat) : Rat) := by exact_mod_cast Nat.pow_pos (n := fr.length) (show 0 < 10 by decide)
    generalize ((10 ^ fr.length : Nat) : Rat) = P at *
    grind
  have hf : (u.natOf fr : Rat) / ((10 ^ fr.length : Nat) : Rat) ≤ 1 := by
    have p : (0 : Rat) < ((10 ^ fr.length : Nat) : Rat) := by exact_mod_cast Nat.pow_pos (n := fr.length) (show 0 < 10 by decide)
    have l : (u.natOf fr : Rat) ≤ ((10 ^ fr.length : Nat) : Rat) := by exact_mod_cast Nat.le_of_lt (natOf_lt u fr)
    refine Rat.le_of_mul_le_mul_right (c := ((10 ^ fr.length : Nat) : Rat)) ?_ p
    have : (u.natOf fr : Rat) / ((10 ^ fr.length : Nat) : Rat) * ((10 ^ fr.length : Nat) : Rat) = u.natOf fr := by grind
    rw [this]; grind
  have hf0 : 0 ≤ (u.natOf fr : Rat) / ((10 ^ fr.length : Nat) : Rat) := by
    have p : (0 : Rat) < ((10 ^ fr.length : Nat) : Rat) := by exact_mod_cast Nat.pow_pos (n := fr.length) (show 0 < 10 by decide)
    have l : (0 : Rat) ≤ (u.natOf fr : Rat) := by exact_mod_cast Nat.zero_le _
    refine Rat.le_of_mul_le_mul_right (c := ((10 ^ fr.length : Nat) : Rat)) ?_ p
    have : (u.natOf fr : Rat) / ((10 ^ fr.length : Nat) : Rat) * ((10 ^ fr.length : Nat) : Rat) = u.natOf fr := by grind
    rw [this]; grind
  have d0 : (0 : Rat) ≤ (u.natOf ds : Rat) := by exact_mod_cast Nat.zero_le _
  have d1 : (u.natOf ds : Rat) ≤ 8589934591 := by exact_mod_cast (by omega : u.natOf ds ≤ 8589934591)
  have hs : secMicros u (ds ++ '.' :: fr) = some (microsOf (fl (decimalOf u (ds ++ '.' :: fr)))) := by
    unfold secMicros
    rw [not_tooLarge (by rw [e]; grind) (by rw [e]; grind)]
    rfl
  refine ⟨_, ?_, parse_with u s hx hw hs⟩
  have := microsOf_near (decimalOf u (ds ++ '.' :: fr)) (by rw [e]; grind) (by rw [e]; grind)
  rw [e] at *
  unfold mag
  split <;> grind

/-! ## Printing and reading -/

theorem unitText_head (k : Nat) (hk : k ≠ 0) (l : Char) (R : Str) : ∃ a r, unitText k l ++ R = a :: r ∧ u.isDigit a = true := by
  rw [unitText, if_neg hk]
  have h1 := (natStr_digits (u := u) k).1
  cases hk : natStr k with
  | nil => exact absurd hk Nat.toDigits_ne_nil
  | cons a r => exact ⟨a, r ++ [l] ++ R, by simp, h1 a (by simp [hk])⟩

/-- The text put together from its parts is a duration text with these parts. -/
theorem join_text (neg : Bool) (w d h m : Nat) {S : Str} {sec : Option Str} (hS : SecText u S sec)
    (hne : ¬ (w = 0 ∧ d = 0 ∧ h = 0 ∧ m = 0 ∧ S = [])) :
    DurText u (joinDuration neg w d h m S) [] neg (if w = 0 then none else some (natStr w)) (if d = 0 then none else some (natStr d))
      (if h = 0 then none else some (natStr h)) (if m = 0 then none else some (natStr m)) sec := by
  have hz : ∀ l, unitText 0 l = [] := fun l => rfl
  have hlead : S ≠ [] → ∃ a r, S = a :: r ∧ u.isDigit a = true := by
    intro hne
    rcases hS with ⟨rfl, _⟩ | ⟨ds, F, fr, l, h1, h2, _, _, rfl, _⟩
    · exact absurd rfl hne
    · cases ds with
      | nil => exact absurd rfl h1
      | cons a r => exact ⟨a, r ++ (F ++ [l]), rfl, h2 a (by simp)⟩
  refine ⟨'P', unitText w 'W', unitText d 'D',
    (if unitText h 'H' ++ (unitText m 'M' ++ S) = [] then [] else 'T' :: (unitText h 'H' ++ (unitText m 'M' ++ S))), ?_, by simp, ?_,
    unitText_spec _ _ _ (by simp), unitText_spec _ _ _ (by simp), ?_⟩
  · simp [joinDuration]
  · by_cases hw : w = 0
    · by_cases hd : d = 0
      · have hne : ∃ a r, unitText h 'H' ++ (unitText m 'M' ++ S) = a :: r ∧ u.isDigit a = true := by
          by_cases hh : h = 0
          · rw [hh, hz]
            by_cases hm : m = 0
            · rw [hm, hz]
              exact hlead fun e => hne ⟨hw, hd, hh, hm, e⟩
            · exact unitText_head u m hm 'M' S
          · exact unitText_head u h hh 'H' _
        obtain ⟨a, r, e, ha⟩ := hne
        rw [hw, hd, hz, hz, e, if_neg (by simp)]
        exact ⟨'T', _, rfl, .inr ⟨by simp, a, r ++ [], by simp, ha⟩⟩
      · rw [hw, hz, List.nil_append]
        obtain ⟨a, r, e, ha⟩ := unitText_head u d hd 'D' ((if unitText h 'H' ++ (unitText m 'M' ++ S) = [] then [] else
          'T' :: (unitText h 'H' ++ (unitText m 'M' ++ S))) ++ [])
        exact ⟨a, r, e, .inl ha⟩
    · obtain ⟨a, r, e, ha⟩ := unitText_head u w hw 'W' (unitText d 'D' ++ ((if unitText h 'H' ++ (unitText m 'M' ++ S) = [] then [] else
        'T' :: (unitText h 'H' ++ (unitText m 'M' ++ S))) ++ []))
      exact ⟨a, r, e, .inl ha⟩
  · split
    · rename_i he
      simp only [List.append_eq_nil_iff] at he
      have hz' : ∀ k l, unitText k l = [] → (if k = 0 then none else some (natStr k)) = none := by
        intro k l hk
        by_cases h : k = 0
        · simp [h]
        · simp [unitText, h] at hk
      refine .inl ⟨rfl, hz' _ _ he.1, hz' _ _ he.2.1, ?_⟩
      rcases hS with ⟨_, h⟩ | ⟨ds, F, fr, l, h1, h2, _, _, h3, _⟩
      · exact h
      · rw [he.2.2] at h3
        cases ds with
        | nil => exact absurd rfl h1
        | cons a r => cases h3
    · exact .inr ⟨'T', _, _, _, by simp, rfl, unitText_spec _ _ _ (by simp), unitText_spec _ _ _ (by simp), hS⟩

/-- The microseconds of a duration that are in its last minute. -/
def inMinute (t : Int) : Nat := t.natAbs % 60000000

/-- C101: a duration of less than 2^33 seconds (272 years), to the microsecond, is read back from its text, unless its last minute has
between 1 and 99 microseconds. -/
theorem C101_round_trip_partial (t : Int) (h0 : t ≠ 0) (hb : t.natAbs < 8589934592000000) (hm : inMinute t = 0 ∨ 100 ≤ inMinute t) :
    parseDuration u (binary64 u) (printDuration t) = .ok t := by
  unfold inMinute at hm
  by_cases hw : t.natAbs % 1000000 = 0
  · obtain ⟨k, rfl⟩ : ∃ k : Int, t = k * 1000000 := ⟨t / 1000000, by omega⟩
    rw [print_whole k (by omega)]
    exact C57_round_trip_partial u (binary64 u) k (by omega) (by omega) (by omega)
  · have hr6 : t.natAbs % 60000000 % 1000000 ≠ 0 := by omega
    have hr : t.natAbs % 60000000 < 60000000 := by omega
    rw [print_eq t (by omega), secondsText_fraction _ hr hr6]
    obtain ⟨n, J, hJ0, hJ, hn, h10, hmul, hv, hl⟩ := places _ hr hr6
    rw [hv]
    obtain ⟨ds, fr, e, d1, d2, d3, d4, d5, d6⟩ := repr_plain (u := u) hJ0 hJ hn h10 (by omega)
    have hS : SecText u (reprPos (fl (decVal n J)) ++ ['S']) (some (ds ++ '.' :: fr)) :=
      .inr ⟨ds, '.' :: fr, some fr, 'S', d1, d3, .inr ⟨fr, d2, d4, rfl, rfl⟩, by simp, by rw [e]; simp, rfl⟩
    have hx := join_text u (decide (t < 0)) (t.natAbs / 60000000 / 60 / 24 / 7) (t.natAbs / 60000000 / 60 / 24 % 7)
      (t.natAbs / 60000000 / 60 % 24) (t.natAbs / 60000000 % 60) hS (by simp)
    have big : ∀ k : Nat, k < 10 ^ 20 → k < 10 ^ 4300 := fun k h =>
      Nat.lt_of_lt_of_le h (Nat.pow_le_pow_right (by decide) (by decide))
    have hval : u.natOf ds * 1000000 + u.natOf fr * 10 ^ (6 - fr.length) = t.natAbs % 60000000 := by
      have j := natOf_join u ds fr
      rw [d6, d5] at j
      rw [d5]
      have p : 10 ^ J * 10 ^ (6 - J) = 1000000 := by rw [← Nat.pow_add, show J + (6 - J) = 6 by omega]
      have q : 0 < 10 ^ J := Nat.pow_pos (by decide)
      refine Nat.eq_of_mul_eq_mul_right q ?_
      rw [hmul, j]
      generalize 10 ^ J = P at *
      generalize 10 ^ (6 - J) = R at *
      rw [← p]
      grind
    have hds : u.natOf ds < 8589934592 := by omega
    rw [C62_fraction u _ hx ⟨short_natStr _ (big _ (by omega)), short_natStr _ (big _ (by omega)), short_natStr _ (big _ (by omega)),
      short_natStr _ (big _ (by omega))⟩ d3 (by omega) hds]
    simp only [unitVal_natStr, hval]
    have e2 : ((t.natAbs / 60000000 / 60 / 24 / 7 : Nat) : Int) * 604800000000 + ((t.natAbs / 60000000 / 60 / 24 % 7 : Nat) : Int) * 86400000000 +
        ((t.natAbs / 60000000 / 60 % 24 : Nat) : Int) * 3600000000 + ((t.natAbs / 60000000 % 60 : Nat) : Int) * 60000000 +
        ((t.natAbs % 60000000 : Nat) : Int) = t.natAbs := by omega
    rw [e2]
    by_cases ht : t < 0
    · simp only [decide_eq_true ht, if_true]
      rw [if_pos (by omega)]; congr 1; omega
    · simp only [decide_eq_false ht, Bool.false_eq_true, if_false]
      rw [if_pos (by omega)]; congr 1; omega

/-- A duration text has no letter `e`. -/
theorem no_e {N : Str} {neg : Bool} {w d h m sec : Option Str} (hx : DurText u s N neg w d h m sec) (hN : 'e' ∉ N) : 'e' ∉ s := by
  have he : ∀ {c : Char}, u.isDigit c = true → c ≠ 'e' := by
    rintro c hc rfl
    rw [isDigit_not (by decide) (by decide)] at hc; cases hc
  have hunit : ∀ {L : List Char} {T : Str} {v : Option Str}, UnitText u L T v → 'e' ∉ L → 'e' ∉ T := by
    rintro L T v (⟨rfl, _⟩ | ⟨ds, l, _, h2, h3, rfl, _⟩) hL hm
    · cases hm
    · rw [List.mem_append, List.mem_singleton] at hm
      rcases hm with hm | rfl
      · exact he (h2 _ hm) rfl
      · exact hL h3
  obtain ⟨p, W, D, X, rfl, hp, _, hW, hD, hX⟩ := hx
  intro hm
  simp only [List.mem_append, List.mem_cons] at hm
  rcases hm with hm | rfl | hm | hm | hm | hm
  · cases neg <;> simp at hm
  · revert hp; decide
  · exact hunit hW (by decide) hm
  · exact hunit hD (by decide) hm
  · rcases hX with ⟨rfl, _⟩ | ⟨t, H, M, S, ht, rfl, hH, hM, hS⟩
    · cases hm
    · simp only [List.mem_append, List.mem_cons] at hm
      rcases hm with rfl | hm | hm | hm
      · revert ht; decide
      · exact hunit hH (by decide) hm
      · exact hunit hM (by decide) hm
      · rcases hS with ⟨rfl, _⟩ | ⟨ds, F, fr, l, _, h2, h3, h4, rfl, _⟩
        · cases hm
        · simp only [List.mem_append, List.mem_singleton] at hm
          rcases hm with hm | hm | rfl
          · exact he (h2 _ hm) rfl
          · rcases h3 with ⟨rfl, _⟩ | ⟨fs, _, h5, rfl, _⟩
            · cases hm
            · rw [List.mem_cons] at hm
              rcases hm with hm | hm
              · revert hm; decide
              · exact he (h5 _ hm) rfl
          · revert h4; decide
  · exact hN hm

/-- C101 fails for every duration of less than 2^33 seconds with 1 to 99 microseconds in its last minute: the seconds are printed with an
exponent, and the text is refused. -/
theorem C101_small_violated (F : Secs u) (t : Int) (hb : t.natAbs < 8589934592000000) (h1 : 1 ≤ inMinute t) (h2 : inMinute t < 100) :
    parseDuration u F (printDuration t) = .err .valueError := by
  unfold inMinute at h1 h2
  have he : 'e' ∈ printDuration t := by
    have hr6 : t.natAbs % 60000000 % 1000000 ≠ 0 := by omega
    have hr : t.natAbs % 60000000 < 60000000 := by omega
    rw [print_eq t (by omega), secondsText_fraction _ hr hr6]
    obtain ⟨n, J, hJ0, hJ, hn, h10, _, hv, hl⟩ := places _ hr hr6
    rw [hv]
    have := repr_exponent hJ0 hJ hn h10 (by omega)
    unfold joinDuration
    simp [this]
  refine parseDuration_other u F _ ?_ ?_
  · rintro ⟨_, _, _, _, _, _, hx⟩
    exact no_e u _ hx (by decide) he
  · rintro ⟨_, _, _, _, _, _, hx⟩
    exact no_e u _ hx (by decide) he

/-- The shortest duration there is. -/
theorem C101_microsecond_violated (F : Secs u) : printDuration 1 = c!"PT1e-06S" ∧ parseDuration u F c!"PT1e-06S" = .err .valueError := by
  have e : printDuration 1 = c!"PT1e-06S" := by decide +kernel
  exact ⟨e, e ▸ C101_small_violated u F 1 (by decide) (by decide) (by decide)⟩

theorem digits_of_natStr {ds : Str} (n : Nat) (h : natStr n = ds) : (∀ c ∈ ds, u.isDigit c = true) ∧ u.natOf ds = n := h ▸ natStr_digits n

/-- C101 fails beyond: 2^33 seconds and a microsecond are printed, and read, as two microseconds. -/
theorem C101_large_violated : printDuration 8589934592000001 = c!"P14202W6DT12H56M32.000002S" ∧
    parseDuration u (binary64 u) c!"P14202W6DT12H56M32.000002S" = .ok 8589934592000002 := by
  refine ⟨by decide +kernel, ?_⟩
  obtain ⟨w1, w2⟩ := digits_of_natStr u 14202 (show natStr 14202 = c!"14202" by decide +kernel)
  obtain ⟨a1, a2⟩ := digits_of_natStr u 6 (show natStr 6 = c!"6" by decide +kernel)
  obtain ⟨b1, b2⟩ := digits_of_natStr u 12 (show natStr 12 = c!"12" by decide +kernel)
  obtain ⟨c1, c2⟩ := digits_of_natStr u 56 (show natStr 56 = c!"56" by decide +kernel)
  obtain ⟨d1, d2⟩ := digits_of_natStr u 32 (show natStr 32 = c!"32" by decide +kernel)
  have f1 : ∀ c ∈ c!"000002", u.isDigit c = true := by
    intro c hc
    have : c = '0' ∨ c = '2' := by simpa using hc
    rcases this with rfl | rfl
    · exact isDigit_zero
    · exact d1 _ (by simp)
  have f2 : u.natOf c!"000002" = 2 := by
    have := natOf_zeros (u := u) 5 c!"2"
    rw [(digits_of_natStr u 2 (show natStr 2 = c!"2" by decide +kernel)).2] at this
    exact this
  have hx : DurText u c!"P14202W6DT12H56M32.000002S" [] false (some c!"14202") (some c!"6") (some c!"12") (some c!"56")
      (some (c!"32" ++ '.' :: c!"000002")) :=
    ⟨'P', c!"14202W", c!"6D", c!"T12H56M32.000002S", rfl, by simp, ⟨'1', _, rfl, .inl (w1 _ (by simp))⟩,
      .inr ⟨_, 'W', by simp, w1, by simp, rfl, rfl⟩, .inr ⟨_, 'D', by simp, a1, by simp, rfl, rfl⟩,
      .inr ⟨'T', c!"12H", c!"56M", c!"32.000002S", by simp, rfl, .inr ⟨_, 'H', by simp, b1, by simp, rfl, rfl⟩,
        .inr ⟨_, 'M', by simp, c1, by simp, rfl, rfl⟩,
        .inr ⟨c!"32", '.' :: c!"000002", some c!"000002", 'S', by simp, d1, .inr ⟨_, by simp, f1, rfl, rfl⟩, by simp, rfl, rfl⟩⟩⟩
  rw [C62_fraction u _ hx ⟨by rintro _ ⟨⟩; decide, by rintro _ ⟨⟩; decide, by rintro _ ⟨⟩; decide, by rintro _ ⟨⟩; decide⟩ d1 (by decide)
    (by omega)]
  simp only [unitVal, Option.map_some, Option.getD_some, w2, a2, b2, c2, d2, f2]
  decide

/-- C101 fails at the end of the range: `timedelta.max` is printed as a day more than a `timedelta` can hold. -/
theorem C101_max_violated (F : Secs u) : printDuration 86399999999999999999 = c!"P142857142W6D" ∧
    parseDuration u F c!"P142857142W6D" = .err .overflowError := by
  refine ⟨by decide +kernel, ?_⟩
  obtain ⟨w1, w2⟩ := digits_of_natStr u 142857142 (show natStr 142857142 = c!"142857142" by decide +kernel)
  obtain ⟨a1, a2⟩ := digits_of_natStr u 6 (show natStr 6 = c!"6" by decide +kernel)
  have hx : DurText u c!"P142857142W6D" [] false (some c!"142857142") (some c!"6") none none none :=
    ⟨'P', c!"142857142W", c!"6D", [], rfl, by simp, ⟨'1', _, rfl, .inl (w1 _ (by simp))⟩,
      .inr ⟨_, 'W', by simp, w1, by simp, rfl, rfl⟩, .inr ⟨_, 'D', by simp, a1, by simp, rfl, rfl⟩, .inl ⟨rfl, rfl, rfl, rfl⟩⟩
  rw [C62_reads u F _ hx ⟨by rintro _ ⟨⟩; decide, by rintro _ ⟨⟩; decide, by rintro _ ⟨⟩, by rintro _ ⟨⟩⟩ (by simp)]
  simp only [unitVal, Option.map_some, Option.map_none, Option.getD_some, Option.getD_none, w2, a2]
  decide

example : parseDuration u (binary64 u) c!"PT86400000000000S" = .err .overflowError := by
  obtain ⟨d1, d2⟩ := digits_of_natStr u 86400000000000 (show natStr 86400000000000 = c!"86400000000000" by decide +kernel)
  have hx : DurText u c!"PT86400000000000S" [] false none none none none (some c!"86400000000000") :=
    ⟨'P', [], [], c!"T86400000000000S", rfl, by simp, ⟨'T', _, rfl, .inr ⟨by simp, '8', _, rfl, d1 _ (by simp)⟩⟩,
      .inl ⟨rfl, rfl⟩, .inl ⟨rfl, rfl⟩,
      .inr ⟨'T', [], [], c!"86400000000000S", by simp, rfl, .inl ⟨rfl, rfl⟩, .inl ⟨rfl, rfl⟩,
        .inr ⟨c!"86400000000000", [], none, 'S', by simp, d1, .inl ⟨rfl, rfl⟩, by simp, rfl, rfl⟩⟩⟩
  exact C62_beyond u _ hx ⟨by rintro _ ⟨⟩, by rintro _ ⟨⟩, by rintro _ ⟨⟩, by rintro _ ⟨⟩⟩ d1 (.inl rfl) (by omega)

/-- C62 fails beyond 2^33 seconds: a microsecond is read as two. -/
theorem C62_large_violated : parseDuration u (binary64 u) c!"PT8589934592.000001S" = .ok 8589934592000002 := by
  obtain ⟨d1, d2⟩ := digits_of_natStr u 8589934592 (show natStr 8589934592 = c!"8589934592" by decide +kernel)
  have o := digits_of_natStr u 1 (show natStr 1 = c!"1" by decide +kernel)
  have f1 : ∀ c ∈ c!"000001", u.isDigit c = true := by
    intro c hc
    have : c = '0' ∨ c = '1' := by simpa using hc
    rcases this with rfl | rfl
    · exact isDigit_zero
    · exact o.1 _ (by simp)
  have f2 : u.natOf c!"000001" = 1 := by
    have := natOf_zeros (u := u) 5 c!"1"
    rw [o.2] at this
    exact this
  have hx : DurText u c!"PT8589934592.000001S" [] false none none none none (some (c!"8589934592" ++ '.' :: c!"000001")) :=
    ⟨'P', [], [], c!"T8589934592.000001S", rfl, by simp, ⟨'T', _, rfl, .inr ⟨by simp, '8', _, rfl, d1 _ (by simp)⟩⟩,
      .inl ⟨rfl, rfl⟩, .inl ⟨rfl, rfl⟩,
      .inr ⟨'T', [], [], c!"8589934592.000001S", by simp, rfl, .inl ⟨rfl, rfl⟩, .inl ⟨rfl, rfl⟩,
        .inr ⟨c!"8589934592", '.' :: c!"000001", some c!"000001", 'S', by simp, d1, .inr ⟨_, by simp, f1, rfl, rfl⟩, by simp, rfl, rfl⟩⟩⟩
  have e : decimalOf u (c!"8589934592" ++ '.' :: c!"000001") = 8589934592000001 / 1000000 := by
    rw [seconds_value u d1 (by decide), d2, f2]
    rfl
  have hk : secMicros u (c!"8589934592" ++ '.' :: c!"000001") = some 8589934592000002 := by
    unfold secMicros
    rw [e]
    decide +kernel
  have z : unitVal u none = 0 := rfl
  refine (parse_with u _ hx ⟨by rintro _ ⟨⟩, by rintro _ ⟨⟩, by rintro _ ⟨⟩, by rintro _ ⟨⟩⟩ hk).trans ?_
  dsimp only
  rw [z]
  decide

/-- The two models of printing agree on whole seconds, over the whole range of `timedelta`. -/
theorem C101_whole (t : Int) (h : t.natAbs ≤ 86400000000000) : printDuration (t * 1000000) = durationText t := print_whole t (by omega)

/- The hypotheses of `C101_round_trip_partial` are met by, e.g., 1 week 2 days 3 hours 4 minutes 5.000678 seconds, negated. -/
example : printDuration (-788645000678) = c!"-P1W2DT3H4M5.000678S" ∧ inMinute (-788645000678) = 5000678 := by decide +kernel
example : parseDuration u (binary64 u) (printDuration (-788645000678)) = .ok (-788645000678) :=
  C101_round_trip_partial u _ (by decide) (by decide) (.inr (by decide))

end Verif.Props
