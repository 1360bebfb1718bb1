import Verif.Proofs.Iso2
/-! # C54–C56: ISO 8601 dates and times -/

namespace Verif.Props
open Verif Verif.Iso Re

variable (u : UDB) (s : Str)

/-! ## C54 -/

/-- C54: `parse_iso_date` returns a date exactly for texts `YYYY-MM-DD` (dashes optional, one final newline allowed)
that name a real calendar date, and it returns that date. -/
theorem C54_parse_iff (y m d : Nat) :
    parseDate u s = .ok ⟨y, m, d⟩ ↔ (∃ N, DateText u s N y m d ∧ End N) ∧ RealDate y m d := by
  have sound : ∀ st, pyMatch (seq (dateRe u) eol) s = some st → ∃ y m d N, DateText u s N y m d ∧ End N ∧
      u.intText ((group st 1).getD []) = .ok y ∧ u.intText ((group st 2).getD []) = .ok m ∧
      u.intText ((group st 3).getD []) = .ok d := by
    intro st h
    have := pyMatch_some h
    rw [inRun_seq] at this
    obtain ⟨c1, N, h1, h2⟩ := this
    rw [inRun_date] at h1
    rw [inRun_bare rfl, lang_eol] at h2
    obtain ⟨Y, d1, M, d2, D, rfl, ⟨y, hY⟩, hd1, ⟨m, hM⟩, hd2, ⟨d, hD⟩, rfl⟩ := h1
    obtain ⟨e1, e2, e3⟩ := h2
    obtain ⟨st1, st2⟩ := st
    simp only at e1 e2
    subst e1 e2
    exact ⟨y, m, d, st2, ⟨Y, d1, M, d2, D, rfl, hY, hd1, hM, hd2, hD⟩, e3, by simpa [group] using intText_year hY,
      by simpa [group] using intText_two hM (by decide), by simpa [group] using intText_two hD (by decide)⟩
  unfold parseDate
  cases hm : pyMatch (seq (dateRe u) eol) s with
  | none =>
    refine ⟨fun h => (by cases h), ?_⟩
    rintro ⟨⟨N, ⟨Y, d1, M, d2, D, rfl, hY, hd1, hM, hd2, hD⟩, hN⟩, _⟩
    exact absurd (inRun_seq.2 ⟨_, _, inRun_date.2 ⟨Y, d1, M, d2, D, rfl, ⟨y, hY⟩, hd1, ⟨m, hM⟩, hd2, ⟨d, hD⟩, rfl⟩,
      (inRun_bare rfl).2 ⟨rfl, lang_eol.2 ⟨rfl, hN⟩⟩⟩) (pyMatch_none hm _ _)
  | some st =>
    obtain ⟨y', m', d', N, hT, hN, e1, e2, e3⟩ := sound st hm
    simp only [e1, e2, e3, Res.ok_bind, mkDate_eq]
    constructor
    · intro h
      split at h
      · rename_i hr
        cases h
        exact ⟨⟨N, hT, hN⟩, hr⟩
      · cases h
    · rintro ⟨⟨N', hT', hN'⟩, hr⟩
      obtain ⟨rfl, rfl, rfl, _⟩ := dateText_unique hT hT'
      rw [if_pos hr]

/-- C54, otherwise: the only exception is `ValueError`. -/
theorem C54_otherwise : (∃ d, parseDate u s = .ok d) ∨ parseDate u s = .err .valueError := by
  by_cases h : ∃ d, parseDate u s = .ok d
  · exact .inl h
  · right
    unfold parseDate at h ⊢
    cases hm : pyMatch (seq (dateRe u) eol) s with
    | none => rfl
    | some st =>
      simp only [hm] at h ⊢
      have it : ∀ T, u.intText T = .err .valueError ∨ ∃ n, u.intText T = .ok n := by
        intro T; unfold UDB.intText; split
        · exact .inl rfl
        · exact .inr ⟨_, rfl⟩
      rcases it ((group st 1).getD []) with e1 | ⟨a, e1⟩
      · rw [e1]; rfl
      rcases it ((group st 2).getD []) with e2 | ⟨b, e2⟩
      · rw [e1, e2]; rfl
      rcases it ((group st 3).getD []) with e3 | ⟨c, e3⟩
      · rw [e1, e2, e3]; rfl
      rw [e1, e2, e3] at h ⊢
      simp only [Res.ok_bind] at h ⊢
      unfold mkDate at h ⊢
      split at h
      · exact absurd ⟨_, rfl⟩ h
      · rw [if_neg (by assumption)]

/-- The decimal digit of a number below 10. -/
def dig (n : Nat) : Char := Char.ofNat (48 + n % 10)

/-- `date.isoformat()` -/
def isoDate (y m d : Nat) : Str :=
  [dig (y / 1000), dig (y / 100), dig (y / 10), dig y, '-', dig (m / 10), dig m, '-', dig (d / 10), dig d]

theorem dig_toNat (n : Nat) : (dig n).toNat = 48 + n % 10 := by
  have : n % 10 < 10 := Nat.mod_lt _ (by decide)
  unfold dig
  generalize n % 10 = k at this
  have : k = 0 ∨ k = 1 ∨ k = 2 ∨ k = 3 ∨ k = 4 ∨ k = 5 ∨ k = 6 ∨ k = 7 ∨ k = 8 ∨ k = 9 := by omega
  rcases this with rfl | rfl | rfl | rfl | rfl | rfl | rfl | rfl | rfl | rfl <;> rfl

theorem digit_dig (n : Nat) : u.digit (dig n) = some (n % 10) := by
  have h := dig_toNat n
  have : n % 10 < 10 := Nat.mod_lt _ (by decide)
  rw [u.digit_ascii _ (by omega), if_pos (by omega), h]
  congr 1
  omega

theorem isTwo_dig (hi : Char) (n : Nat) (h : n < 10 * (hi.toNat - 48 + 1)) (h9 : hi.toNat ≤ 57) (h0 : 48 ≤ hi.toNat) :
    IsTwo u hi [dig (n / 10), dig n] n := by
  refine ⟨_, _, n % 10, rfl, ?_, ?_, digit_dig u n, ?_⟩
  · rw [char_le, dig_toNat]; exact Nat.le_add_right _ _
  · rw [char_le, dig_toNat]; omega
  · rw [dig_toNat]; omega

/-- C54: parsing inverts the ISO printing of every date of the years 1 to 9999. -/
theorem C54_inverts_printing (y m d : Nat) (h : RealDate y m d) : parseDate u (isoDate y m d) = .ok ⟨y, m, d⟩ := by
  rw [C54_parse_iff]
  refine ⟨⟨[], ⟨[dig (y / 1000), dig (y / 100), dig (y / 10), dig y], ['-'], [dig (m / 10), dig m], ['-'],
    [dig (d / 10), dig d], rfl, ?_, .inr ⟨_, rfl, rfl⟩, ?_, .inr ⟨_, rfl, rfl⟩, ?_⟩, .inl rfl⟩, h⟩
  · obtain ⟨_, h2, _⟩ := h
    exact ⟨_, _, _, _, _, _, _, _, rfl, digit_dig u _, digit_dig u _, digit_dig u _, digit_dig u _, by omega⟩
  · obtain ⟨_, _, _, h4, _⟩ := h
    exact isTwo_dig u '1' m (by simp; omega) (by decide) (by decide)
  · obtain ⟨_, _, _, _, _, h6⟩ := h
    have : monthLength y m ≤ 31 := by unfold monthLength; split <;> first | omega | (split <;> omega)
    exact isTwo_dig u '3' d (by simp; omega) (by decide) (by decide)

example : RealDate 2024 2 29 ∧ ¬ RealDate 2023 2 29 ∧ ¬ RealDate 1900 2 29 ∧ RealDate 2000 2 29 := by
  simp [RealDate, monthLength]
example : isoDate 2024 2 29 = c!"2024-02-29" := by decide

/-! ## C55 -/

theorem dt_some {st : St} (h : pyMatch (datetimeRe u) s = some st) : ∃ R N y m d C F Z fr off,
    DateSepText u s R y m d ∧ End N ∧ R = C ++ (F ++ (Z ++ N)) ∧
    ((∃ h mi sec k1 k2, ClockText u C h mi sec k1 k2) ∨ LeapText C) ∧ FracText u F fr ∧ ZoneText u Z off ∧
    u.intText ((group st 1).getD []) = .ok y ∧ u.intText ((group st 2).getD []) = .ok m ∧
    u.intText ((group st 3).getD []) = .ok d ∧ (group st 4).getD [] = C ∧ (group st 6).getD [] = Z := by
  have hr := pyMatch_some h
  obtain ⟨st1, st2⟩ := st
  change InRun (seq (dateRe u) (seq (opt (cls _)) (seq (grp 4 (clockRe u)) (seq (tailRe u) eol)))) [] s st1 st2 at hr
  rw [inRun_seq] at hr; obtain ⟨c1, u1, h1, hr⟩ := hr
  rw [inRun_seq] at hr; obtain ⟨c2, u2, h2, hr⟩ := hr
  rw [inRun_seq] at hr; obtain ⟨c3, u3, h3, hr⟩ := hr
  rw [inRun_seq] at hr; obtain ⟨c4, u4, h4, h5⟩ := hr
  rw [inRun_date] at h1
  rw [inRun_bare rfl, lang_optcls] at h2
  rw [inRun_grp' rfl lang_clock] at h3
  rw [inRun_tail] at h4
  rw [inRun_bare rfl, lang_eol] at h5
  obtain ⟨rfl, rfl, hN⟩ := h5
  obtain ⟨F, Z, rfl, ⟨fr, hF⟩, ⟨off, hZ⟩, rfl⟩ := h4
  obtain ⟨C, rfl, hC, rfl⟩ := h3
  obtain ⟨rfl, T, rfl, hT⟩ := h2
  obtain ⟨Y, d1, M, d2, D, rfl, ⟨y, hY⟩, hd1, ⟨m, hM⟩, hd2, ⟨d, hD⟩, rfl⟩ := h1
  refine ⟨_, _, y, m, d, C, F, Z, fr, off, ⟨T, ⟨Y, d1, M, d2, D, rfl, hY, hd1, hM, hd2, hD⟩, ?_⟩, hN, rfl, hC, hF, hZ,
    ?_, ?_, ?_, ?_, group_cap6 (by simp)⟩
  · rcases hT with rfl | ⟨a, ha, rfl⟩
    · exact .inl rfl
    · exact .inr ⟨a, by simpa [or_assoc] using ha, rfl⟩
  · rw [group_cap (by decide)]; simpa [group] using intText_year hY
  · rw [group_cap (by decide)]; simpa [group] using intText_two hM (by decide)
  · rw [group_cap (by decide)]; simpa [group] using intText_two hD (by decide)
  · rw [group_cap (by decide)]; simp [group]

theorem dt_in {R N : Str} {y m d : Nat} {C F Z : Str} {fr : Option Str} {off : Option Int} (hD : DateSepText u s R y m d) (hN : End N)
    (hR : R = C ++ (F ++ (Z ++ N))) (hC : (∃ h mi sec k1 k2, ClockText u C h mi sec k1 k2) ∨ LeapText C)
    (hF : FracText u F fr) (hZ : ZoneText u Z off) : pyMatch (datetimeRe u) s ≠ none := by
  intro hm
  obtain ⟨T, ⟨Y, d1, M, d2, D, rfl, hY, hd1, hM, hd2, hD⟩, hT⟩ := hD
  subst hR
  refine pyMatch_none hm (cap 6 Z ++ (cap 5 F ++ [(4, C), (3, D), (2, M), (1, Y)])) N ?_
  change InRun (seq (dateRe u) (seq (opt (cls _)) (seq (grp 4 (clockRe u)) (seq (tailRe u) eol)))) [] _ _ _
  refine inRun_seq.2 ⟨_, _, inRun_date.2 ⟨Y, d1, M, d2, D, rfl, ⟨y, hY⟩, hd1, ⟨m, hM⟩, hd2, ⟨d, hD⟩, rfl⟩, ?_⟩
  refine inRun_seq.2 ⟨_, _, (inRun_bare rfl).2 ⟨rfl, lang_optcls.2 ⟨T, rfl, ?_⟩⟩, ?_⟩
  · rcases hT with rfl | ⟨a, ha, rfl⟩
    · exact .inl rfl
    · exact .inr ⟨a, by simpa [or_assoc] using ha, rfl⟩
  refine inRun_seq.2 ⟨_, _, (inRun_grp' rfl lang_clock).2 ⟨C, rfl, hC, rfl⟩, ?_⟩
  exact inRun_seq.2 ⟨_, _, inRun_tail.2 ⟨F, Z, rfl, ⟨fr, hF⟩, ⟨off, hZ⟩, rfl⟩, (inRun_bare rfl).2 ⟨rfl, lang_eol.2 ⟨rfl, hN⟩⟩⟩

/-- A date-time text: date, separator, time, end. -/
def DateTimeText (y m d h mi sec : Nat) (k1 k2 : Bool) (fr : Option Str) (off : Option Int) : Prop :=
  ∃ R N, DateSepText u s R y m d ∧ TimeText u R N h mi sec k1 k2 fr off ∧ End N

theorem datetimeText_unique {y m d h mi sec y' m' d' h' mi' sec' : Nat} {k1 k2 k1' k2' : Bool} {fr fr' : Option Str} {off off' : Option Int}
    (h1 : DateTimeText u s y m d h mi sec k1 k2 fr off) (h2 : DateTimeText u s y' m' d' h' mi' sec' k1' k2' fr' off') :
    y = y' ∧ m = m' ∧ d = d' ∧ h = h' ∧ mi = mi' ∧ sec = sec' ∧ k1 = k1' ∧ k2 = k2' ∧ fr = fr' ∧ off = off' := by
  obtain ⟨R, N, hD, hT, hN⟩ := h1
  obtain ⟨R', N', hD', hT', hN'⟩ := h2
  obtain ⟨rfl, rfl, rfl, rfl⟩ := dateSep_unique hD hD' (time_starts hT) (time_starts hT')
  obtain ⟨rfl, rfl, rfl, rfl, rfl, rfl, rfl, _⟩ := time_unique hT hT' hN hN'
  exact ⟨rfl, rfl, rfl, rfl, rfl, rfl, rfl, rfl, rfl, rfl⟩

open Classical in
/-- What `parse_iso_datetime` does with a text of the right shape. -/
theorem parseDatetime_text {y m d h mi sec : Nat} {k1 k2 : Bool} {fr : Option Str} {off : Option Int}
    (hx : DateTimeText u s y m d h mi sec k1 k2 fr off) :
    parseDatetime u s = if ¬ ZoneOk off then .err .valueError else if k1 ≠ k2 then .err .indexError
      else if RealDate y m d ∧ h ≤ 23 then .ok (⟨y, m, d⟩, ⟨h, mi, sec, 0⟩, off) else .err .valueError := by
  obtain ⟨R, N, hD, hT, hN⟩ := hx
  have hT0 := hT
  obtain ⟨C, F, Z, hR, hC, hF, hZ⟩ := hT
  unfold parseDatetime
  cases hm : pyMatch (datetimeRe u) s with
  | none => exact absurd hm (dt_in u s hD hN hR (.inl ⟨_, _, _, _, _, hC⟩) hF hZ)
  | some st =>
    obtain ⟨R', N', y', m', d', C', F', Z', fr', off', hD', hN', hR', hC', hF', hZ', e1, e2, e3, e4, e6⟩ := dt_some u s hm
    have hC2 : ∃ h mi sec k1 k2, ClockText u C' h mi sec k1 k2 := by
      rcases hC' with h | h
      · exact h
      · exfalso
        have hl : LeapTimeText u R' N' := ⟨C', F', Z', _, _, hR', h, hF', hZ'⟩
        obtain ⟨_, _, _, rfl⟩ := dateSep_unique hD hD' (time_starts hT0) (leap_starts hl)
        exact time_not_leap hT0 hl
    obtain ⟨h', mi', sec', k1', k2', hC2⟩ := hC2
    have hx' : DateTimeText u s y' m' d' h' mi' sec' k1' k2' fr' off' := ⟨R', N', hD', ⟨C', F', Z', hR', hC2, hF', hZ'⟩, hN'⟩
    obtain ⟨rfl, rfl, rfl, rfl, rfl, rfl, rfl, rfl, rfl, rfl⟩ := datetimeText_unique u s ⟨R, N, hD, hT0, hN⟩ hx'
    simp only [e1, e2, e3, e4, Res.ok_bind, zone_eq e6 hZ']
    by_cases hz : ZoneOk off
    · simp only [hz, not_true, if_false, if_true, Res.ok_bind]
      by_cases hk : k1 = k2
      · subst hk
        obtain ⟨H, M, S, hc, a1, a2, a3⟩ := cut_same hC2
        have hmi : mi ≤ 59 ∧ sec ≤ 59 := by
          obtain ⟨_, _, _, _, _, b1, b2⟩ := hC2
          exact ⟨two_lt b1 (by decide), two_lt b2 (by decide)⟩
        simp only [hc, nth, List.getElem?_cons_zero, List.getElem?_cons_succ, Res.ok_bind, a1, a2, a3, mkDate_eq, ne_eq,
          not_true, if_false]
        by_cases hr : RealDate y m d
        · simp only [hr, if_true, Res.ok_bind, true_and, mkClock]
          by_cases hh : h ≤ 23
          · rw [if_pos ⟨hh, hmi.1, hmi.2, by omega⟩, if_pos hh]; rfl
          · rw [if_neg (by simp [hh]), if_neg hh]; rfl
        · simp [hr]
      · obtain ⟨A, B, a, b, hc, a1, a2⟩ := cut_mixed hC2 hk
        simp [hc, nth, a1, a2, hk]
    · simp [hz]

/-- What it does with every other string. -/
theorem parseDatetime_other (hx : ¬ ∃ y m d h mi sec k1 k2 fr off, DateTimeText u s y m d h mi sec k1 k2 fr off) :
    parseDatetime u s = .err .valueError := by
  unfold parseDatetime
  cases hm : pyMatch (datetimeRe u) s with
  | none => rfl
  | some st =>
    obtain ⟨R', N', y', m', d', C', F', Z', fr', off', hD', hN', hR', hC', hF', hZ', e1, e2, e3, e4, e6⟩ := dt_some u s hm
    rcases hC' with ⟨h, mi, sec, k1, k2, h'⟩ | h'
    · exact absurd ⟨_, _, _, _, _, _, _, _, _, _, R', N', hD', ⟨C', F', Z', hR', h', hF', hZ'⟩, hN'⟩ hx
    · classical
      simp only [e1, e2, e3, e4, Res.ok_bind, zone_eq e6 hZ', cut_leap h', nth, List.getElem?_cons_zero,
        List.getElem?_cons_succ, intText_leap.1, intText_leap.2.1, intText_leap.2.2]
      split
      · simp only [Res.ok_bind, mkDate_eq]
        split
        · simp [mkClock]
        · rfl
      · rfl

/-- C55 as far as it holds: `parse_iso_datetime` returns exactly the date, time and offset of texts
`YYYY-MM-DD` `T` `HH:MM:SS` `.fraction` `offset` with both colons or neither, whose date is real, whose hour is at most
23 and whose offset is below 24 hours.  Missing: the fraction is not returned. -/
theorem C55_parse_partial (y m d h mi sec us : Nat) (off : Option Int) :
    parseDatetime u s = .ok (⟨y, m, d⟩, ⟨h, mi, sec, us⟩, off) ↔
      (∃ fr k, DateTimeText u s y m d h mi sec k k fr off) ∧ RealDate y m d ∧ h ≤ 23 ∧ ZoneOk off ∧ us = 0 := by
  classical
  constructor
  · intro hp
    by_cases hx : ∃ y m d h mi sec k1 k2 fr off, DateTimeText u s y m d h mi sec k1 k2 fr off
    · obtain ⟨y', m', d', h', mi', sec', k1, k2, fr, off', hx⟩ := hx
      rw [parseDatetime_text u s hx] at hp
      split at hp
      · cases hp
      split at hp
      · cases hp
      split at hp
      · rename_i hz hk hr
        cases hp
        simp only [ne_eq, Decidable.not_not] at hk hz
        subst hk
        exact ⟨⟨fr, k1, hx⟩, hr.1, hr.2, hz, rfl⟩
      · cases hp
    · rw [parseDatetime_other u s hx] at hp; cases hp
  · rintro ⟨⟨fr, k, hx⟩, hr, hh, hz, rfl⟩
    rw [parseDatetime_text u s hx]
    simp [hz, hr, hh]

/-- C55, failures: `ValueError`, except that a text with only one of the two colons raises `IndexError`. -/
theorem C55_failures_partial (h : ¬ ∃ r, parseDatetime u s = .ok r) :
    parseDatetime u s = .err .valueError ∨ parseDatetime u s = .err .indexError ∧
      ∃ y m d h mi sec k fr off, DateTimeText u s y m d h mi sec k (!k) fr off := by
  classical
  by_cases hx : ∃ y m d h mi sec k1 k2 fr off, DateTimeText u s y m d h mi sec k1 k2 fr off
  · obtain ⟨y', m', d', h', mi', sec', k1, k2, fr, off', hx⟩ := hx
    rw [parseDatetime_text u s hx] at h ⊢
    split
    · exact .inl rfl
    split
    · rename_i hk
      have : k2 = !k1 := by cases k1 <;> cases k2 <;> simp_all
      subst this
      exact .inr ⟨rfl, _, _, _, _, _, _, _, _, _, hx⟩
    split
    · rename_i h1 h2 h3
      rw [if_neg h1, if_neg h2, if_pos h3] at h
      exact absurd ⟨_, rfl⟩ h
    · exact .inl rfl
  · exact .inl (parseDatetime_other u s hx)

theorem ascii_dig {a : Char} (h0 : '0' ≤ a) (h1 : a ≤ '9') : u.digit a = some (a.toNat - 48) := digit_of_range h0 h1 (by decide)

theorem dateText_sample (R : Str) : DateText u (c!"2020-01-02" ++ R) R 2020 1 2 :=
  ⟨c!"2020", c!"-", c!"01", c!"-", c!"02", by simp,
    ⟨'2', '0', '2', '0', 2, 0, 2, 0, rfl, ascii_dig u (by decide) (by decide), ascii_dig u (by decide) (by decide),
      ascii_dig u (by decide) (by decide), ascii_dig u (by decide) (by decide), rfl⟩, .inr ⟨_, rfl, rfl⟩,
    ⟨'0', '1', 1, rfl, by decide, by decide, ascii_dig u (by decide) (by decide), rfl⟩, .inr ⟨_, rfl, rfl⟩,
    ⟨'0', '2', 2, rfl, by decide, by decide, ascii_dig u (by decide) (by decide), rfl⟩⟩

theorem clockText_sample (k1 k2 : Bool) :
    ClockText u (c!"10" ++ ((if k1 then [':'] else []) ++ (c!"20" ++ ((if k2 then [':'] else []) ++ c!"30")))) 10 20 30 k1 k2 :=
  ⟨c!"10", c!"20", c!"30", rfl,
    ⟨'1', '0', 0, rfl, by decide, by decide, ascii_dig u (by decide) (by decide), rfl⟩,
    ⟨'2', '0', 0, rfl, by decide, by decide, ascii_dig u (by decide) (by decide), rfl⟩,
    ⟨'3', '0', 0, rfl, by decide, by decide, ascii_dig u (by decide) (by decide), rfl⟩⟩

/-- `.5` -/
theorem fracText_sample : FracText u c!".5" (some c!"5") :=
  .inr ⟨c!"5", by simp, by simp [UDB.isDigit, ascii_dig u (show '0' ≤ '5' by decide) (by decide)], rfl, rfl⟩

/-- C55 fails: the fraction of the second is dropped. -/
theorem C55_fraction_violated : parseDatetime u c!"2020-01-02T10:20:30.5Z" = .ok (⟨2020, 1, 2⟩, ⟨10, 20, 30, 0⟩, some 0) ∧
    DateTimeText u c!"2020-01-02T10:20:30.5Z" 2020 1 2 10 20 30 true true (some c!"5") (some 0) := by
  have hx : DateTimeText u c!"2020-01-02T10:20:30.5Z" 2020 1 2 10 20 30 true true (some c!"5") (some 0) :=
    ⟨c!"10:20:30.5Z", [], ⟨c!"T", dateText_sample u c!"T10:20:30.5Z", .inr ⟨'T', .inr (.inl rfl), rfl⟩⟩,
      ⟨_, c!".5", c!"Z", rfl, clockText_sample u true true, fracText_sample u, .inr (.inl ⟨.inr rfl, rfl⟩)⟩, .inl rfl⟩
  exact ⟨(C55_parse_partial u _ _ _ _ _ _ _ _ _).2 ⟨⟨_, _, hx⟩, by simp [RealDate, monthLength], by decide, by simp [ZoneOk], rfl⟩, hx⟩

/-- C55 fails: one colon instead of two gives `IndexError`. -/
theorem C55_one_colon_violated : parseDatetime u c!"2020-01-02T10:2030" = .err .indexError := by
  classical
  have hx : DateTimeText u c!"2020-01-02T10:2030" 2020 1 2 10 20 30 true false none none :=
    ⟨c!"10:2030", [], ⟨c!"T", dateText_sample u c!"T10:2030", .inr ⟨'T', .inr (.inl rfl), rfl⟩⟩,
      ⟨_, [], [], rfl, clockText_sample u true false, .inl ⟨rfl, rfl⟩, .inl ⟨rfl, rfl⟩⟩, .inl rfl⟩
  rw [parseDatetime_text u _ hx]
  simp [ZoneOk]

/-! ## C56 -/

theorem time_shape {st1 : List (Nat × Str)} {N : Str} (h : InRun (timeRe u) [] s st1 N) : ∃ C F Z fr off,
    End N ∧ s = C ++ (F ++ (Z ++ N)) ∧
    ((∃ h mi sec k1 k2, ClockText u C h mi sec k1 k2) ∨ LeapText C) ∧ FracText u F fr ∧ ZoneText u Z off ∧
    (group (st1, N) 4).getD [] = C ∧ group (st1, N) 5 = (if F = [] then none else some F) ∧ (group (st1, N) 6).getD [] = Z := by
  change InRun (seq (grp 4 (clockRe u)) (seq (tailRe u) eol)) [] s st1 N at h
  rw [inRun_seq] at h; obtain ⟨c3, u3, h3, hr⟩ := h
  rw [inRun_seq] at hr; obtain ⟨c4, u4, h4, h5⟩ := hr
  rw [inRun_grp' rfl lang_clock] at h3
  rw [inRun_tail] at h4
  rw [inRun_bare rfl, lang_eol] at h5
  obtain ⟨rfl, rfl, hN⟩ := h5
  obtain ⟨F, Z, rfl, ⟨fr, hF⟩, ⟨off, hZ⟩, rfl⟩ := h4
  obtain ⟨C, rfl, hC, rfl⟩ := h3
  exact ⟨C, F, Z, fr, off, hN, rfl, hC, hF, hZ, by rw [group_cap (by decide)]; simp [group], group_cap5 (by simp),
    group_cap6 (by simp)⟩

theorem time_in {C F Z N : Str} {fr : Option Str} {off : Option Int} (hN : End N) (hs : s = C ++ (F ++ (Z ++ N)))
    (hC : (∃ h mi sec k1 k2, ClockText u C h mi sec k1 k2) ∨ LeapText C) (hF : FracText u F fr) (hZ : ZoneText u Z off) :
    ∃ c, InRun (timeRe u) [] s c N := by
  subst hs
  refine ⟨cap 6 Z ++ (cap 5 F ++ [(4, C)]), ?_⟩
  change InRun (seq (grp 4 (clockRe u)) (seq (tailRe u) eol)) [] _ _ _
  refine inRun_seq.2 ⟨_, _, (inRun_grp' rfl lang_clock).2 ⟨C, rfl, hC, rfl⟩, ?_⟩
  exact inRun_seq.2 ⟨_, _, inRun_tail.2 ⟨F, Z, rfl, ⟨fr, hF⟩, ⟨off, hZ⟩, rfl⟩, (inRun_bare rfl).2 ⟨rfl, lang_eol.2 ⟨rfl, hN⟩⟩⟩

/-- What Python makes of the digits of the fraction: their value as an integer, in microseconds. -/
def microsOf (fr : Option Str) : Option Nat :=
  match fr with
  | none => some 0
  | some ds => if ds.length ≤ 4300 then some (u.natOf ds) else none

theorem micros_eq {F : Str} {fr : Option Str} (h : FracText u F fr) (g : Option Str) (hg : g = if F = [] then none else some F) :
    micros u g = match microsOf u fr with
      | some n => .ok n
      | none => .err .valueError := by
  subst hg
  rcases h with ⟨rfl, rfl⟩ | ⟨ds, h1, h2, rfl, rfl⟩
  · simp [microsOf, micros]
  · simp only [microsOf, micros, UDB.intText, reduceCtorEq, if_false, List.drop_succ_cons, List.drop_zero]
    by_cases h : ds.length ≤ 4300
    · rw [if_neg (by omega), if_pos h]
    · rw [if_pos (by omega), if_neg h]

open Classical in
/-- What `parse_iso_time` does with a text of the right shape. -/
theorem parseTime_text {h mi sec : Nat} {k1 k2 : Bool} {fr : Option Str} {off : Option Int} (hx : TimeText u s [] h mi sec k1 k2 fr off) :
    parseTime u s = match microsOf u fr with
      | none => .err .valueError
      | some us => if ¬ ZoneOk off then .err .valueError else if k1 ≠ k2 then .err .indexError
        else if h ≤ 23 ∧ us ≤ 999999 then .ok (⟨h, mi, sec, us⟩, off) else .err .valueError := by
  have hx0 := hx
  obtain ⟨C, F, Z, hs, hC, hF, hZ⟩ := hx
  obtain ⟨c, hin⟩ := time_in u s (.inl rfl) hs (.inl ⟨_, _, _, _, _, hC⟩) hF hZ
  unfold parseTime
  cases hm : pyMatch (timeRe u) s with
  | none => exact absurd hin (pyMatch_none hm _ _)
  | some st0 =>
    cases hf : pyFullmatch (timeRe u) s with
    | none => exact absurd hin (pyFullmatch_none hf _)
    | some st =>
      have hr := pyFullmatch_some hf
      have hst : st.2 = [] := by have := List.find?_some hf; simpa using this
      obtain ⟨st1, st2⟩ := st
      simp only at hst hr
      subst hst
      obtain ⟨C', F', Z', fr', off', hN', hs', hC', hF', hZ', e4, e5, e6⟩ := time_shape u s hr
      have hC2 : ∃ h mi sec k1 k2, ClockText u C' h mi sec k1 k2 := by
        rcases hC' with h | h
        · exact h
        · exact (time_not_leap hx0 ⟨C', F', Z', _, _, hs', h, hF', hZ'⟩).elim
      obtain ⟨h', mi', sec', k1', k2', hC2⟩ := hC2
      have hx' : TimeText u s [] h' mi' sec' k1' k2' fr' off' := ⟨C', F', Z', hs', hC2, hF', hZ'⟩
      obtain ⟨rfl, rfl, rfl, rfl, rfl, rfl, rfl, _⟩ := time_unique hx0 hx' (.inl rfl) (.inl rfl)
      simp only [e4, zone_eq e6 hZ', micros_eq u hF' _ e5]
      cases hmu : microsOf u fr with
      | none => rfl
      | some us =>
        simp only [Res.ok_bind]
        by_cases hz : ZoneOk off
        · simp only [hz, not_true, if_false, if_true, Res.ok_bind]
          by_cases hk : k1 = k2
          · subst hk
            obtain ⟨H, M, S, hc, a1, a2, a3⟩ := cut_same hC2
            have hmi : mi ≤ 59 ∧ sec ≤ 59 := by
              obtain ⟨_, _, _, _, _, b1, b2⟩ := hC2
              exact ⟨two_lt b1 (by decide), two_lt b2 (by decide)⟩
            simp only [hc, nth, List.getElem?_cons_zero, List.getElem?_cons_succ, Res.ok_bind, a1, a2, a3, ne_eq,
              not_true, if_false, mkClock]
            by_cases hh : h ≤ 23 ∧ us ≤ 999999
            · rw [if_pos ⟨hh.1, hmi.1, hmi.2, hh.2⟩, if_pos hh]; rfl
            · rw [if_neg (by intro hc; exact hh ⟨hc.1, hc.2.2.2⟩), if_neg hh]; rfl
          · obtain ⟨A, B, a, b, hc, a1, a2⟩ := cut_mixed hC2 hk
            simp [hc, nth, a1, a2, hk]
        · simp [hz]

/-- A time followed by a newline. -/
def TimeNewline : Prop := LeapTimeText u s ['\n'] ∨ ∃ h mi sec k1 k2 fr off, TimeText u s ['\n'] h mi sec k1 k2 fr off

theorem no_full {C F Z C' F' Z' : Str} {fr fr' : Option Str} {off off' : Option Int} (hs : s = C ++ (F ++ (Z ++ ['\n'])))
    (hs' : s = C' ++ (F' ++ (Z' ++ []))) (hZ' : ZoneText u Z' off') (hF' : FracText u F' fr')
    (hC' : (∃ h mi sec k1 k2, ClockText u C' h mi sec k1 k2) ∨ LeapText C') : False := by
  have l1 : s.getLast? = some '\n' := by rw [hs]; simp [List.getLast?_append]
  have nn : ∀ b x, u.digit b = some x → b ≠ '\n' := fun b x hb => digit_ne hb (by decide) (by decide)
  have l2 : ∀ T : Str, (∀ c ∈ T, c ≠ '\n') → T.getLast? ≠ some '\n' := by
    intro T hT h
    exact hT _ (List.mem_of_getLast? h) rfl
  have two : ∀ hi T n, IsTwo u hi T n → ∀ c ∈ T, c ≠ '\n' := by
    rintro hi T n ⟨a, b, x, rfl, h0, _, hb, _⟩ c hc
    simp at hc
    rcases hc with rfl | rfl
    · rintro rfl; exact absurd h0 (by decide)
    · exact nn _ _ hb
  refine l2 s ?_ l1
  rw [hs']
  intro c hc
  simp only [List.mem_append, List.not_mem_nil, or_false] at hc
  rcases hc with hc | hc | hc
  · rcases hC' with ⟨_, _, _, k1, k2, H, M, S, rfl, hH, hM, hS⟩ | rfl | rfl
    · simp only [List.mem_append] at hc
      rcases hc with hc | hc | hc | hc | hc
      · exact two _ _ _ hH c hc
      · cases k1 <;> simp at hc; subst hc; decide
      · exact two _ _ _ hM c hc
      · cases k2 <;> simp at hc; subst hc; decide
      · exact two _ _ _ hS c hc
    · rintro rfl; simp at hc
    · rintro rfl; simp at hc
  · rcases hF' with ⟨rfl, _⟩ | ⟨ds, _, h2, rfl, _⟩
    · simp at hc
    · simp at hc
      rcases hc with rfl | hc
      · decide
      · obtain ⟨x, hx⟩ := isDigit_iff.1 (h2 c hc)
        exact nn _ _ hx
  · rcases hZ' with ⟨rfl, _⟩ | ⟨rfl | rfl, _⟩ | ⟨sg, H, M, _, _, hs, rfl, ⟨a, b, x, y, rfl, ha, hb, _⟩, ⟨a', b', x', y', rfl, ha', hb', _⟩, _⟩
    · simp at hc
    · simp at hc; subst hc; decide
    · simp at hc; subst hc; decide
    · simp at hc
      rcases hc with rfl | rfl | rfl | rfl | rfl | rfl
      · rcases hs with rfl | rfl <;> decide
      · exact nn _ _ ha
      · exact nn _ _ hb
      · decide
      · exact nn _ _ ha'
      · exact nn _ _ hb'

theorem parseTime_newline (h : TimeNewline u s) : parseTime u s = .err .attributeError := by
  have hex : ∃ C F Z fr off, s = C ++ (F ++ (Z ++ ['\n'])) ∧ ((∃ h mi sec k1 k2, ClockText u C h mi sec k1 k2) ∨ LeapText C) ∧
      FracText u F fr ∧ ZoneText u Z off := by
    rcases h with ⟨C, F, Z, fr, off, e, h1, h2, h3⟩ | ⟨_, _, _, _, _, fr, off, C, F, Z, e, h1, h2, h3⟩
    · exact ⟨C, F, Z, fr, off, e, .inr h1, h2, h3⟩
    · exact ⟨C, F, Z, fr, off, e, .inl ⟨_, _, _, _, _, h1⟩, h2, h3⟩
  obtain ⟨C, F, Z, fr, off, hs, hC, hF, hZ⟩ := hex
  obtain ⟨c, hin⟩ := time_in u s (.inr rfl) hs hC hF hZ
  unfold parseTime
  cases hm : pyMatch (timeRe u) s with
  | none => exact absurd hin (pyMatch_none hm _ _)
  | some st0 =>
    cases hf : pyFullmatch (timeRe u) s with
    | none => rfl
    | some st =>
      obtain ⟨C', F', Z', fr', off', _, hs', hC', hF', hZ', _⟩ := time_shape u s (pyFullmatch_some hf)
      exact (no_full u s (fr := fr) (off := off) hs hs' hZ' hF' hC').elim

theorem parseTime_other (hx : ¬ ∃ h mi sec k1 k2 fr off, TimeText u s [] h mi sec k1 k2 fr off) (hn : ¬ TimeNewline u s) :
    parseTime u s = .err .valueError := by
  unfold parseTime
  cases hm : pyMatch (timeRe u) s with
  | none => rfl
  | some st0 =>
    obtain ⟨C, F, Z, fr, off, hN, hs, hC, hF, hZ, _⟩ := time_shape u s (pyMatch_some hm)
    have hN0 : st0.2 = [] := by
      rcases hN with h | h
      · exact h
      · rw [h] at hs
        refine absurd ?_ hn
        rcases hC with ⟨_, _, _, _, _, h⟩ | h
        · exact .inr ⟨_, _, _, _, _, fr, off, C, F, Z, hs, h, hF, hZ⟩
        · exact .inl ⟨C, F, Z, fr, off, hs, h, hF, hZ⟩
    rw [hN0] at hs
    have hL : LeapText C := by
      rcases hC with ⟨_, _, _, _, _, h⟩ | h
      · exact absurd ⟨_, _, _, _, _, fr, off, C, F, Z, hs, h, hF, hZ⟩ hx
      · exact h
    obtain ⟨c, hin⟩ := time_in u s (.inl rfl) hs (.inr hL) hF hZ
    cases hf : pyFullmatch (timeRe u) s with
    | none => exact absurd hin (pyFullmatch_none hf _)
    | some st =>
      have hr := pyFullmatch_some hf
      have hst : st.2 = [] := by have := List.find?_some hf; simpa using this
      obtain ⟨st1, st2⟩ := st
      simp only at hst hr
      subst hst
      obtain ⟨C', F', Z', fr', off', hN', hs', hC', hF', hZ', e4, e5, e6⟩ := time_shape u s hr
      rcases hC' with ⟨_, _, _, _, _, h⟩ | h'
      · exact absurd ⟨_, _, _, _, _, fr', off', C', F', Z', hs', h, hF', hZ'⟩ hx
      · classical
        simp only [e4, zone_eq e6 hZ', micros_eq u hF' _ e5, cut_leap h', nth, List.getElem?_cons_zero,
          List.getElem?_cons_succ]
        cases microsOf u fr' with
        | none => rfl
        | some us =>
          simp only [Res.ok_bind]
          split
          · simp only [Res.ok_bind, (intText_leap (u := u)).1, (intText_leap (u := u)).2.1, (intText_leap (u := u)).2.2]
            simp [mkClock]
          · rfl

/-- C56 as far as it holds: `parse_iso_time` returns exactly the time and offset of texts `HH:MM:SS` `.fraction` `offset`
with both colons or neither, whose hour is at most 23 and whose offset is below 24 hours.  What it returns as
microseconds is the integer written after the point, which must be at most 999999. -/
theorem C56_parse_partial (h mi sec us : Nat) (off : Option Int) :
    parseTime u s = .ok (⟨h, mi, sec, us⟩, off) ↔
      ∃ fr k, TimeText u s [] h mi sec k k fr off ∧ h ≤ 23 ∧ ZoneOk off ∧ microsOf u fr = some us ∧ us ≤ 999999 := by
  classical
  constructor
  · intro hp
    by_cases hn : TimeNewline u s
    · rw [parseTime_newline u s hn] at hp; cases hp
    by_cases hx : ∃ h mi sec k1 k2 fr off, TimeText u s [] h mi sec k1 k2 fr off
    · obtain ⟨h', mi', sec', k1, k2, fr, off', hx⟩ := hx
      rw [parseTime_text u s hx] at hp
      cases hm : microsOf u fr with
      | none => rw [hm] at hp; cases hp
      | some us' =>
        rw [hm] at hp
        simp only at hp
        split at hp
        · cases hp
        split at hp
        · cases hp
        split at hp
        · rename_i hz hk hr
          cases hp
          simp only [ne_eq, Decidable.not_not] at hk hz
          subst hk
          exact ⟨fr, k1, hx, hr.1, hz, hm, hr.2⟩
        · cases hp
    · rw [parseTime_other u s hx hn] at hp; cases hp
  · rintro ⟨fr, k, hx, hh, hz, hm, hu⟩
    rw [parseTime_text u s hx]
    simp [hz, hm, hu, hh]

/-- The fraction of a second written by digits after the point, in microseconds. -/
def writtenMicros (ds : Str) : Rat := (u.natOf ds : Rat) / (10 ^ ds.length : Nat) * 1000000

/-- C56 for fractions of exactly six digits: the microseconds are the written ones. -/
theorem C56_six_digits_partial (h mi sec : Nat) (k : Bool) (ds : Str) (off : Option Int) (hl : ds.length = 6)
    (ht : TimeText u s [] h mi sec k k (some ds) off) (hh : h ≤ 23) (hz : ZoneOk off) :
    ∃ us, parseTime u s = .ok (⟨h, mi, sec, us⟩, off) ∧ (us : Rat) = writtenMicros u ds := by
  have hlt : u.natOf ds ≤ 999999 := by
    match ds, hl with
    | [a, b, c, d, e, f], _ =>
      have lt : ∀ x, (u.digit x).getD 0 ≤ 9 := by
        intro x
        cases hx : u.digit x with
        | none => simp
        | some n => have := u.digit_lt x n hx; simp; omega
      have := lt a; have := lt b; have := lt c; have := lt d; have := lt e; have := lt f
      simp only [UDB.natOf, List.foldl]
      omega
  refine ⟨u.natOf ds, (C56_parse_partial u s _ _ _ _ _).2 ⟨_, k, ht, hh, hz, by rw [microsOf, if_pos (by omega)], hlt⟩, ?_⟩
  unfold writtenMicros
  rw [hl, Rat.div_def, Rat.mul_assoc, show ((10 ^ 6 : Nat) : Rat)⁻¹ * 1000000 = 1 by decide +kernel, Rat.mul_one]

/-- C56, failures: `ValueError`, except that a text with only one of the two colons raises `IndexError` and one followed
by a newline `AttributeError`. -/
theorem C56_failures_partial (h : ¬ ∃ r, parseTime u s = .ok r) :
    parseTime u s = .err .valueError ∨
    (parseTime u s = .err .indexError ∧ ∃ h mi sec k fr off, TimeText u s [] h mi sec k (!k) fr off) ∨
    (parseTime u s = .err .attributeError ∧ TimeNewline u s) := by
  classical
  by_cases hn : TimeNewline u s
  · exact .inr (.inr ⟨parseTime_newline u s hn, hn⟩)
  by_cases hx : ∃ h mi sec k1 k2 fr off, TimeText u s [] h mi sec k1 k2 fr off
  · obtain ⟨h', mi', sec', k1, k2, fr, off', hx⟩ := hx
    rw [parseTime_text u s hx] at h ⊢
    cases hm : microsOf u fr with
    | none => exact .inl rfl
    | some us =>
      rw [hm] at h
      simp only at h ⊢
      by_cases hz : ZoneOk off'
      · by_cases hk : k1 = k2
        · simp only [hz, hk, ne_eq, not_true, if_false] at h ⊢
          split at h
          · exact absurd ⟨_, rfl⟩ h
          · left; rw [if_neg (by assumption)]
        · have : k2 = !k1 := by cases k1 <;> cases k2 <;> simp_all
          subst this
          exact .inr (.inl ⟨by simp [hz], _, _, _, _, _, _, hx⟩)
      · exact .inl (by simp [hz])
  · exact .inl (parseTime_other u s hx hn)

/-- C56 fails: `.5` seconds is returned as 5 microseconds. -/
theorem C56_fraction_violated : parseTime u c!"10:20:30.5" = .ok (⟨10, 20, 30, 5⟩, none) ∧ writtenMicros u c!"5" = 500000 := by
  have hv : u.natOf c!"5" = 5 := by
    simp [UDB.natOf, ascii_dig u (show '0' ≤ '5' by decide) (by decide)]
  constructor
  · rw [C56_parse_partial]
    refine ⟨some c!"5", true, ⟨_, c!".5", [], rfl, clockText_sample u true true, fracText_sample u, .inl ⟨rfl, rfl⟩⟩, by decide,
      by simp [ZoneOk], ?_, by decide⟩
    simp [microsOf, hv]
  · rw [writtenMicros, hv]; decide +kernel

/-- C56 fails: one colon gives `IndexError`, a final newline `AttributeError`. -/
theorem C56_errors_violated : parseTime u c!"10:2030" = .err .indexError ∧ parseTime u c!"10:20:30\n" = .err .attributeError := by
  classical
  constructor
  · have hx : TimeText u c!"10:2030" [] 10 20 30 true false none none :=
      ⟨_, [], [], rfl, clockText_sample u true false, .inl ⟨rfl, rfl⟩, .inl ⟨rfl, rfl⟩⟩
    rw [parseTime_text u _ hx]
    simp [ZoneOk, microsOf]
  · exact parseTime_newline u _ (.inr ⟨10, 20, 30, true, true, none, none, _, [], [], rfl, clockText_sample u true true,
      .inl ⟨rfl, rfl⟩, .inl ⟨rfl, rfl⟩⟩)

end Verif.Props
