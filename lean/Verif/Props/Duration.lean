import Verif.Proofs.Duration
/-! # C57, C62: durations -/

namespace Verif.Props
open Verif Iso Re

variable (u : UDB) (F : Secs u) (s : Str)

/-- A whole text, or a text and a newline. -/
def DurShape (N : Str) : Prop := ∃ neg w d h m sec, DurText u s N neg w d h m sec

theorem parseDuration_text {neg : Bool} {w d h m sec : Option Str} (hx : DurText u s [] neg w d h m sec) :
    parseDuration u F s = (do
      let w ← intOr u w
      let d ← intOr u d
      let h ← intOr u h
      let m ← intOr u m
      let us ← secOr F sec
      mkDelta ((if neg then -1 else 1) * (w * 604800000000 + d * 86400000000 + h * 3600000000 + m * 60000000 + us))) := by
  have hin := inRun_duration.2 ⟨.inl rfl, neg, w, d, h, m, sec, hx, rfl⟩
  unfold parseDuration
  cases hm : pyMatch (durationRe u) s with
  | none => exact absurd hin (pyMatch_none hm _ _)
  | some st0 =>
    cases hf : pyFullmatch (durationRe u) s with
    | none => exact absurd hin (pyFullmatch_none hf _)
    | some st =>
      obtain ⟨_, neg', w', d', h', m', sec', hx', e⟩ := inRun_duration.1 (pyFullmatch_some hf)
      obtain ⟨rfl, rfl, rfl, rfl, rfl, rfl, _⟩ := dur_unique hx hx' (.inl rfl) (.inl rfl)
      obtain ⟨st1, st2⟩ := st
      simp only at e
      subst e
      obtain ⟨g1, g2, g3, g4, g5, g6⟩ := group_dur (neg := neg) (w := w) (d := d) (h := h) (m := m) (sec := sec) (t := st2)
      simp only [g1, g2, g3, g4, g5, g6]
      have hs : (if (some (if neg then ['-'] else [] : Str)).getD [] = [] then 1 else -1 : Int) = if neg then -1 else 1 := by
        cases neg <;> rfl
      simp only [hs]
      congr 1; funext a
      congr 1; funext b
      congr 1; funext c
      congr 1; funext e
      congr 1; funext f
      congr 1
      cases neg <;> simp <;> omega

theorem parseDuration_newline (hx : DurShape u s ['\n']) : parseDuration u F s = .err .attributeError := by
  obtain ⟨neg, w, d, h, m, sec, hx⟩ := hx
  have hin := inRun_duration.2 ⟨.inr rfl, neg, w, d, h, m, sec, hx, rfl⟩
  unfold parseDuration
  cases hm : pyMatch (durationRe u) s with
  | none => exact absurd hin (pyMatch_none hm _ _)
  | some st0 =>
    cases hf : pyFullmatch (durationRe u) s with
    | none => rfl
    | some st =>
      obtain ⟨_, neg', w', d', h', m', sec', hx', e⟩ := inRun_duration.1 (pyFullmatch_some hf)
      obtain ⟨_, _, _, _, _, _, e⟩ := dur_unique hx hx' (.inr rfl) (.inl rfl)
      cases e

theorem parseDuration_other (h1 : ¬ DurShape u s []) (h2 : ¬ DurShape u s ['\n']) : parseDuration u F s = .err .valueError := by
  unfold parseDuration
  cases hm : pyMatch (durationRe u) s with
  | none => rfl
  | some st0 =>
    obtain ⟨hN, neg', w', d', h', m', sec', hx', e⟩ := inRun_duration.1 (pyMatch_some hm)
    rcases hN with hN | hN <;> rw [hN] at hx'
    · exact absurd ⟨_, _, _, _, _, _, hx'⟩ h1
    · exact absurd ⟨_, _, _, _, _, _, hx'⟩ h2

/-- The length of a written number is below Python's limit. -/
def shortDigits (v : Option Str) : Prop := ∀ ds, v = some ds → ds.length ≤ 4300

theorem intOr_eq (v : Option Str) : (shortDigits v ∧ intOr u v = .ok (unitVal u v)) ∨ (¬ shortDigits v ∧ intOr u v = .err .valueError) := by
  cases v with
  | none => left; exact ⟨by simp [shortDigits], rfl⟩
  | some ds =>
    by_cases h : ds.length ≤ 4300
    · left; refine ⟨by rintro _ ⟨⟩; exact h, ?_⟩; rw [intOr, UDB.intText, if_neg (by omega)]; rfl
    · right; refine ⟨fun hh => h (hh ds rfl), ?_⟩; rw [intOr, UDB.intText, if_pos (by omega)]

/-- C62: a text that has the shape of a duration, with whole seconds below 2^53, is read as the sum of its parts, or
refused: a `timedelta` holds less than 10^9 days, and Python refuses integers of more than 4300 digits. -/
theorem C62_reads {neg : Bool} {w d h m sec : Option Str} (hx : DurText u s [] neg w d h m sec)
    (hw : shortDigits w ∧ shortDigits d ∧ shortDigits h ∧ shortDigits m)
    (hs : ∀ t, sec = some t → (∀ c ∈ t, u.isDigit c = true) ∧ u.natOf t < 9007199254740992) :
    parseDuration u F s =
      let total : Int := (if neg then -1 else 1) * (unitVal u w * 604800 + unitVal u d * 86400 + unitVal u h * 3600 +
        unitVal u m * 60 + unitVal u sec)
      if -86399999913600 ≤ total ∧ total < 86400000000000 then .ok (total * 1000000) else .err .overflowError := by
  rw [parseDuration_text u F s hx]
  have e : ∀ v, shortDigits v → intOr u v = .ok (unitVal u v) := fun v hv =>
    (intOr_eq u v).elim (·.2) (fun hh => absurd hv hh.1)
  have es : secOr F sec = .ok (unitVal u sec * 1000000) := by
    cases sec with
    | none => simp [secOr, unitVal]
    | some t => simp [secOr, F.whole t (hs t rfl).1 (hs t rfl).2, unitVal]
  simp only [e w hw.1, e d hw.2.1, e h hw.2.2.1, e m hw.2.2.2, es, Res.ok_bind, mkDelta]
  generalize unitVal u w = w
  generalize unitVal u d = d
  generalize unitVal u h = h
  generalize unitVal u m = m
  generalize unitVal u sec = x
  generalize hsg : (if neg = true then -1 else 1 : Int) = sg
  have e1 : sg * ((w : Int) * 604800000000 + d * 86400000000 + h * 3600000000 + m * 60000000 + x * 1000000) =
      sg * (w * 604800 + d * 86400 + h * 3600 + m * 60 + x) * 1000000 := by
    cases neg <;> simp at hsg <;> subst hsg <;> omega
  rw [e1]
  generalize sg * ((w : Int) * 604800 + d * 86400 + h * 3600 + m * 60 + x) = T
  by_cases hT : -86399999913600 ≤ T ∧ T < 86400000000000
  · rw [if_pos (by omega), if_pos hT]
  · rw [if_neg (by omega), if_neg hT]

theorem mkDelta_ne (x : Int) : mkDelta x ≠ .err .attributeError := by
  unfold mkDelta; split <;> simp

/-- C62, the other texts: `ValueError`, and `AttributeError` exactly if a duration is followed by a newline.  Only
durations can be read at all. -/
theorem C62_refuses_partial :
    (¬ DurShape u s [] → ¬ DurShape u s ['\n'] → parseDuration u F s = .err .valueError) ∧
    (parseDuration u F s = .err .attributeError ↔ DurShape u s ['\n']) := by
  refine ⟨parseDuration_other u F s, ?_, parseDuration_newline u F s⟩
  intro h
  by_cases h2 : DurShape u s ['\n']
  · exact h2
  by_cases h1 : DurShape u s []
  · exfalso
    obtain ⟨neg, w, d, hh, m, sec, hx⟩ := h1
    rw [parseDuration_text u F s hx] at h
    rcases intOr_eq u w with ⟨_, e⟩ | ⟨_, e⟩ <;> rw [e] at h <;> simp at h
    rcases intOr_eq u d with ⟨_, e⟩ | ⟨_, e⟩ <;> rw [e] at h <;> simp at h
    rcases intOr_eq u hh with ⟨_, e⟩ | ⟨_, e⟩ <;> rw [e] at h <;> simp at h
    rcases intOr_eq u m with ⟨_, e⟩ | ⟨_, e⟩ <;> rw [e] at h <;> simp at h
    cases sec with
    | none => exact mkDelta_ne _ h
    | some t =>
      cases ht : F.micros t with
      | none => simp [secOr, ht] at h
      | some n => simp only [secOr, ht, Res.ok_bind] at h; exact mkDelta_ne _ h
  · rw [parseDuration_other u F s h1 h2] at h; cases h

theorem unitVal_natStr (n : Nat) : unitVal u (if n = 0 then none else some (natStr n)) = n := by
  by_cases h : n = 0
  · simp [h, unitVal]
  · simp [h, unitVal, (natStr_digits (u := u) n).2]

theorem short_natStr (n : Nat) (h : n < 10 ^ 4300) : shortDigits (if n = 0 then none else some (natStr n)) := by
  intro ds hd
  split at hd
  · cases hd
  · cases hd
    exact (Nat.length_toDigits_le_iff (b := 10) (n := n) (k := 4300) (by decide) (by decide)).2 h

/-- C57 for all durations of whole seconds except 0: what `timedelta_to_iso_duration` prints is parsed back to the same
duration. -/
theorem C57_round_trip_partial (t : Int) (h0 : t ≠ 0) (hlo : -86399999913600 ≤ t) (hhi : t < 86400000000000) :
    parseDuration u F (durationText t) = .ok (t * 1000000) := by
  let n := t.natAbs
  let o : Nat → Option Str := fun n => if n = 0 then none else some (natStr n)
  have hn : n ≠ 0 := by simp only [n]; omega
  have hdig : ∀ k, k ≠ 0 → ∀ l R, ∃ a r, unitText k l ++ R = a :: r ∧ u.isDigit a = true := by
    intro k hk l R
    rw [unitText, if_neg hk]
    have h1 := (natStr_digits (u := u) k).1
    cases hk : natStr k with
    | nil => exact absurd hk Nat.toDigits_ne_nil
    | cons a r => exact ⟨a, r ++ [l] ++ R, by simp, h1 a (by simp [hk])⟩
  have hz : ∀ l, unitText 0 l = [] := fun l => rfl
  have hx : DurText u (durationText t) [] (decide (t < 0)) (o (n / 60 / 60 / 24 / 7)) (o (n / 60 / 60 / 24 % 7))
      (o (n / 60 / 60 % 24)) (o (n / 60 % 60)) (o (n % 60)) := by
    refine ⟨'P', unitText (n / 60 / 60 / 24 / 7) 'W', unitText (n / 60 / 60 / 24 % 7) 'D',
      (if unitText (n / 60 / 60 % 24) 'H' ++ (unitText (n / 60 % 60) 'M' ++ unitText (n % 60) 'S') = [] then [] else
        'T' :: (unitText (n / 60 / 60 % 24) 'H' ++ (unitText (n / 60 % 60) 'M' ++ unitText (n % 60) 'S'))), ?_, by simp, ?_,
      unitText_spec _ _ _ (by simp), unitText_spec _ _ _ (by simp), ?_⟩
    · simp [durationText, n]
    · by_cases hw : n / 60 / 60 / 24 / 7 = 0
      · by_cases hd : n / 60 / 60 / 24 % 7 = 0
        · have hne : unitText (n / 60 / 60 % 24) 'H' ++ (unitText (n / 60 % 60) 'M' ++ unitText (n % 60) 'S') ≠ [] ∧
              ∃ a r, unitText (n / 60 / 60 % 24) 'H' ++ (unitText (n / 60 % 60) 'M' ++ unitText (n % 60) 'S') = a :: r ∧
                u.isDigit a = true := by
            have : ∃ a r, unitText (n / 60 / 60 % 24) 'H' ++ (unitText (n / 60 % 60) 'M' ++ unitText (n % 60) 'S') = a :: r ∧
                u.isDigit a = true := by
              by_cases hh : n / 60 / 60 % 24 = 0
              · rw [hh, hz]
                by_cases hm : n / 60 % 60 = 0
                · rw [hm, hz]
                  have := hdig (n % 60) (by omega) 'S' []
                  simpa using this
                · simpa using hdig _ hm 'M' (unitText (n % 60) 'S')
              · exact hdig _ hh 'H' _
            refine ⟨?_, this⟩
            obtain ⟨a, r, e, _⟩ := this
            rw [e]; simp
          rw [hw, hd, hz, hz, if_neg hne.1]
          obtain ⟨a, r, e, ha⟩ := hne.2
          rw [e]
          exact ⟨'T', _, rfl, .inr ⟨by simp, a, r ++ [], by simp, ha⟩⟩
        · rw [hw, hz]
          obtain ⟨a, r, e, ha⟩ := hdig _ hd 'D' ((if unitText (n / 60 / 60 % 24) 'H' ++ (unitText (n / 60 % 60) 'M' ++ unitText (n % 60) 'S') = [] then [] else
            'T' :: (unitText (n / 60 / 60 % 24) 'H' ++ (unitText (n / 60 % 60) 'M' ++ unitText (n % 60) 'S'))) ++ [])
          exact ⟨a, r, by rw [← e]; simp, .inl ha⟩
      · obtain ⟨a, r, e, ha⟩ := hdig _ hw 'W' (unitText (n / 60 / 60 / 24 % 7) 'D' ++ ((if unitText (n / 60 / 60 % 24) 'H' ++ (unitText (n / 60 % 60) 'M' ++ unitText (n % 60) 'S') = [] then [] else
            'T' :: (unitText (n / 60 / 60 % 24) 'H' ++ (unitText (n / 60 % 60) 'M' ++ unitText (n % 60) 'S'))) ++ []))
        exact ⟨a, r, e, .inl ha⟩
    · split
      · rename_i he
        simp only [List.append_eq_nil_iff] at he
        have hz' : ∀ k l, unitText k l = [] → o k = none := by
          intro k l hk
          by_cases h : k = 0
          · simp [o, h]
          · simp [unitText, h] at hk
        exact .inl ⟨rfl, hz' _ _ he.1, hz' _ _ he.2.1, hz' _ _ he.2.2⟩
      · refine .inr ⟨'T', _, _, _, by simp, rfl, unitText_spec _ _ _ (by simp), unitText_spec _ _ _ (by simp), ?_⟩
        rcases unitText_spec (u := u) (n % 60) 'S' ['s', 'S', 'ſ'] (by simp) with ⟨h1, h2⟩ | ⟨ds, l, h1, h2, h3, h4, h5⟩
        · exact .inl ⟨h1, h2⟩
        · exact .inr ⟨ds, [], none, l, h1, h2, .inl ⟨rfl, rfl⟩, h3, by simpa using h4, by simpa [o] using h5⟩
  have big : ∀ k : Nat, k < 10 ^ 20 → k < 10 ^ 4300 := fun k h =>
    Nat.lt_of_lt_of_le h (Nat.pow_le_pow_right (by decide) (by decide))
  have hbn : n ≤ 86400000000000 := by simp only [n]; omega
  rw [C62_reads u F _ hx ⟨short_natStr _ (big _ (by omega)), short_natStr _ (big _ (by omega)), short_natStr _ (big _ (by omega)),
    short_natStr _ (big _ (by omega))⟩]
  · simp only [o, unitVal_natStr]
    have e : (if decide (t < 0) = true then -1 else 1 : Int) * (((n / 60 / 60 / 24 / 7 : Nat) : Int) * 604800 + ((n / 60 / 60 / 24 % 7 : Nat) : Int) * 86400 +
        ((n / 60 / 60 % 24 : Nat) : Int) * 3600 + ((n / 60 % 60 : Nat) : Int) * 60 + ((n % 60 : Nat) : Int)) = t := by
      have e2 : ((n / 60 / 60 / 24 / 7 : Nat) : Int) * 604800 + ((n / 60 / 60 / 24 % 7 : Nat) : Int) * 86400 +
        ((n / 60 / 60 % 24 : Nat) : Int) * 3600 + ((n / 60 % 60 : Nat) : Int) * 60 + ((n % 60 : Nat) : Int) = n := by omega
      rw [e2]
      by_cases ht : t < 0
      · simp [ht, n]; omega
      · simp [ht, n]; omega
    rw [e, if_pos ⟨hlo, hhi⟩]
  · intro x hxx
    simp only [o] at hxx
    split at hxx
    · cases hxx
    · cases hxx
      refine ⟨(natStr_digits _).1, ?_⟩
      rw [(natStr_digits _).2]; omega

/-- C57 fails at 0: the empty duration is printed `P`, which is not parsed. -/
theorem C57_zero_violated : durationText 0 = c!"P" ∧ parseDuration u F (durationText 0) = .err .valueError := by
  refine ⟨by decide, parseDuration_other u F _ ?_ ?_⟩ <;> rintro ⟨neg, w, d, h, m, sec, p, W, D, X, e, hp, ⟨a, r, h1, h2⟩, _⟩ <;>
    rw [h1] at e <;> cases neg <;> simp [durationText, unitText] at e

/-- C62 fails: a trailing newline gives `AttributeError`, too long a duration `OverflowError`. -/
theorem C62_errors_violated : parseDuration u F c!"P1D\n" = .err .attributeError ∧
    parseDuration u F c!"P1000000000D" = .err .overflowError := by
  have d1 : ∀ c ∈ c!"1000000000", u.isDigit c = true := by
    intro c hc
    have : c = '1' ∨ c = '0' := by simpa using hc
    rcases this with rfl | rfl <;> simp [UDB.isDigit, digit_of_range (u := u) (show '0' ≤ '1' by decide) (by decide) (show '9' ≤ '9' by decide),
      digit_of_range (u := u) (show '0' ≤ '0' by decide) (by decide) (show '9' ≤ '9' by decide)]
  have one : u.isDigit '1' = true := d1 '1' (by simp)
  constructor
  · refine parseDuration_newline u F _ ⟨false, none, some c!"1", none, none, none, 'P', [], c!"1D", [], rfl, by simp,
      ⟨'1', _, rfl, .inl one⟩, .inl ⟨rfl, rfl⟩, .inr ⟨c!"1", 'D', by simp, by simpa using one, by simp, rfl, rfl⟩, .inl ⟨rfl, rfl, rfl, rfl⟩⟩
  · have hx : DurText u c!"P1000000000D" [] false none (some c!"1000000000") none none none :=
      ⟨'P', [], c!"1000000000D", [], rfl, by simp, ⟨'1', _, rfl, .inl one⟩, .inl ⟨rfl, rfl⟩,
        .inr ⟨c!"1000000000", 'D', by simp, d1, by simp, rfl, rfl⟩, .inl ⟨rfl, rfl, rfl, rfl⟩⟩
    have hv : u.natOf c!"1000000000" = 1000000000 := (natStr_digits (u := u) 1000000000).2
    rw [C62_reads u F _ hx ⟨by simp [shortDigits], by rintro _ ⟨⟩; decide, by simp [shortDigits], by simp [shortDigits]⟩ (by simp)]
    simp [unitVal, hv]

/- The hypotheses of `C57_round_trip_partial` are met by, e.g., 1 week 2 days 3 hours 4 minutes 5 seconds, negated. -/
theorem duration_sample : durationText (-788645) = c!"-P1W2DT3H4M5S" := by decide
example : parseDuration u F c!"-P1W2DT3H4M5S" = .ok (-788645000000) := by
  rw [← duration_sample, C57_round_trip_partial u F (-788645) (by decide) (by decide) (by decide)]
  simp

end Verif.Props
