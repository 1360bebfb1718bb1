import Verif.Props.Formats
import Verif.Props.Duration
/-!
# C55 to C58: what is done where the properties fail

Which dates and times raise what, and which fractions of a second are read as they are written.
-/

namespace Verif.Props
open Verif Re Iso Formats

section
variable (u : UDB) (s : Str)

/-- A date and a time with exactly one of the two colons, and an offset that exists. -/
def OneColonDateTime : Prop := ∃ y m d h mi sec k fr off, DateTimeText u s y m d h mi sec k (!k) fr off ∧ ZoneOk off

/-- A time with exactly one of the two colons, an offset that exists, and a fraction of at most 4300 digits. -/
def OneColonTime : Prop := ∃ h mi sec k fr off, TimeText u s [] h mi sec k (!k) fr off ∧ ZoneOk off ∧ ∀ ds, fr = some ds → ds.length ≤ 4300

/-- A date and time that exist, colons used throughout or not at all. -/
def GoodDateTime : Prop := ∃ y m d h mi sec k fr off, DateTimeText u s y m d h mi sec k k fr off ∧ RealDate y m d ∧ h ≤ 23 ∧ ZoneOk off

theorem not_eq_flip {a b : Bool} (h : a ≠ b) : b = !a := by cases a <;> cases b <;> simp_all

/-- C55, the outcome for every text: `IndexError` if exactly one of the colons is there, be the date real or not; a result if the date and time
exist; otherwise `ValueError`. -/
theorem C55_exact :
    (parseDatetime u s = .err .indexError ↔ OneColonDateTime u s) ∧
    ((∃ r, parseDatetime u s = .ok r) ↔ GoodDateTime u s) ∧
    (parseDatetime u s = .err .valueError ↔ ¬ OneColonDateTime u s ∧ ¬ GoodDateTime u s) := by
  classical
  have hok : (∃ r, parseDatetime u s = .ok r) ↔ GoodDateTime u s := by
    constructor
    · rintro ⟨⟨⟨y, m, d⟩, ⟨h, mi, sec, us⟩, off⟩, e⟩
      obtain ⟨⟨fr, k, h1⟩, h2, h3, h4, -⟩ := (C55_parse_partial u s ..).1 e
      exact ⟨y, m, d, h, mi, sec, k, fr, off, h1, h2, h3, h4⟩
    · rintro ⟨y, m, d, h, mi, sec, k, fr, off, h1, h2, h3, h4⟩
      exact ⟨_, (C55_parse_partial u s y m d h mi sec 0 off).2 ⟨⟨fr, k, h1⟩, h2, h3, h4, rfl⟩⟩
  have hix : parseDatetime u s = .err .indexError ↔ OneColonDateTime u s := by
    constructor
    · intro e
      by_cases hx : ∃ y m d h mi sec k1 k2 fr off, DateTimeText u s y m d h mi sec k1 k2 fr off
      · obtain ⟨y, m, d, h, mi, sec, k1, k2, fr, off, hx⟩ := hx
        have e' := e
        rw [parseDatetime_text u s hx] at e'
        by_cases hz : ZoneOk off
        · by_cases hk : k1 = k2
          · rw [if_neg (by simpa using hz), if_neg (by simpa using hk)] at e'
            split at e' <;> cases e'
          · obtain rfl := not_eq_flip hk
            exact ⟨y, m, d, h, mi, sec, k1, fr, off, hx, hz⟩
        · rw [if_pos hz] at e'; cases e'
      · rw [parseDatetime_other u s hx] at e; cases e
    · rintro ⟨y, m, d, h, mi, sec, k, fr, off, hx, hz⟩
      rw [parseDatetime_text u s hx]
      simp [hz]
  refine ⟨hix, hok, ⟨fun e => ⟨fun h => ?_, fun h => ?_⟩, fun ⟨h1, h2⟩ => ?_⟩⟩
  · rw [hix.2 h] at e; cases e
  · obtain ⟨r, h⟩ := hok.2 h; rw [h] at e; cases e
  · rcases C55_failures_partial u s (fun h => h2 (hok.1 h)) with h | ⟨h, -⟩
    · exact h
    · exact absurd (hix.1 h) h1

/-- A time that exists, colons used throughout or not at all; its fraction, read as a number, is below one million. -/
def GoodTime : Prop := ∃ h mi sec k fr off, TimeText u s [] h mi sec k k fr off ∧ h ≤ 23 ∧ ZoneOk off ∧
  ∀ ds, fr = some ds → ds.length ≤ 4300 ∧ u.natOf ds ≤ 999999

theorem micros_some {fr : Option Str} : (∃ us, microsOf u fr = some us ∧ us ≤ 999999) ↔ ∀ ds, fr = some ds → ds.length ≤ 4300 ∧ u.natOf ds ≤ 999999 := by
  cases fr with
  | none => simp [microsOf]
  | some ds => by_cases h : ds.length ≤ 4300 <;> simp [microsOf, h]

/-- C56, the outcome for every text: `AttributeError` before a newline at the end; `IndexError` if exactly one of the colons is there; a
result if the time exists; otherwise `ValueError`. -/
theorem C56_exact :
    (parseTime u s = .err .attributeError ↔ TimeNewline u s) ∧
    (parseTime u s = .err .indexError ↔ OneColonTime u s) ∧
    ((∃ r, parseTime u s = .ok r) ↔ GoodTime u s) ∧
    (parseTime u s = .err .valueError ↔ ¬ TimeNewline u s ∧ ¬ OneColonTime u s ∧ ¬ GoodTime u s) := by
  classical
  have hok : (∃ r, parseTime u s = .ok r) ↔ GoodTime u s := by
    constructor
    · rintro ⟨⟨⟨h, mi, sec, us⟩, off⟩, e⟩
      obtain ⟨fr, k, h1, h2, h3, h4⟩ := (C56_parse_partial u s ..).1 e
      exact ⟨h, mi, sec, k, fr, off, h1, h2, h3, (micros_some u).1 ⟨us, h4⟩⟩
    · rintro ⟨h, mi, sec, k, fr, off, h1, h2, h3, h4⟩
      obtain ⟨us, h4⟩ := (micros_some u).2 h4
      exact ⟨_, (C56_parse_partial u s h mi sec us off).2 ⟨fr, k, h1, h2, h3, h4⟩⟩
  have hix : parseTime u s = .err .indexError ↔ OneColonTime u s := by
    constructor
    · intro e
      by_cases hn : TimeNewline u s
      · rw [parseTime_newline u s hn] at e; cases e
      by_cases hx : ∃ h mi sec k1 k2 fr off, TimeText u s [] h mi sec k1 k2 fr off
      · obtain ⟨h, mi, sec, k1, k2, fr, off, hx⟩ := hx
        have e' := e
        rw [parseTime_text u s hx] at e'
        cases hm : microsOf u fr with
        | none => rw [hm] at e'; cases e'
        | some us =>
          rw [hm] at e'
          dsimp only at e'
          by_cases hz : ZoneOk off
          · by_cases hk : k1 = k2
            · rw [if_neg (by simpa using hz), if_neg (by simpa using hk)] at e'
              split at e' <;> cases e'
            · obtain rfl := not_eq_flip hk
              refine ⟨h, mi, sec, k1, fr, off, hx, hz, ?_⟩
              rintro ds rfl
              unfold microsOf at hm
              dsimp only at hm
              split at hm
              · assumption
              · cases hm
          · rw [if_pos hz] at e'; cases e'
      · rw [parseTime_other u s hx hn] at e; cases e
    · rintro ⟨h, mi, sec, k, fr, off, hx, hz, hl⟩
      rw [parseTime_text u s hx]
      cases fr with
      | none => simp [microsOf, hz]
      | some ds => simp [microsOf, hl ds rfl, hz]
  have hat : parseTime u s = .err .attributeError ↔ TimeNewline u s := by
    refine ⟨fun e => ?_, parseTime_newline u s⟩
    rcases C56_failures_partial u s (by rintro ⟨r, h⟩; rw [h] at e; cases e) with h | ⟨h, -⟩ | ⟨-, h⟩
    · rw [h] at e; cases e
    · rw [h] at e; cases e
    · exact h
  refine ⟨hat, hix, hok, ⟨fun e => ⟨fun h => ?_, fun h => ?_, fun h => ?_⟩, fun ⟨h0, h1, h2⟩ => ?_⟩⟩
  · rw [hat.2 h] at e; cases e
  · rw [hix.2 h] at e; cases e
  · obtain ⟨r, h⟩ := hok.2 h; rw [h] at e; cases e
  · rcases C56_failures_partial u s (fun h => h2 (hok.1 h)) with h | ⟨h, -⟩ | ⟨-, h⟩
    · exact h
    · exact absurd (hix.1 h) h1
    · exact absurd h h0

/-- C56: a fraction is taken for a number of microseconds, whatever its length; this is the time written exactly if the fraction
has six digits or is zero. -/
theorem C56_fraction (h mi sec us : Nat) (k : Bool) (ds : Str) (off off' : Option Int) (ht : TimeText u s [] h mi sec k k (some ds) off)
    (hp : parseTime u s = .ok (⟨h, mi, sec, us⟩, off')) : us = u.natOf ds ∧ ((us : Rat) = writtenMicros u ds ↔ ds.length = 6 ∨ us = 0) := by
  classical
  rw [parseTime_text u s ht] at hp
  unfold microsOf at hp
  dsimp only at hp
  by_cases hl : ds.length ≤ 4300
  · rw [if_pos hl] at hp
    dsimp only at hp
    split at hp
    · cases hp
    split at hp
    · cases hp
    split at hp
    · cases hp
      refine ⟨rfl, ?_⟩
      unfold writtenMicros
      generalize u.natOf ds = n
      generalize ds.length = l
      have hpos : (0 : Rat) < ((10 ^ l : Nat) : Rat) := by exact_mod_cast Nat.pow_pos (n := l) (show 0 < 10 by decide)
      constructor
      · intro e
        by_cases h0 : n = 0
        · exact .inr h0
        · left
          have hn : (n : Rat) ≠ 0 := by exact_mod_cast h0
          have e2 : (n : Rat) * ((10 ^ l : Nat) : Rat) = n * 1000000 := by
            have this : (n : Rat) * ((10 ^ l : Nat) : Rat) = _ * ((10 ^ l : Nat) : Rat) := congrArg (· * ((10 ^ l : Nat) : Rat)) e
            rw [this, Rat.mul_assoc, Rat.mul_comm (1000000 : Rat), ← Rat.mul_assoc, Rat.div_mul_cancel (by exact (Rat.ne_of_lt hpos).symm)]
          have e3 : ((10 ^ l : Nat) : Rat) = 1000000 := by
            have := congrArg ((n : Rat)⁻¹ * ·) e2
            simpa only [← Rat.mul_assoc, Rat.inv_mul_cancel _ hn, Rat.one_mul] using this
          have e4 : (10 : Nat) ^ l = 10 ^ 6 := by exact_mod_cast e3
          exact (Nat.pow_right_inj (by decide)).1 e4
      · rintro (rfl | rfl)
        · rw [Rat.div_def, Rat.mul_assoc, show ((10 ^ 6 : Nat) : Rat)⁻¹ * 1000000 = 1 by decide +kernel, Rat.mul_one]
        · simp [Rat.div_def, Rat.zero_mul]
    · cases hp
  · rw [if_neg hl] at hp; cases hp

end

variable (w : World) (docs : List Doc) (voc : List Kw) (f : Nat) (items : List (Str × Node)) (ctx : Ctx) (E : Formats.Env)

theorem orFalse_cases {α : Type} (r : Res α) : orFalse r = match r with
    | .ok _ => .ok true
    | .err .valueError => .ok false
    | .err e => .err e
    | .timeout => .timeout := by
  cases r with
  | ok a => rfl
  | err e => cases e <;> rfl
  | timeout => rfl

/-- C58, the outcome of `{format: date-time}` and of `{format: time}` for every text: besides accepting and refusing it, `IndexError` where one
of the colons is missing, and `AttributeError` for a time before a newline. -/
theorem C58_times (hc : CtxOk ctx) (s : Str) :
    (FormatSchema voc items c!"date-time" →
      validateN (withFormats E w []) docs voc (f + 2) (.obj items) (.str s) ctx = .err .indexError ∧ OneColonDateTime E.u s ∨
      validateN (withFormats E w []) docs voc (f + 2) (.obj items) (.str s) ctx = .ok () ∧ GoodDateTime E.u s ∨
      validateN (withFormats E w []) docs voc (f + 2) (.obj items) (.str s) ctx = rejected c!"format_error" ctx.path c!"date-time" ∧
        ¬ OneColonDateTime E.u s ∧ ¬ GoodDateTime E.u s) ∧
    (FormatSchema voc items c!"time" →
      validateN (withFormats E w []) docs voc (f + 2) (.obj items) (.str s) ctx = .err .attributeError ∧ TimeNewline E.u s ∨
      validateN (withFormats E w []) docs voc (f + 2) (.obj items) (.str s) ctx = .err .indexError ∧ OneColonTime E.u s ∨
      validateN (withFormats E w []) docs voc (f + 2) (.obj items) (.str s) ctx = .ok () ∧ GoodTime E.u s ∨
      validateN (withFormats E w []) docs voc (f + 2) (.obj items) (.str s) ctx = rejected c!"format_error" ctx.path c!"time" ∧
        ¬ TimeNewline E.u s ∧ ¬ OneColonTime E.u s ∧ ¬ GoodTime E.u s) := by
  classical
  constructor
  · intro h
    obtain ⟨h1, h2, h3⟩ := C55_exact E.u s
    rw [format_known _ docs voc f items ctx hc h (check := fun v => orFalse (parseDatetime E.u (E.text v))) rfl]
    simp only [Env.text, orFalse_cases]
    by_cases c1 : OneColonDateTime E.u s
    · rw [h1.2 c1]; exact .inl ⟨rfl, c1⟩
    by_cases c2 : GoodDateTime E.u s
    · obtain ⟨r, e⟩ := h2.2 c2
      rw [e]; exact .inr (.inl ⟨rfl, c2⟩)
    · rw [h3.2 ⟨c1, c2⟩]; exact .inr (.inr ⟨rfl, c1, c2⟩)
  · intro h
    obtain ⟨h0, h1, h2, h3⟩ := C56_exact E.u s
    rw [format_known _ docs voc f items ctx hc h (check := fun v => orFalse (parseTime E.u (E.text v))) rfl]
    simp only [Env.text, orFalse_cases]
    by_cases c0 : TimeNewline E.u s
    · rw [h0.2 c0]; exact .inl ⟨rfl, c0⟩
    by_cases c1 : OneColonTime E.u s
    · rw [h1.2 c1]; exact .inr (.inl ⟨rfl, c1⟩)
    by_cases c2 : GoodTime E.u s
    · obtain ⟨r, e⟩ := h2.2 c2
      rw [e]; exact .inr (.inr (.inl ⟨rfl, c2⟩))
    · rw [h3.2 ⟨c0, c1, c2⟩]; exact .inr (.inr (.inr ⟨rfl, c0, c1, c2⟩))

/-- C57: of all durations of whole seconds, only the empty one is not read again. -/
theorem C57_exact (u : UDB) (F : Secs u) (t : Int) (hlo : -86399999913600 ≤ t) (hhi : t < 86400000000000) :
    (parseDuration u F (durationText t) = .ok (t * 1000000) ↔ t ≠ 0) ∧ (t = 0 → parseDuration u F (durationText t) = .err .valueError) := by
  have h0 : t = 0 → parseDuration u F (durationText t) = .err .valueError := by
    rintro rfl; exact (C57_zero_violated u F).2
  refine ⟨⟨fun h e => ?_, fun h => C57_round_trip_partial u F t h hlo hhi⟩, h0⟩
  rw [h0 e] at h; cases h

/-- Texts of all kinds. -/
example (u : UDB) : OneColonDateTime u c!"2020-01-02T10:2030" ∧ OneColonTime u c!"10:2030" ∧ GoodTime u c!"10:20:30" ∧ TimeNewline u c!"10:20:30\n" := by
  refine ⟨(C55_exact u _).1.1 (C55_one_colon_violated u), (C56_exact u _).2.1.1 (C56_errors_violated u).1,
    ⟨10, 20, 30, true, none, none, ⟨_, [], [], rfl, clockText_sample u true true, .inl ⟨rfl, rfl⟩, .inl ⟨rfl, rfl⟩⟩, by decide, by simp [ZoneOk], by simp⟩,
    (C56_exact u _).1.1 (C56_errors_violated u).2⟩

/-- A fraction of one digit that is read wrong. -/
example (u : UDB) : TimeText u c!"10:20:30.5" [] 10 20 30 true true (some c!"5") none ∧ parseTime u c!"10:20:30.5" = .ok (⟨10, 20, 30, 5⟩, none) :=
  ⟨⟨_, c!".5", [], rfl, clockText_sample u true true, fracText_sample u, .inl ⟨rfl, rfl⟩⟩, (C56_fraction_violated u).1⟩

end Verif.Props
