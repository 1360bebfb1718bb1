import Verif.Model.IsoDatetime
import Verif.Spec.Iso
import Verif.Proofs.RegexGroups
/-! # Lemmas on ISO 8601 texts -/

namespace Verif.Iso
open Verif Re

variable {u : UDB} {c c' : List (Nat × Str)} {s t : Str}

theorem isDigit_iff {a : Char} : u.isDigit a = true ↔ ∃ x, u.digit a = some x := by
  simp [UDB.isDigit, Option.isSome_iff_exists]

theorem digit_ascii_none {a : Char} (h : a.toNat < 128) (h' : ¬ (48 ≤ a.toNat ∧ a.toNat ≤ 57)) : u.digit a = none := by
  rw [u.digit_ascii a h, if_neg h']

theorem isDigit_not {a : Char} (h : a.toNat < 128) (h' : ¬ (48 ≤ a.toNat ∧ a.toNat ≤ 57)) : u.isDigit a = false := by
  simp [UDB.isDigit, digit_ascii_none h h']

theorem char_le {a b : Char} : a ≤ b ↔ a.toNat ≤ b.toNat := Iff.rfl

theorem digit_of_range {a hi : Char} (h0 : '0' ≤ a) (h1 : a ≤ hi) (h2 : hi ≤ '9') : u.digit a = some (a.toNat - 48) := by
  rw [char_le] at *
  have e0 : '0'.toNat = 48 := rfl
  have e9 : '9'.toNat = 57 := rfl
  rw [u.digit_ascii a (by omega), if_pos (by omega)]

theorem digit_ne {a b : Char} {x : Nat} (h : u.digit a = some x) (h1 : b.toNat < 128)
    (h2 : ¬ (48 ≤ b.toNat ∧ b.toNat ≤ 57)) : a ≠ b := by
  rintro rfl
  rw [digit_ascii_none h1 h2] at h
  cases h

/-! ## Pieces of patterns -/

theorem lang_two {hi : Char} :
    Lang (seq (rng '0' hi) (cls u.isDigit)) s t ↔ ∃ T k, s = T ++ t ∧ IsTwo u hi T k := by
  simp only [rng, lang_seq, lang_cls, IsTwo, isDigit_iff, Bool.and_eq_true, decide_eq_true_eq]
  constructor
  · rintro ⟨_, ⟨a, ⟨h1, h2⟩, rfl⟩, b, ⟨x, hx⟩, rfl⟩
    exact ⟨[a, b], _, rfl, a, b, x, rfl, h1, h2, hx, rfl⟩
  · rintro ⟨T, k, rfl, a, b, x, rfl, h1, h2, hx, rfl⟩
    exact ⟨b :: t, ⟨a, ⟨h1, h2⟩, rfl⟩, b, ⟨x, hx⟩, rfl⟩

theorem lang_year : Lang (rep (cls u.isDigit) 4) s t ↔ ∃ Y y, s = Y ++ t ∧ IsYear u Y y := by
  simp only [rep, lang_seq, lang_cls, lang_eps, IsYear, isDigit_iff]
  constructor
  · rintro ⟨_, ⟨a, ⟨x1, h1⟩, rfl⟩, _, ⟨b, ⟨x2, h2⟩, rfl⟩, _, ⟨d, ⟨x3, h3⟩, rfl⟩, _, ⟨e, ⟨x4, h4⟩, rfl⟩, rfl⟩
    exact ⟨[a, b, d, e], _, rfl, a, b, d, e, x1, x2, x3, x4, rfl, h1, h2, h3, h4, rfl⟩
  · rintro ⟨Y, y, rfl, a, b, d, e, x1, x2, x3, x4, rfl, h1, h2, h3, h4, rfl⟩
    exact ⟨_, ⟨a, ⟨x1, h1⟩, rfl⟩, _, ⟨b, ⟨x2, h2⟩, rfl⟩, _, ⟨d, ⟨x3, h3⟩, rfl⟩, _, ⟨e, ⟨x4, h4⟩, rfl⟩, rfl⟩

theorem lang_optcls {p : Char → Bool} : Lang (opt (cls p)) s t ↔ ∃ T, s = T ++ t ∧ Opt (p · = true) T := by
  simp only [lang_opt, lang_cls, Opt]
  constructor
  · rintro (⟨a, h, rfl⟩ | rfl)
    · exact ⟨[a], rfl, .inr ⟨a, h, rfl⟩⟩
    · exact ⟨[], rfl, .inl rfl⟩
  · rintro ⟨T, rfl, rfl | ⟨a, h, rfl⟩⟩
    · exact .inr rfl
    · exact .inl ⟨a, h, rfl⟩

theorem inRun_grp' {n : Nat} {r : Re} (h : bare r = true) {P : Str → Prop} (hP : ∀ {s t : Str}, Lang r s t ↔ ∃ T, s = T ++ t ∧ P T) :
    InRun (grp n r) c s c' t ↔ ∃ T, s = T ++ t ∧ P T ∧ c' = (n, T) :: c := by
  rw [inRun_grp h]
  constructor
  · rintro ⟨p, rfl, hl, rfl⟩
    obtain ⟨T, e, hT⟩ := hP.1 hl
    rw [List.append_cancel_right e]
    exact ⟨T, rfl, hT, rfl⟩
  · rintro ⟨T, rfl, hT, rfl⟩
    exact ⟨T, rfl, hP.2 ⟨T, rfl, hT⟩, rfl⟩

theorem inRun_optchr {a : Char} : InRun (opt (chr a)) c s c' t ↔ c' = c ∧ ∃ T, s = T ++ t ∧ Opt (· = a) T := by
  rw [inRun_bare rfl, chr, lang_optcls]
  simp

theorem inRun_date : InRun (dateRe u) c s c' t ↔ ∃ Y d1 M d2 D, s = Y ++ (d1 ++ (M ++ (d2 ++ (D ++ t)))) ∧
    (∃ y, IsYear u Y y) ∧ Opt (· = '-') d1 ∧ (∃ m, IsTwo u '1' M m) ∧ Opt (· = '-') d2 ∧ (∃ d, IsTwo u '3' D d) ∧
    c' = (3, D) :: (2, M) :: (1, Y) :: c := by
  simp only [dateRe, seqs, inRun_seq, inRun_optchr]
  constructor
  · rintro ⟨c1, u1, h1, c2, u2, ⟨rfl, d1, rfl, hd1⟩, c3, u3, h3, c4, u4, ⟨rfl, d2, rfl, hd2⟩, h5⟩
    rw [inRun_grp' rfl (P := fun Y => ∃ y, IsYear u Y y) (by intro s t; rw [lang_year]; simp)] at h1
    rw [inRun_grp' rfl (P := fun Y => ∃ y, IsTwo u '1' Y y) (by intro s t; rw [lang_two]; simp)] at h3
    rw [inRun_grp' rfl (P := fun Y => ∃ y, IsTwo u '3' Y y) (by intro s t; rw [lang_two]; simp)] at h5
    obtain ⟨Y, rfl, hY, rfl⟩ := h1
    obtain ⟨M, rfl, hM, rfl⟩ := h3
    obtain ⟨D, rfl, hD, rfl⟩ := h5
    exact ⟨Y, d1, M, d2, D, rfl, hY, hd1, hM, hd2, hD, rfl⟩
  · rintro ⟨Y, d1, M, d2, D, rfl, hY, hd1, hM, hd2, hD, rfl⟩
    refine ⟨(1, Y) :: c, d1 ++ (M ++ (d2 ++ (D ++ t))), ?_, _, M ++ (d2 ++ (D ++ t)), ⟨rfl, d1, rfl, hd1⟩,
      (2, M) :: (1, Y) :: c, d2 ++ (D ++ t), ?_, _, D ++ t, ⟨rfl, d2, rfl, hd2⟩, ?_⟩
    · rw [inRun_grp' rfl (P := fun Y => ∃ y, IsYear u Y y) (by intro s t; rw [lang_year]; simp)]
      exact ⟨Y, rfl, hY, rfl⟩
    · rw [inRun_grp' rfl (P := fun Y => ∃ y, IsTwo u '1' Y y) (by intro s t; rw [lang_two]; simp)]
      exact ⟨M, rfl, hM, rfl⟩
    · rw [inRun_grp' rfl (P := fun Y => ∃ y, IsTwo u '3' Y y) (by intro s t; rw [lang_two]; simp)]
      exact ⟨D, rfl, hD, rfl⟩

theorem lang_clock : Lang (clockRe u) s t ↔
    ∃ C, s = C ++ t ∧ ((∃ h mi sec k1 k2, ClockText u C h mi sec k1 k2) ∨ LeapText C) := by
  have hfirst : Lang (seqs [rng '0' '2', cls u.isDigit, opt (chr ':'), rng '0' '5', cls u.isDigit, opt (chr ':'),
      rng '0' '5', cls u.isDigit]) s t ↔ ∃ C, s = C ++ t ∧ ∃ h mi sec k1 k2, ClockText u C h mi sec k1 k2 := by
    have regroup : Lang (seqs [rng '0' '2', cls u.isDigit, opt (chr ':'), rng '0' '5', cls u.isDigit, opt (chr ':'),
      rng '0' '5', cls u.isDigit]) s t ↔
        Lang (seq (seq (rng '0' '2') (cls u.isDigit)) (seq (opt (chr ':')) (seq (seq (rng '0' '5') (cls u.isDigit))
          (seq (opt (chr ':')) (seq (rng '0' '5') (cls u.isDigit)))))) s t := by
      simp only [seqs, lang_seq]
      constructor
      · rintro ⟨a, h1, b, h2, d, h3, e, h4, f, h5, g, h6, i, h7, h8⟩
        exact ⟨b, ⟨a, h1, h2⟩, d, h3, f, ⟨e, h4, h5⟩, g, h6, i, h7, h8⟩
      · rintro ⟨b, ⟨a, h1, h2⟩, d, h3, f, ⟨e, h4, h5⟩, g, h6, i, h7, h8⟩
        exact ⟨a, h1, b, h2, d, h3, e, h4, f, h5, g, h6, i, h7, h8⟩
    rw [regroup]
    simp only [ClockText]
    constructor
    · intro hl
      rw [lang_seq] at hl; obtain ⟨_, h1, hl⟩ := hl
      rw [lang_seq] at hl; obtain ⟨_, h2, hl⟩ := hl
      rw [lang_seq] at hl; obtain ⟨_, h3, hl⟩ := hl
      rw [lang_seq] at hl; obtain ⟨_, h4, h5⟩ := hl
      rw [lang_two] at h1 h3 h5
      rw [chr, lang_optcls] at h2 h4
      obtain ⟨S, sec, rfl, hS⟩ := h5
      obtain ⟨k2, rfl, hk2⟩ := h4
      obtain ⟨M, m, rfl, hM⟩ := h3
      obtain ⟨k1, rfl, hk1⟩ := h2
      obtain ⟨H, h, rfl, hH⟩ := h1
      refine ⟨H ++ (k1 ++ (M ++ (k2 ++ S))), by simp, h, m, sec, decide (k1 = [':']), decide (k2 = [':']), H, M, S, ?_, hH, hM, hS⟩
      have e : ∀ k : Str, Opt (fun x => (x == ':') = true) k → (if decide (k = [':']) = true then [':'] else []) = k := by
        rintro k (rfl | ⟨a, ha, rfl⟩)
        · rfl
        · simp at ha; subst ha; rfl
      rw [e _ hk1, e _ hk2]
    · rintro ⟨_, rfl, h, m, sec, k1, k2, H, M, S, rfl, hH, hM, hS⟩
      have e : ∀ k : Bool, Opt (fun x => (x == ':') = true) (if k = true then [':'] else []) := by
        intro k; cases k
        · exact .inl rfl
        · exact .inr ⟨':', rfl, rfl⟩
      exact .seq (lang_two.2 ⟨H, h, by simp, hH⟩) (.seq (lang_optcls.2 ⟨_, rfl, e k1⟩) (.seq (lang_two.2 ⟨M, m, rfl, hM⟩)
        (.seq (lang_optcls.2 ⟨_, rfl, e k2⟩) (lang_two.2 ⟨S, sec, rfl, hS⟩))))
  show Lang (alt _ (alt (lit _) (lit _))) s t ↔ _
  rw [lang_alt, hfirst, lang_alt, lang_lit, lang_lit]
  constructor
  · rintro (⟨C, rfl, h⟩ | rfl | rfl)
    · exact ⟨C, rfl, .inl h⟩
    · exact ⟨_, rfl, .inr (.inl rfl)⟩
    · exact ⟨_, rfl, .inr (.inr rfl)⟩
  · rintro ⟨C, rfl, h | rfl | rfl⟩
    · exact .inl ⟨C, rfl, h⟩
    · exact .inr (.inl rfl)
    · exact .inr (.inr rfl)

theorem lang_frac : Lang (seq (chr '.') (plus (cls u.isDigit))) s t ↔
    ∃ F, s = F ++ t ∧ ∃ ds, ds ≠ [] ∧ (∀ c ∈ ds, u.isDigit c = true) ∧ F = '.' :: ds := by
  simp only [lang_seq, plus, lang_chr, lang_cls, lang_star_cls]
  constructor
  · rintro ⟨_, rfl, _, ⟨a, ha, rfl⟩, ds, rfl, hds⟩
    exact ⟨_, rfl, a :: ds, by simp, by simpa using ⟨ha, hds⟩, rfl⟩
  · rintro ⟨_, rfl, ds, hne, hds, rfl⟩
    cases ds with
    | nil => simp at hne
    | cons a ds =>
      simp at hds
      exact ⟨_, rfl, _, ⟨a, hds.1, rfl⟩, ds, rfl, hds.2⟩

theorem lang_zone : Lang (alt (cls fun c => c == 'z' || c == 'Z') (seqs [cls fun c => c == '+' || c == '-', cls u.isDigit,
      cls u.isDigit, chr ':', cls u.isDigit, cls u.isDigit])) s t ↔
    ∃ Z, s = Z ++ t ∧ Z ≠ [] ∧ ∃ off, ZoneText u Z off := by
  simp only [seqs, lang_alt, lang_seq, lang_cls, lang_chr, isDigit_iff, ZoneText, IsDigits2]
  constructor
  · rintro (⟨a, ha, rfl⟩ | ⟨_, ⟨sg, hsg, rfl⟩, _, ⟨a, ⟨x1, ha⟩, rfl⟩, _, ⟨b, ⟨x2, hb⟩, rfl⟩, _, rfl, _, ⟨d, ⟨x3, hd⟩, rfl⟩,
      e, ⟨x4, he⟩, rfl⟩)
    · refine ⟨[a], rfl, by simp, some 0, .inr (.inl ⟨?_, rfl⟩)⟩
      simpa using ha
    · refine ⟨[sg, a, b, ':', d, e], rfl, by simp, _, .inr (.inr ⟨sg, [a, b], [d, e], _, _, by simpa using hsg, rfl,
        ⟨a, b, _, _, rfl, ha, hb, rfl⟩, ⟨d, e, _, _, rfl, hd, he, rfl⟩, rfl⟩)⟩
  · rintro ⟨Z, rfl, hne, off, ⟨rfl, _⟩ | ⟨hz, _⟩ | ⟨sg, H, M, h, m, hsg, rfl, ⟨a, b, x1, x2, rfl, ha, hb, rfl⟩,
      ⟨d, e, x3, x4, rfl, hd, he, rfl⟩, _⟩⟩
    · simp at hne
    · rcases hz with rfl | rfl
      · exact .inl ⟨'z', rfl, rfl⟩
      · exact .inl ⟨'Z', rfl, rfl⟩
    · exact .inr ⟨_, ⟨sg, by simpa using hsg, rfl⟩, _, ⟨a, ⟨_, ha⟩, rfl⟩, _, ⟨b, ⟨_, hb⟩, rfl⟩, _, rfl, _,
        ⟨d, ⟨_, hd⟩, rfl⟩, e, ⟨_, he⟩, rfl⟩

/-- The captured group of an optional piece. -/
def cap (n : Nat) (T : Str) : List (Nat × Str) := if T = [] then [] else [(n, T)]

theorem inRun_tail : InRun (tailRe u) c s c' t ↔ ∃ F Z, s = F ++ (Z ++ t) ∧ (∃ fr, FracText u F fr) ∧ (∃ off, ZoneText u Z off) ∧
    c' = cap 6 Z ++ (cap 5 F ++ c) := by
  show InRun (seq (opt (grp 5 _)) (opt (grp 6 _))) c s c' t ↔ _
  simp only [inRun_seq, inRun_opt]
  constructor
  · rintro ⟨c1, u1, h1, h2⟩
    rw [inRun_grp' rfl lang_frac] at h1
    rw [inRun_grp' rfl lang_zone] at h2
    have hF : ∃ F, s = F ++ u1 ∧ (∃ fr, FracText u F fr) ∧ c1 = cap 5 F ++ c := by
      rcases h1 with ⟨F, rfl, ⟨ds, h3, h4, rfl⟩, rfl⟩ | ⟨rfl, rfl⟩
      · exact ⟨_, rfl, ⟨_, .inr ⟨ds, h3, h4, rfl, rfl⟩⟩, by simp [cap]⟩
      · exact ⟨[], rfl, ⟨none, .inl ⟨rfl, rfl⟩⟩, by simp [cap]⟩
    have hZ : ∃ Z, u1 = Z ++ t ∧ (∃ off, ZoneText u Z off) ∧ c' = cap 6 Z ++ c1 := by
      rcases h2 with ⟨Z, rfl, ⟨h3, h4⟩, rfl⟩ | ⟨rfl, rfl⟩
      · exact ⟨Z, rfl, h4, by simp [cap, h3]⟩
      · exact ⟨[], rfl, ⟨none, .inl ⟨rfl, rfl⟩⟩, by simp [cap]⟩
    obtain ⟨F, rfl, hF, rfl⟩ := hF
    obtain ⟨Z, rfl, hZ, rfl⟩ := hZ
    exact ⟨F, Z, rfl, hF, hZ, rfl⟩
  · rintro ⟨F, Z, rfl, ⟨fr, hF⟩, ⟨off, hZ⟩, rfl⟩
    refine ⟨cap 5 F ++ c, Z ++ t, ?_, ?_⟩
    · rw [inRun_grp' rfl lang_frac]
      rcases hF with ⟨rfl, _⟩ | ⟨ds, h3, h4, rfl, _⟩
      · exact .inr ⟨by simp [cap], rfl⟩
      · exact .inl ⟨_, rfl, ⟨ds, h3, h4, rfl⟩, by simp [cap]⟩
    · rw [inRun_grp' rfl lang_zone]
      by_cases he : Z = []
      · subst he; exact .inr ⟨by simp [cap], rfl⟩
      · exact .inl ⟨Z, rfl, ⟨he, _, hZ⟩, by simp [cap, he]⟩

/-! ## Numbers -/

theorem intText_two {hi : Char} {T : Str} {n : Nat} (h : IsTwo u hi T n) (hh : hi ≤ '9') : u.intText T = .ok n := by
  obtain ⟨a, b, x, rfl, h0, h1, hb, rfl⟩ := h
  simp [UDB.intText, UDB.natOf, hb, digit_of_range (u := u) h0 h1 hh]
  omega

theorem intText_digits2 {T : Str} {n : Nat} (h : IsDigits2 u T n) : u.intText T = .ok n := by
  obtain ⟨a, b, x, y, rfl, ha, hb, rfl⟩ := h
  simp [UDB.intText, UDB.natOf, ha, hb]
  omega

theorem intText_year {T : Str} {n : Nat} (h : IsYear u T n) : u.intText T = .ok n := by
  obtain ⟨a, b, d, e, w, x, y, z, rfl, ha, hb, hd, he, rfl⟩ := h
  simp [UDB.intText, UDB.natOf, ha, hb, hd, he]
  omega

theorem two_lt {hi : Char} {T : Str} {n : Nat} (h : IsTwo u hi T n) (hh : hi.toNat = 53) : n ≤ 59 := by
  obtain ⟨a, b, x, rfl, h0, h1, hb, rfl⟩ := h
  rw [char_le] at h0 h1
  have := u.digit_lt _ _ hb
  omega

theorem real_iff {y m d : Nat} : (1 ≤ y ∧ y ≤ 9999 ∧ 1 ≤ m ∧ m ≤ 12 ∧ 1 ≤ d ∧ d ≤ daysInMonth y m) ↔ RealDate y m d := by
  have key : ∀ m, 1 ≤ m → m ≤ 12 → daysInMonth y m = monthLength y m := by
    intro m h1 h2
    have hl : isLeap y = true ↔ (4 ∣ y ∧ (100 ∣ y → 400 ∣ y)) := by
      simp [isLeap]; omega
    have : m = 1 ∨ m = 2 ∨ m = 3 ∨ m = 4 ∨ m = 5 ∨ m = 6 ∨ m = 7 ∨ m = 8 ∨ m = 9 ∨ m = 10 ∨ m = 11 ∨ m = 12 := by omega
    rcases this with rfl | rfl | rfl | rfl | rfl | rfl | rfl | rfl | rfl | rfl | rfl | rfl
    case inr.inl =>
      unfold daysInMonth monthLength
      by_cases h : isLeap y = true
      · rw [if_pos (hl.1 h)]; simp [h]
      · rw [if_neg (mt hl.2 h)]; simp [h]
    all_goals simp [daysInMonth, monthLength]
  unfold RealDate
  constructor
  · rintro ⟨a, b, c, d, e, f⟩; exact ⟨a, b, c, d, e, by rwa [← key m c d]⟩
  · rintro ⟨a, b, c, d, e, f⟩; exact ⟨a, b, c, d, e, by rwa [key m c d]⟩

open Classical in
theorem mkDate_eq (y m d : Nat) : mkDate y m d = if RealDate y m d then .ok ⟨y, m, d⟩ else .err .valueError := by
  unfold mkDate
  by_cases h : RealDate y m d
  · rw [if_pos h, if_pos (real_iff.2 h)]
  · rw [if_neg h, if_neg (mt real_iff.1 h)]

/-! ## Uniqueness -/

theorem opt_unique {p : Char → Prop} {A A' R R' : Str} (h : A ++ R = A' ++ R') (hA : Opt p A) (hA' : Opt p A')
    (hR : ∀ c, p c → ∀ r, R ≠ c :: r) (hR' : ∀ c, p c → ∀ r, R' ≠ c :: r) : A = A' ∧ R = R' := by
  rcases hA with rfl | ⟨a, ha, rfl⟩ <;> rcases hA' with rfl | ⟨a', ha', rfl⟩
  · exact ⟨rfl, h⟩
  · exact absurd h (hR _ ha' _)
  · exact absurd h.symm (hR' _ ha _)
  · simp at h; simp [h]

theorem two_unique {hi : Char} {T T' R R' : Str} {n n' : Nat} (h : T ++ R = T' ++ R') (h1 : IsTwo u hi T n) (h2 : IsTwo u hi T' n') :
    n = n' ∧ R = R' := by
  obtain ⟨a, b, x, rfl, _, _, hb, rfl⟩ := h1
  obtain ⟨a', b', x', rfl, _, _, hb', rfl⟩ := h2
  simp at h
  obtain ⟨rfl, rfl, rfl⟩ := h
  rw [hb] at hb'; cases hb'
  exact ⟨rfl, rfl⟩

theorem year_unique {T T' R R' : Str} {n n' : Nat} (h : T ++ R = T' ++ R') (h1 : IsYear u T n) (h2 : IsYear u T' n') :
    n = n' ∧ R = R' := by
  obtain ⟨a, b, d, e, w, x, y, z, rfl, ha, hb, hd, he, rfl⟩ := h1
  obtain ⟨a', b', d', e', w', x', y', z', rfl, ha', hb', hd', he', rfl⟩ := h2
  simp at h
  obtain ⟨rfl, rfl, rfl, rfl, rfl⟩ := h
  simp_all

theorem two_head {hi a : Char} {T R : Str} {n : Nat} (h1 : IsTwo u hi T n) (ha : ¬ ('0' ≤ a ∧ a ≤ hi)) (r : Str) : T ++ R ≠ a :: r := by
  obtain ⟨b, d, x, rfl, h2, h3, hb, rfl⟩ := h1
  simp
  rintro rfl
  exact absurd ⟨h2, h3⟩ ha

theorem dateText_unique {R R' : Str} {y m d y' m' d' : Nat} (h : DateText u s R y m d) (h' : DateText u s R' y' m' d') :
    y = y' ∧ m = m' ∧ d = d' ∧ R = R' := by
  obtain ⟨Y, d1, M, d2, D, rfl, hY, hd1, hM, hd2, hD⟩ := h
  obtain ⟨Y', d1', M', d2', D', e, hY', hd1', hM', hd2', hD'⟩ := h'
  obtain ⟨rfl, e1⟩ := year_unique e hY hY'
  obtain ⟨_, e2⟩ := opt_unique e1 hd1 hd1' (by rintro _ rfl; exact two_head hM (by decide))
    (by rintro _ rfl; exact two_head hM' (by decide))
  obtain ⟨rfl, e3⟩ := two_unique e2 hM hM'
  obtain ⟨_, e4⟩ := opt_unique e3 hd2 hd2' (by rintro _ rfl; exact two_head hD (by decide))
    (by rintro _ rfl; exact two_head hD' (by decide))
  obtain ⟨rfl, e5⟩ := two_unique e4 hD hD'
  exact ⟨rfl, rfl, rfl, e5⟩

end Verif.Iso
