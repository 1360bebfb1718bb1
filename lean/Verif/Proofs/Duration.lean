import Verif.Model.IsoDuration
import Verif.Spec.Duration
import Verif.Proofs.Iso2
/-! # Lemmas on durations -/

namespace Verif.Iso
open Verif Re

variable {u : UDB} {c c' : List (Nat × Str)} {s t : Str}

theorem inRun_look {r : Re} (h : bare r = true) : InRun (look r) c s c' t ↔ c' = c ∧ t = s ∧ ∃ w, Lang r s w := by
  simp only [InRun, run]
  have : (run r (c, s)).isEmpty = false ↔ ∃ w, Lang r s w := by
    constructor
    · intro hh
      cases hr : run r (c, s) with
      | nil => rw [hr] at hh; cases hh
      | cons x xs => exact ⟨x.2, lang_of_mem (bare_plain h) (c := c) (c' := x.1) (by rw [hr]; simp)⟩
    · rintro ⟨w, hw⟩
      obtain ⟨c1, h1⟩ := mem_of_lang hw c
      cases hr : run r (c, s) with
      | nil => rw [hr] at h1; cases h1
      | cons x xs => rfl
  cases he : (run r (c, s)).isEmpty with
  | true => simp; intro _ _ w hw; have := this.2 ⟨w, hw⟩; simp [he] at this
  | false =>
    simp
    intro _ _; exact this.1 he

/-- Captures of an optional group. -/
def capo (n : Nat) : Option Str → List (Nat × Str)
  | none => []
  | some v => [(n, v)]

theorem lang_digits : Lang (plus (cls u.isDigit)) s t ↔ ∃ T, s = T ++ t ∧ (T ≠ [] ∧ ∀ c ∈ T, u.isDigit c = true) := by
  simp only [plus, lang_seq, lang_cls, lang_star_cls]
  constructor
  · rintro ⟨_, ⟨a, ha, rfl⟩, T, rfl, hT⟩
    exact ⟨a :: T, rfl, by simp, by simpa using ⟨ha, hT⟩⟩
  · rintro ⟨T, rfl, hn, hT⟩
    cases T with
    | nil => exact absurd rfl hn
    | cons a T => exact ⟨_, ⟨a, hT a (by simp), rfl⟩, T, rfl, fun c hc => hT c (by simp [hc])⟩

theorem inRun_unit {n : Nat} {L : Char → Bool} {Ls : List Char} (hL : ∀ a, L a = true ↔ a ∈ Ls) :
    InRun (unitRe u n L) c s c' t ↔ ∃ T v, s = T ++ t ∧ UnitText u Ls T v ∧ c' = capo n v ++ c := by
  rw [unitRe, inRun_opt, inRun_seq]
  constructor
  · rintro (⟨c1, w, h1, h2⟩ | ⟨rfl, rfl⟩)
    · rw [inRun_grp' rfl lang_digits] at h1
      rw [inRun_bare rfl, lang_cls] at h2
      obtain ⟨rfl, l, hl, rfl⟩ := h2
      obtain ⟨T, rfl, ⟨hn, hT⟩, rfl⟩ := h1
      exact ⟨T ++ [l], some T, by simp, .inr ⟨T, l, hn, hT, (hL l).1 hl, rfl, rfl⟩, rfl⟩
    · exact ⟨[], none, rfl, .inl ⟨rfl, rfl⟩, rfl⟩
  · rintro ⟨T, v, rfl, ⟨rfl, rfl⟩ | ⟨ds, l, hn, hd, hl, rfl, rfl⟩, rfl⟩
    · exact .inr ⟨rfl, rfl⟩
    · refine .inl ⟨(n, ds) :: c, l :: t, (inRun_grp' rfl lang_digits).2 ⟨ds, by simp, ⟨hn, hd⟩, rfl⟩, ?_⟩
      rw [inRun_bare rfl, lang_cls]
      exact ⟨rfl, l, (hL l).2 hl, rfl⟩

theorem isS_iff (a : Char) : isS a = true ↔ a ∈ ['s', 'S', 'ſ'] := by simp [isS, or_assoc]
theorem isW_iff (a : Char) : isW a = true ↔ a ∈ ['w', 'W'] := by simp [isW]
theorem isD_iff (a : Char) : isD a = true ↔ a ∈ ['d', 'D'] := by simp [isD]
theorem isH_iff (a : Char) : isH a = true ↔ a ∈ ['h', 'H'] := by simp [isH]
theorem isM_iff (a : Char) : isM a = true ↔ a ∈ ['m', 'M'] := by simp [isM]
theorem isT_iff (a : Char) : isT a = true ↔ a ∈ ['t', 'T'] := by simp [isT]
theorem isP_iff (a : Char) : isP a = true ↔ a ∈ ['p', 'P'] := by simp [isP]

theorem lang_secnum : Lang (seq (plus (cls u.isDigit)) (opt (seq (chr '.') (plus (cls u.isDigit))))) s t ↔
    ∃ T, s = T ++ t ∧ ∃ ds F fr, ds ≠ [] ∧ (∀ c ∈ ds, u.isDigit c = true) ∧ FracText u F fr ∧ T = ds ++ F := by
  rw [lang_seq]
  simp only [lang_digits, lang_opt, lang_seq, lang_chr]
  constructor
  · rintro ⟨w, ⟨ds, rfl, hn, hd⟩, ⟨_, rfl, fs, rfl, hfn, hfd⟩ | rfl⟩
    · exact ⟨ds ++ '.' :: fs, by simp, ds, '.' :: fs, some fs, hn, hd, .inr ⟨fs, hfn, hfd, rfl, rfl⟩, rfl⟩
    · exact ⟨ds, rfl, ds, [], none, hn, hd, .inl ⟨rfl, rfl⟩, by simp⟩
  · rintro ⟨_, rfl, ds, F, fr, hn, hd, ⟨rfl, rfl⟩ | ⟨fs, hfn, hfd, rfl, rfl⟩, rfl⟩
    · exact ⟨t, ⟨ds, by simp, hn, hd⟩, .inr rfl⟩
    · exact ⟨'.' :: fs ++ t, ⟨ds, by simp, hn, hd⟩, .inl ⟨fs ++ t, rfl, fs, rfl, hfn, hfd⟩⟩

theorem inRun_sec : InRun (secRe u) c s c' t ↔ ∃ T v, s = T ++ t ∧ SecText u T v ∧ c' = capo 6 v ++ c := by
  rw [secRe, inRun_opt, inRun_seq]
  constructor
  · rintro (⟨c1, w, h1, h2⟩ | ⟨rfl, rfl⟩)
    · rw [inRun_grp' rfl lang_secnum] at h1
      rw [inRun_bare rfl, lang_cls] at h2
      obtain ⟨rfl, l, hl, rfl⟩ := h2
      obtain ⟨T, rfl, ⟨ds, F, fr, hn, hd, hF, rfl⟩, rfl⟩ := h1
      exact ⟨ds ++ (F ++ [l]), some (ds ++ F), by simp, .inr ⟨ds, F, fr, l, hn, hd, hF, (isS_iff l).1 hl, rfl, rfl⟩, rfl⟩
    · exact ⟨[], none, rfl, .inl ⟨rfl, rfl⟩, rfl⟩
  · rintro ⟨T, v, rfl, ⟨rfl, rfl⟩ | ⟨ds, F, fr, l, hn, hd, hF, hl, rfl, rfl⟩, rfl⟩
    · exact .inr ⟨rfl, rfl⟩
    · refine .inl ⟨(6, ds ++ F) :: c, l :: t, (inRun_grp' rfl lang_secnum).2 ⟨ds ++ F, by simp, ⟨ds, F, fr, hn, hd, hF, rfl⟩, rfl⟩, ?_⟩
      rw [inRun_bare rfl, lang_cls]
      exact ⟨rfl, l, (isS_iff l).2 hl, rfl⟩

theorem inRun_clockPart : InRun (opt (seqs [cls isT, unitRe u 4 isH, unitRe u 5 isM, secRe u])) c s c' t ↔
    ∃ X h m sec, s = X ++ t ∧ ClockPart u X h m sec ∧ c' = capo 6 sec ++ (capo 5 m ++ (capo 4 h ++ c)) := by
  rw [inRun_opt]
  change InRun (seq (cls isT) (seq (unitRe u 4 isH) (seq (unitRe u 5 isM) (secRe u)))) c s c' t ∨ _ ↔ _
  rw [inRun_seq]
  constructor
  · rintro (⟨c1, w, h1, h2⟩ | ⟨rfl, rfl⟩)
    · rw [inRun_bare rfl, lang_cls] at h1
      obtain ⟨rfl, a, ha, rfl⟩ := h1
      rw [inRun_seq] at h2; obtain ⟨c2, w2, h3, h4⟩ := h2
      rw [inRun_seq] at h4; obtain ⟨c4, w4, h5, h6⟩ := h4
      rw [inRun_unit isH_iff] at h3
      rw [inRun_unit isM_iff] at h5
      rw [inRun_sec] at h6
      obtain ⟨S, sec, rfl, hS, rfl⟩ := h6
      obtain ⟨M, m, rfl, hM, rfl⟩ := h5
      obtain ⟨H, h, rfl, hH, rfl⟩ := h3
      exact ⟨a :: (H ++ (M ++ S)), h, m, sec, by simp, .inr ⟨a, H, M, S, (isT_iff a).1 ha, rfl, hH, hM, hS⟩, rfl⟩
    · exact ⟨[], none, none, none, rfl, .inl ⟨rfl, rfl, rfl, rfl⟩, rfl⟩
  · rintro ⟨X, h, m, sec, rfl, ⟨rfl, rfl, rfl, rfl⟩ | ⟨a, H, M, S, ha, rfl, hH, hM, hS⟩, rfl⟩
    · exact .inr ⟨rfl, rfl⟩
    · refine .inl ⟨c, H ++ (M ++ (S ++ t)), ?_, ?_⟩
      · rw [inRun_bare rfl, lang_cls]; exact ⟨rfl, a, (isT_iff a).2 ha, by simp⟩
      · refine inRun_seq.2 ⟨capo 4 h ++ c, M ++ (S ++ t), (inRun_unit isH_iff).2 ⟨H, h, rfl, hH, rfl⟩, ?_⟩
        exact inRun_seq.2 ⟨capo 5 m ++ (capo 4 h ++ c), S ++ t, (inRun_unit isM_iff).2 ⟨M, m, rfl, hM, rfl⟩,
          inRun_sec.2 ⟨S, sec, rfl, hS, rfl⟩⟩

theorem startsDur_iff : StartsDur u s ↔ ∃ w, Lang (alt (cls u.isDigit) (seq (cls isT) (cls u.isDigit))) s w := by
  simp only [lang_alt, lang_cls, lang_seq, StartsDur, isT_iff]
  constructor
  · rintro ⟨a, r, rfl, h | ⟨h1, b, r', rfl, h2⟩⟩
    · exact ⟨r, .inl ⟨a, h, rfl⟩⟩
    · exact ⟨r', .inr ⟨_, ⟨a, h1, rfl⟩, b, h2, rfl⟩⟩
  · rintro ⟨w, ⟨a, h, rfl⟩ | ⟨_, ⟨a, h1, rfl⟩, b, h2, rfl⟩⟩
    · exact ⟨a, w, rfl, .inl h⟩
    · exact ⟨a, _, rfl, .inr ⟨h1, b, w, rfl, h2⟩⟩

/-- The captures left by a duration. -/
def durCaps (neg : Bool) (w d h m sec : Option Str) : List (Nat × Str) :=
  capo 6 sec ++ (capo 5 m ++ (capo 4 h ++ (capo 3 d ++ (capo 2 w ++ [(1, if neg then ['-'] else [])]))))

theorem inRun_duration : InRun (durationRe u) [] s c' t ↔
    End t ∧ ∃ neg w d h m sec, DurText u s t neg w d h m sec ∧ c' = durCaps neg w d h m sec := by
  have hsgn : ∀ {s t : Str}, Lang (opt (chr '-')) s t ↔ ∃ T, s = T ++ t ∧ ∃ neg : Bool, T = if neg then ['-'] else [] := by
    intro s t
    simp only [lang_opt, lang_chr]
    constructor
    · rintro (rfl | rfl)
      · exact ⟨['-'], rfl, true, rfl⟩
      · exact ⟨[], rfl, false, rfl⟩
    · rintro ⟨_, rfl, neg, rfl⟩
      cases neg
      · exact .inr rfl
      · exact .inl rfl
  change InRun (seq (grp 1 (opt (chr '-'))) (seq (cls isP) (seq (look (alt (cls u.isDigit) (seq (cls isT) (cls u.isDigit))))
    (seq (unitRe u 2 isW) (seq (unitRe u 3 isD) (seq (opt (seqs [cls isT, unitRe u 4 isH, unitRe u 5 isM, secRe u])) eol)))))) _ _ _ _ ↔ _
  constructor
  · intro hh
    rw [inRun_seq] at hh; obtain ⟨c1, s1, h1, hh⟩ := hh
    rw [inRun_seq] at hh; obtain ⟨c2, s2, h2, hh⟩ := hh
    rw [inRun_seq] at hh; obtain ⟨c3, s3, h3, hh⟩ := hh
    rw [inRun_seq] at hh; obtain ⟨c4, s4, h4, hh⟩ := hh
    rw [inRun_seq] at hh; obtain ⟨c5, s5, h5, hh⟩ := hh
    rw [inRun_seq] at hh; obtain ⟨c6, s6, h6, h7⟩ := hh
    rw [inRun_grp' rfl hsgn] at h1
    rw [inRun_bare rfl, lang_cls] at h2
    rw [inRun_look rfl] at h3
    rw [inRun_unit isW_iff] at h4
    rw [inRun_unit isD_iff] at h5
    rw [inRun_clockPart] at h6
    rw [inRun_bare rfl, lang_eol] at h7
    obtain ⟨rfl, rfl, hN⟩ := h7
    obtain ⟨X, h, m, sec, rfl, hX, rfl⟩ := h6
    obtain ⟨D, d, rfl, hD, rfl⟩ := h5
    obtain ⟨W, w, e4, hW, rfl⟩ := h4
    obtain ⟨rfl, rfl, h3⟩ := h3
    obtain ⟨rfl, p, hp, rfl⟩ := h2
    obtain ⟨T, rfl, ⟨neg, rfl⟩, rfl⟩ := h1
    subst e4
    exact ⟨hN, neg, w, d, h, m, sec, ⟨p, W, D, X, rfl, (isP_iff p).1 hp, startsDur_iff.2 h3, hW, hD, hX⟩, rfl⟩
  · rintro ⟨hN, neg, w, d, h, m, sec, ⟨p, W, D, X, rfl, hp, hst, hW, hD, hX⟩, rfl⟩
    refine inRun_seq.2 ⟨[(1, if neg then ['-'] else [])], _, (inRun_grp' rfl hsgn).2 ⟨_, rfl, ⟨neg, rfl⟩, rfl⟩, ?_⟩
    refine inRun_seq.2 ⟨_, _, (inRun_bare rfl).2 ⟨rfl, lang_cls.2 ⟨p, (isP_iff p).2 hp, rfl⟩⟩, ?_⟩
    refine inRun_seq.2 ⟨_, _, (inRun_look rfl).2 ⟨rfl, rfl, startsDur_iff.1 hst⟩, ?_⟩
    refine inRun_seq.2 ⟨_, _, (inRun_unit isW_iff).2 ⟨W, w, rfl, hW, rfl⟩, ?_⟩
    refine inRun_seq.2 ⟨_, _, (inRun_unit isD_iff).2 ⟨D, d, rfl, hD, rfl⟩, ?_⟩
    exact inRun_seq.2 ⟨_, _, inRun_clockPart.2 ⟨X, h, m, sec, rfl, hX, rfl⟩, (inRun_bare rfl).2 ⟨rfl, lang_eol.2 ⟨rfl, hN⟩⟩⟩

/-! ## Uniqueness -/

/-- Digits followed by one of `L` come first. -/
def Leads (u : UDB) (L : List Char) (s : Str) : Prop :=
  ∃ ds l r, ds ≠ [] ∧ (∀ c ∈ ds, u.isDigit c = true) ∧ l ∈ L ∧ s = ds ++ l :: r

/-- Not digits. -/
def NoDigit (u : UDB) (L : List Char) : Prop := ∀ l ∈ L, u.isDigit l = false

theorem span_cons {ds ds' R R' : Str} {l l' : Char} (e : ds ++ l :: R = ds' ++ l' :: R')
    (hd : ∀ c ∈ ds, u.isDigit c = true) (hd' : ∀ c ∈ ds', u.isDigit c = true) (hl : u.isDigit l = false)
    (hl' : u.isDigit l' = false) : ds = ds' ∧ l = l' ∧ R = R' := by
  have := span_unique e hd hd' (by intro c r h; cases h; exact hl) (by intro c r h; cases h; exact hl')
  simpa using this

theorem leads_head {L : List Char} (h : Leads u L s) : ∃ a r, s = a :: r ∧ u.isDigit a = true := by
  obtain ⟨ds, l, r, hn, hd, _, rfl⟩ := h
  cases ds with
  | nil => exact absurd rfl hn
  | cons a ds => exact ⟨a, _, rfl, hd a (by simp)⟩

theorem leads_unit {L L' : List Char} {T R : Str} {v : Option Str} (hL : NoDigit u L) (hL' : NoDigit u L')
    (hdis : ∀ l ∈ L, l ∉ L') (h : UnitText u L' T v) (hl : Leads u L (T ++ R)) : Leads u L R := by
  rcases h with ⟨rfl, _⟩ | ⟨ds, l, hn, hd, hl', rfl, _⟩
  · exact hl
  · obtain ⟨ds', l2, r, hn2, hd2, hl2, e⟩ := hl
    obtain ⟨_, rfl, _⟩ := span_cons (l := l) (R := R) (by rw [← e]; simp) hd hd2 (hL' l hl') (hL l2 hl2)
    exact absurd hl' (hdis _ hl2)

theorem unit_unique {L : List Char} {T T' R R' : Str} {v v' : Option Str} (hL : NoDigit u L) (e : T ++ R = T' ++ R')
    (h : UnitText u L T v) (h' : UnitText u L T' v') (hR : ¬ Leads u L R) (hR' : ¬ Leads u L R') : v = v' ∧ R = R' := by
  rcases h with ⟨rfl, rfl⟩ | ⟨ds, l, hn, hd, hl, rfl, rfl⟩ <;> rcases h' with ⟨rfl, rfl⟩ | ⟨ds', l', hn', hd', hl', rfl, rfl⟩
  · exact ⟨rfl, e⟩
  · exact absurd ⟨ds', l', R', hn', hd', hl', by simpa using e⟩ hR
  · exact absurd ⟨ds, l, R, hn, hd, hl, by simpa using e.symm⟩ hR'
  · obtain ⟨rfl, rfl, rfl⟩ := span_cons (l := l) (l' := l') (R := R) (R' := R') (by simpa using e) hd hd' (hL _ hl) (hL _ hl')
    exact ⟨rfl, rfl⟩

theorem noDigit_ascii {L : List Char} (h : ∀ l ∈ L, l.toNat < 128 ∧ ¬ (48 ≤ l.toNat ∧ l.toNat ≤ 57)) : NoDigit u L :=
  fun l hl => isDigit_not (h l hl).1 (h l hl).2

theorem nd_wW : NoDigit u ['w', 'W'] := noDigit_ascii (by decide)
theorem nd_dD : NoDigit u ['d', 'D'] := noDigit_ascii (by decide)
theorem nd_hH : NoDigit u ['h', 'H'] := noDigit_ascii (by decide)
theorem nd_mM : NoDigit u ['m', 'M'] := noDigit_ascii (by decide)
theorem nd_tT : NoDigit u ['t', 'T'] := noDigit_ascii (by decide)
theorem nd_s : NoDigit u ['s', 'S', 'ſ'] := by
  intro l hl
  simp only [List.mem_cons, List.not_mem_nil, or_false] at hl
  rcases hl with rfl | rfl | rfl
  · exact isDigit_not (by decide) (by decide)
  · exact isDigit_not (by decide) (by decide)
  · simp [UDB.isDigit, u.digit_long_s]

theorem end_head {N : Str} (h : End N) (a : Char) (r : Str) (e : N = a :: r) : a = '\n' := by
  rcases h with rfl | rfl <;> simp at e
  exact e.1.symm

theorem leads_end {N : Str} {L : List Char} (h : End N) : ¬ Leads u L N := by
  intro hl
  obtain ⟨a, r, rfl, ha⟩ := leads_head hl
  have := end_head h a r rfl
  subst this
  rw [isDigit_not (by decide) (by decide)] at ha
  cases ha

theorem leads_sec {L : List Char} {T R : Str} {v : Option Str} (hL : NoDigit u L)
    (hdis : ∀ l ∈ L, l ∉ ['s', 'S', 'ſ', '.']) (h : SecText u T v) (hl : Leads u L (T ++ R)) : Leads u L R := by
  rcases h with ⟨rfl, _⟩ | ⟨ds, F, fr, l, hn, hd, hF, hl', rfl, _⟩
  · exact hl
  · exfalso
    obtain ⟨ds', l2, r, hn2, hd2, hl2, e⟩ := hl
    rcases hF with ⟨rfl, _⟩ | ⟨fs, hfn, hfd, rfl, _⟩
    · obtain ⟨_, rfl, _⟩ := span_cons (l := l) (R := R) (by rw [← e]; simp) hd hd2 (nd_s l hl') (hL l2 hl2)
      exact hdis _ hl2 (by revert hl'; simp; rintro (rfl | rfl | rfl) <;> simp)
    · obtain ⟨_, rfl, _⟩ := span_cons (l := '.') (R := fs ++ l :: R) (by rw [← e]; simp) hd hd2
        (isDigit_not (by decide) (by decide)) (hL l2 hl2)
      exact hdis _ hl2 (by simp)

theorem sec_unique {T T' R R' : Str} {v v' : Option Str} (e : T ++ R = T' ++ R')
    (h : SecText u T v) (h' : SecText u T' v') (hR : End R) (hR' : End R') : v = v' ∧ R = R' := by
  have hd0 : u.isDigit '.' = false := isDigit_not (by decide) (by decide)
  have none_some : ∀ {R ds F : Str} {l : Char} {R' : Str}, End R → ds ≠ [] → (∀ c ∈ ds, u.isDigit c = true) →
      R = ds ++ (F ++ l :: R') → False := by
    intro R ds F l R' hR hn hd e
    cases ds with
    | nil => exact hn rfl
    | cons a ds =>
      have := end_head hR a _ e
      subst this
      have := hd '\n' (by simp)
      rw [isDigit_not (by decide) (by decide)] at this
      cases this
  rcases h with ⟨rfl, rfl⟩ | ⟨ds, F, fr, l, hn, hd, hF, hl, rfl, rfl⟩ <;>
    rcases h' with ⟨rfl, rfl⟩ | ⟨ds', F', fr', l', hn', hd', hF', hl', rfl, rfl⟩
  · exact ⟨rfl, e⟩
  · exact (none_some hR hn' hd' (by simpa using e)).elim
  · exact (none_some hR' hn hd (by simpa using e.symm)).elim
  · have ndot : ∀ x ∈ ['s', 'S', 'ſ'], x ≠ '.' := by decide
    rcases hF with ⟨rfl, _⟩ | ⟨fs, hfn, hfd, rfl, _⟩ <;> rcases hF' with ⟨rfl, _⟩ | ⟨fs', hfn', hfd', rfl, _⟩
    · obtain ⟨rfl, _, rfl⟩ := span_cons (l := l) (l' := l') (R := R) (R' := R') (by simpa using e) hd hd' (nd_s _ hl) (nd_s _ hl')
      exact ⟨rfl, rfl⟩
    · obtain ⟨_, e2, _⟩ := span_cons (l := l) (l' := '.') (R := R) (R' := fs' ++ l' :: R') (by simpa using e) hd hd' (nd_s _ hl) hd0
      exact absurd e2 (ndot _ hl)
    · obtain ⟨_, e2, _⟩ := span_cons (l := '.') (l' := l') (R := fs ++ l :: R) (R' := R') (by simpa using e) hd hd' hd0 (nd_s _ hl')
      exact absurd e2.symm (ndot _ hl')
    · obtain ⟨rfl, _, e2⟩ := span_cons (l := '.') (l' := '.') (R := fs ++ l :: R) (R' := fs' ++ l' :: R') (by simpa using e) hd hd' hd0 hd0
      obtain ⟨rfl, _, rfl⟩ := span_cons e2 hfd hfd' (nd_s _ hl) (nd_s _ hl')
      exact ⟨rfl, rfl⟩

theorem leads_clock {L : List Char} {X N : Str} {h m sec : Option Str} (hX : ClockPart u X h m sec)
    (hN : End N) : ¬ Leads u L (X ++ N) := by
  rcases hX with ⟨rfl, _⟩ | ⟨a, H, M, S, ha, rfl, _⟩
  · exact leads_end hN
  · intro hl
    obtain ⟨b, r, e, hb⟩ := leads_head hl
    cases e
    rw [nd_tT _ ha] at hb; cases hb

theorem clockPart_unique {X X' N N' : Str} {h m sec h' m' sec' : Option Str} (e : X ++ N = X' ++ N')
    (hX : ClockPart u X h m sec) (hX' : ClockPart u X' h' m' sec') (hN : End N) (hN' : End N') :
    h = h' ∧ m = m' ∧ sec = sec' ∧ N = N' := by
  have nn : ∀ a ∈ ['t', 'T'], a ≠ '\n' := by decide
  rcases hX with ⟨rfl, rfl, rfl, rfl⟩ | ⟨a, H, M, S, ha, rfl, hH, hM, hS⟩ <;>
    rcases hX' with ⟨rfl, rfl, rfl, rfl⟩ | ⟨a', H', M', S', ha', rfl, hH', hM', hS'⟩
  · exact ⟨rfl, rfl, rfl, e⟩
  · exact absurd (end_head hN a' _ e) (nn _ ha')
  · exact absurd (end_head hN' a _ e.symm) (nn _ ha)
  · simp only [List.cons_append, List.append_assoc, List.cons.injEq] at e
    have lS : ∀ {L : List Char} {S N : Str} {v : Option Str}, NoDigit u L → (∀ l ∈ L, l ∉ ['s', 'S', 'ſ', '.']) → SecText u S v →
        End N → ¬ Leads u L (S ++ N) := fun h1 h2 h3 h4 h5 => leads_end h4 (leads_sec h1 h2 h3 h5)
    have lM : ∀ {S N M : Str} {v m : Option Str}, UnitText u ['m', 'M'] M m → SecText u S v →
        End N → ¬ Leads u ['h', 'H'] (M ++ (S ++ N)) := fun h1 h2 h3 h5 =>
      lS nd_hH (by decide) h2 h3 (leads_unit nd_hH nd_mM (by decide) h1 h5)
    obtain ⟨rfl, e2⟩ := unit_unique nd_hH e.2 hH hH' (lM hM hS hN) (lM hM' hS' hN')
    obtain ⟨rfl, e3⟩ := unit_unique nd_mM e2 hM hM' (lS nd_mM (by decide) hS hN) (lS nd_mM (by decide) hS' hN')
    obtain ⟨rfl, e4⟩ := sec_unique e3 hS hS' hN hN'
    exact ⟨rfl, rfl, rfl, e4⟩

theorem dur_unique {N N' : Str} {neg neg' : Bool} {w d h m sec w' d' h' m' sec' : Option Str}
    (h1 : DurText u s N neg w d h m sec) (h2 : DurText u s N' neg' w' d' h' m' sec') (hN : End N) (hN' : End N') :
    neg = neg' ∧ w = w' ∧ d = d' ∧ h = h' ∧ m = m' ∧ sec = sec' ∧ N = N' := by
  obtain ⟨p, W, D, X, rfl, hp, _, hW, hD, hX⟩ := h1
  obtain ⟨p', W', D', X', e, hp', _, hW', hD', hX'⟩ := h2
  have np : ∀ a ∈ ['p', 'P'], a ≠ '-' := by decide
  have e0 : neg = neg' ∧ W ++ (D ++ (X ++ N)) = W' ++ (D' ++ (X' ++ N')) := by
    cases neg <;> cases neg' <;> simp at e
    · exact ⟨rfl, e.2⟩
    · exact absurd e.1 (np _ hp)
    · exact absurd e.1.symm (np _ hp')
    · exact ⟨rfl, e.2⟩
  obtain ⟨rfl, e1⟩ := e0
  have lD : ∀ {D X N : Str} {d h m sec : Option Str}, UnitText u ['d', 'D'] D d → ClockPart u X h m sec → End N →
      ¬ Leads u ['w', 'W'] (D ++ (X ++ N)) := fun h1 h2 h3 h5 => leads_clock h2 h3 (leads_unit nd_wW nd_dD (by decide) h1 h5)
  obtain ⟨rfl, e2⟩ := unit_unique nd_wW e1 hW hW' (lD hD hX hN) (lD hD' hX' hN')
  obtain ⟨rfl, e3⟩ := unit_unique nd_dD e2 hD hD' (leads_clock hX hN) (leads_clock hX' hN')
  obtain ⟨rfl, rfl, rfl, e4⟩ := clockPart_unique e3 hX hX' hN hN'
  exact ⟨rfl, rfl, rfl, rfl, rfl, rfl, e4⟩

theorem group_dur {neg : Bool} {w d h m sec : Option Str} {t : Str} :
    group (durCaps neg w d h m sec, t) 1 = some (if neg then ['-'] else []) ∧ group (durCaps neg w d h m sec, t) 2 = w ∧
    group (durCaps neg w d h m sec, t) 3 = d ∧ group (durCaps neg w d h m sec, t) 4 = h ∧
    group (durCaps neg w d h m sec, t) 5 = m ∧ group (durCaps neg w d h m sec, t) 6 = sec := by
  refine ⟨?_, ?_, ?_, ?_, ?_, ?_⟩ <;> cases w <;> cases d <;> cases h <;> cases m <;> cases sec <;> rfl

theorem natOf_append (a : Str) (x : Char) : u.natOf (a ++ [x]) = u.natOf a * 10 + (u.digit x).getD 0 := by
  simp [UDB.natOf, List.foldl_append]

theorem digit_digitChar {n : Nat} (h : n < 10) : u.digit n.digitChar = some n := by
  have key : ∀ n < 10, '0' ≤ n.digitChar ∧ n.digitChar ≤ '9' ∧ n.digitChar.toNat - 48 = n := by decide
  obtain ⟨a, b, c⟩ := key n h
  rw [digit_of_range a b (by decide), c]

theorem natStr_digits (n : Nat) : (∀ c ∈ natStr n, u.isDigit c = true) ∧ u.natOf (natStr n) = n := by
  unfold natStr
  induction n using Nat.strongRecOn with
  | ind n ih =>
    by_cases h : n < 10
    · rw [Nat.toDigits_of_lt_base h]
      simp [UDB.isDigit, UDB.natOf, digit_digitChar h]
    · rw [Nat.toDigits_of_base_le (by decide) (by omega)]
      obtain ⟨h1, h2⟩ := ih (n / 10) (by omega)
      have h3 : n % 10 < 10 := by omega
      constructor
      · intro c hc
        simp only [List.mem_append, List.mem_singleton] at hc
        rcases hc with hc | rfl
        · exact h1 c hc
        · simp [UDB.isDigit, digit_digitChar h3]
      · rw [natOf_append, h2, digit_digitChar h3]; simp; omega

theorem unitText_spec (n : Nat) (l : Char) (Ls : List Char) (hl : l ∈ Ls) :
    UnitText u Ls (unitText n l) (if n = 0 then none else some (natStr n)) := by
  unfold unitText
  by_cases h : n = 0
  · simp [h, UnitText]
  · rw [if_neg h, if_neg h]
    exact .inr ⟨natStr n, l, Nat.toDigits_ne_nil, natStr_digits n |>.1, hl, rfl, rfl⟩

theorem intOr_natStr (n : Nat) (h : n < 10 ^ 4300) : intOr u (if n = 0 then none else some (natStr n)) = .ok n := by
  by_cases h0 : n = 0
  · simp [h0, intOr]
  · rw [if_neg h0, intOr, UDB.intText, if_neg, natStr_digits n |>.2]
    have := (Nat.length_toDigits_le_iff (b := 10) (n := n) (k := 4300) (by decide) (by decide)).2 h
    unfold natStr; omega

end Verif.Iso
