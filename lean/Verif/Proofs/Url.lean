import Verif.Proofs.Formats
/-! # The pattern of URLs -/

namespace Verif.Formats
open Verif Re Iso

variable {s t : Str} {u : UDB}

theorem inRun_nlook {r : Re} (h : bare r = true) {c c' : List (Nat × Str)} :
    InRun (nlook r) c s c' t ↔ c' = c ∧ t = s ∧ ¬ ∃ w, Lang r s w := by
  have key : (Re.run r (c, s)).isEmpty = true ↔ ¬ ∃ w, Lang r s w := by
    rw [List.isEmpty_iff]
    constructor
    · rintro hn ⟨w, hw⟩
      have := (inRun_bare h (c := c) (c' := c)).2 ⟨rfl, hw⟩
      simp [InRun, hn] at this
    · intro hn
      cases hr : Re.run r (c, s) with
      | nil => rfl
      | cons x xs => exact absurd ⟨x.2, lang_of_mem (bare_plain h) (c' := x.1) (by rw [hr]; simp)⟩ hn
  simp only [InRun, Re.run]
  split
  · rename_i he
    have := key.1 he
    simp [this]
  · rename_i he
    have : ∃ w, Lang r s w := by
      by_cases hw : ∃ w, Lang r s w
      · exact hw
      · exact absurd (key.2 hw) he
    simp [this]

theorem wideI_iff {c : Char} : wideI c = true ↔ WideLetter c := by
  simp [wideI, WideLetter, Letter, or_assoc]

theorem wideNumI_iff {c : Char} : wideNumI c = true ↔ WideLetter c ∨ c.isDigit = true ∨ c = '_' := by
  simp [wideNumI, wideI_iff, digitA_iff, or_assoc]

theorem lang_rng {a b : Char} : Lang (rng a b) s t ↔ ∃ c, a ≤ c ∧ c ≤ b ∧ s = c :: t := by
  simp [rng, and_assoc]

theorem lang_d13 : Lang (d13 u) s t ↔ ∃ T, s = T ++ t ∧ T ≠ [] ∧ T.length ≤ 3 ∧ ∀ c ∈ T, u.isDigit c = true := by
  simp only [d13, lang_seq, lang_cls, lang_upTo]
  constructor
  · rintro ⟨_, ⟨a, ha, rfl⟩, T, rfl, hl, hT⟩
    exact ⟨a :: T, rfl, by simp, by simp; omega, by simpa using ⟨ha, hT⟩⟩
  · rintro ⟨T, rfl, hn, hl, hT⟩
    cases T with
    | nil => exact absurd rfl hn
    | cons a T => exact ⟨_, ⟨a, hT a (by simp), rfl⟩, T, rfl, by simp at hl; omega, fun c hc => hT c (by simp [hc])⟩

theorem lang_octet1 : Lang (octet1 u) s t ↔ ∃ T, s = T ++ t ∧ Octet1 u T := by
  simp only [octet1, alts, seqs, lang_alt, lang_seq, lang_opt, lang_cls, lang_chr, lang_rng, Octet1]
  constructor
  · rintro (⟨_, ⟨a, h1, h2, rfl⟩, ⟨b, hb, rfl⟩ | rfl⟩ | ⟨_, rfl, _, ⟨b, hb, rfl⟩, c, hc, rfl⟩ |
      ⟨_, rfl, _, ⟨b, h1, h2, rfl⟩, c, hc, rfl⟩ | ⟨_, rfl, _, rfl, c, h1, h2, rfl⟩)
    · exact ⟨[a, b], rfl, .inl ⟨a, h1, h2, .inr ⟨b, hb, rfl⟩⟩⟩
    · exact ⟨[a], rfl, .inl ⟨a, h1, h2, .inl rfl⟩⟩
    · exact ⟨['1', b, c], rfl, .inr (.inl ⟨b, c, hb, hc, rfl⟩)⟩
    · exact ⟨['2', b, c], rfl, .inr (.inr (.inl ⟨b, c, h1, h2, hc, rfl⟩))⟩
    · exact ⟨['2', '2', c], rfl, .inr (.inr (.inr ⟨c, h1, h2, rfl⟩))⟩
  · rintro ⟨_, rfl, ⟨a, h1, h2, rfl | ⟨b, hb, rfl⟩⟩ | ⟨b, c, hb, hc, rfl⟩ | ⟨b, c, h1, h2, hc, rfl⟩ | ⟨c, h1, h2, rfl⟩⟩
    · exact .inl ⟨_, ⟨a, h1, h2, rfl⟩, .inr rfl⟩
    · exact .inl ⟨_, ⟨a, h1, h2, rfl⟩, .inl ⟨b, hb, rfl⟩⟩
    · exact .inr (.inl ⟨_, rfl, _, ⟨b, hb, rfl⟩, c, hc, rfl⟩)
    · exact .inr (.inr (.inl ⟨_, rfl, _, ⟨b, h1, h2, rfl⟩, c, hc, rfl⟩))
    · exact .inr (.inr (.inr ⟨_, rfl, _, rfl, c, h1, h2, rfl⟩))

theorem lang_octet4 : Lang (octet4 u) s t ↔ ∃ T, s = T ++ t ∧ Octet4 u T := by
  simp only [octet4, alts, seqs, lang_alt, lang_seq, lang_opt, lang_cls, lang_chr, lang_rng, Octet4]
  constructor
  · rintro (⟨_, ⟨a, h1, h2, rfl⟩, ⟨b, hb, rfl⟩ | rfl⟩ | ⟨_, rfl, _, ⟨b, hb, rfl⟩, c, hc, rfl⟩ |
      ⟨_, rfl, _, ⟨b, h1, h2, rfl⟩, c, hc, rfl⟩ | ⟨_, rfl, _, rfl, c, h1, h2, rfl⟩)
    · exact ⟨[a, b], rfl, .inl ⟨a, h1, h2, .inr ⟨b, hb, rfl⟩⟩⟩
    · exact ⟨[a], rfl, .inl ⟨a, h1, h2, .inl rfl⟩⟩
    · exact ⟨['1', b, c], rfl, .inr (.inl ⟨b, c, hb, hc, rfl⟩)⟩
    · exact ⟨['2', b, c], rfl, .inr (.inr (.inl ⟨b, c, h1, h2, hc, rfl⟩))⟩
    · exact ⟨['2', '5', c], rfl, .inr (.inr (.inr ⟨c, h1, h2, rfl⟩))⟩
  · rintro ⟨_, rfl, ⟨a, h1, h2, rfl | ⟨b, hb, rfl⟩⟩ | ⟨b, c, hb, hc, rfl⟩ | ⟨b, c, h1, h2, hc, rfl⟩ | ⟨c, h1, h2, rfl⟩⟩
    · exact .inl ⟨_, ⟨a, h1, h2, rfl⟩, .inr rfl⟩
    · exact .inl ⟨_, ⟨a, h1, h2, rfl⟩, .inl ⟨b, hb, rfl⟩⟩
    · exact .inr (.inl ⟨_, rfl, _, ⟨b, hb, rfl⟩, c, hc, rfl⟩)
    · exact .inr (.inr (.inl ⟨_, rfl, _, ⟨b, h1, h2, rfl⟩, c, hc, rfl⟩))
    · exact .inr (.inr (.inr ⟨_, rfl, _, rfl, c, h1, h2, rfl⟩))

theorem lang_octet2 : Lang (octet2 u) s t ↔ ∃ T, s = T ++ t ∧ Octet2 u T := by
  simp only [octet2, alts, seqs, lang_alt, lang_seq, lang_opt, lang_cls, lang_chr, lang_rng, Octet2]
  constructor
  · rintro (⟨_, rfl | rfl, _, ⟨b, hb, rfl⟩, ⟨c, hc, rfl⟩ | rfl⟩ |
      ⟨_, rfl, _, ⟨b, h1, h2, rfl⟩, c, hc, rfl⟩ | ⟨_, rfl, _, rfl, c, h1, h2, rfl⟩)
    · exact ⟨['1', b, c], rfl, .inr (.inl ⟨b, c, hb, hc, .inr rfl⟩)⟩
    · exact ⟨['1', b], rfl, .inr (.inl ⟨'1', b, isDigit_iff.2 ⟨_, digit_of_range (hi := '1') (by decide) (by decide) (by decide)⟩, hb, .inl rfl⟩)⟩
    · exact ⟨[b, c], rfl, .inr (.inl ⟨b, c, hb, hc, .inl rfl⟩)⟩
    · exact ⟨[b], rfl, .inl ⟨b, hb, rfl⟩⟩
    · exact ⟨['2', b, c], rfl, .inr (.inr (.inl ⟨b, c, h1, h2, hc, rfl⟩))⟩
    · exact ⟨['2', '5', c], rfl, .inr (.inr (.inr ⟨c, h1, h2, rfl⟩))⟩
  · rintro ⟨_, rfl, ⟨b, hb, rfl⟩ | ⟨b, c, hb, hc, rfl | rfl⟩ | ⟨b, c, h1, h2, hc, rfl⟩ | ⟨c, h1, h2, rfl⟩⟩
    · exact .inl ⟨_, .inr rfl, _, ⟨b, hb, rfl⟩, .inr rfl⟩
    · exact .inl ⟨_, .inr rfl, _, ⟨b, hb, rfl⟩, .inl ⟨c, hc, rfl⟩⟩
    · exact .inl ⟨_, .inl rfl, _, ⟨b, hb, rfl⟩, .inl ⟨c, hc, rfl⟩⟩
    · exact .inr (.inl ⟨_, rfl, _, ⟨b, h1, h2, rfl⟩, c, hc, rfl⟩)
    · exact .inr (.inr ⟨_, rfl, _, rfl, c, h1, h2, rfl⟩)

/-- One to three digits. -/
def Short (u : UDB) (T : Str) : Prop := T ≠ [] ∧ T.length ≤ 3 ∧ ∀ c ∈ T, u.isDigit c = true

theorem rng_digit {lo hi c : Char} (h1 : lo ≤ c) (h2 : c ≤ hi) (h3 : '0' ≤ lo) (h4 : hi ≤ '9') : u.isDigit c = true := by
  simp only [char_le] at *
  exact isDigit_iff.2 ⟨_, digit_of_range (hi := '9') (by rw [char_le]; omega) (by rw [char_le]; omega) (by decide)⟩

theorem short_octet1 {T : Str} (h : Octet1 u T) : Short u T := by
  have d1 : u.isDigit '1' = true := rng_digit (lo := '1') (hi := '1') (by decide) (by decide) (by decide) (by decide)
  have d2 : u.isDigit '2' = true := rng_digit (lo := '2') (hi := '2') (by decide) (by decide) (by decide) (by decide)
  rcases h with ⟨a, h1, h2, rfl | ⟨b, hb, rfl⟩⟩ | ⟨b, c, hb, hc, rfl⟩ | ⟨b, c, h1, h2, hc, rfl⟩ | ⟨c, h1, h2, rfl⟩
  · exact ⟨by simp, by simp, by simpa using rng_digit h1 h2 (by decide) (by decide)⟩
  · exact ⟨by simp, by simp, by simpa using ⟨rng_digit h1 h2 (by decide) (by decide), hb⟩⟩
  · exact ⟨by simp, by simp, by simp [d1, hb, hc]⟩
  · exact ⟨by simp, by simp, by simp [d2, hc, rng_digit (u := u) h1 h2 (by decide) (by decide)]⟩
  · exact ⟨by simp, by simp, by simp [d2, rng_digit (u := u) h1 h2 (by decide) (by decide)]⟩

theorem short_octet2 {T : Str} (h : Octet2 u T) : Short u T := by
  have d1 : u.isDigit '1' = true := rng_digit (lo := '1') (hi := '1') (by decide) (by decide) (by decide) (by decide)
  have d2 : u.isDigit '2' = true := rng_digit (lo := '2') (hi := '2') (by decide) (by decide) (by decide) (by decide)
  have d5 : u.isDigit '5' = true := rng_digit (lo := '5') (hi := '5') (by decide) (by decide) (by decide) (by decide)
  rcases h with ⟨b, hb, rfl⟩ | ⟨b, c, hb, hc, rfl | rfl⟩ | ⟨b, c, h1, h2, hc, rfl⟩ | ⟨c, h1, h2, rfl⟩
  · exact ⟨by simp, by simp, by simpa using hb⟩
  · exact ⟨by simp, by simp, by simpa using ⟨hb, hc⟩⟩
  · exact ⟨by simp, by simp, by simp [d1, hb, hc]⟩
  · exact ⟨by simp, by simp, by simp [d2, hc, rng_digit (u := u) h1 h2 (by decide) (by decide)]⟩
  · exact ⟨by simp, by simp, by simp [d2, d5, rng_digit (u := u) h1 h2 (by decide) (by decide)]⟩

theorem short_octet4 {T : Str} (h : Octet4 u T) : Short u T := by
  have d1 : u.isDigit '1' = true := rng_digit (lo := '1') (hi := '1') (by decide) (by decide) (by decide) (by decide)
  have d2 : u.isDigit '2' = true := rng_digit (lo := '2') (hi := '2') (by decide) (by decide) (by decide) (by decide)
  have d5 : u.isDigit '5' = true := rng_digit (lo := '5') (hi := '5') (by decide) (by decide) (by decide) (by decide)
  rcases h with ⟨a, h1, h2, rfl | ⟨b, hb, rfl⟩⟩ | ⟨b, c, hb, hc, rfl⟩ | ⟨b, c, h1, h2, hc, rfl⟩ | ⟨c, h1, h2, rfl⟩
  · exact ⟨by simp, by simp, by simpa using rng_digit h1 h2 (by decide) (by decide)⟩
  · exact ⟨by simp, by simp, by simpa using ⟨rng_digit h1 h2 (by decide) (by decide), hb⟩⟩
  · exact ⟨by simp, by simp, by simp [d1, hb, hc]⟩
  · exact ⟨by simp, by simp, by simp [d2, hc, rng_digit (u := u) h1 h2 (by decide) (by decide)]⟩
  · exact ⟨by simp, by simp, by simp [d2, d5, rng_digit (u := u) h1 h2 (by decide) (by decide)]⟩

theorem dot_not_digit : u.isDigit '.' = false := isDigit_not (by decide) (by decide)

/-- Digits up to a point are determined. -/
theorem upto_dot {A A' R R' : Str} (h : A ++ '.' :: R = A' ++ '.' :: R') (hA : ∀ c ∈ A, u.isDigit c = true)
    (hA' : ∀ c ∈ A', u.isDigit c = true) : A = A' ∧ R = R' := by
  induction A generalizing A' with
  | nil =>
    cases A' with
    | nil => simpa using h
    | cons x A' =>
      simp at h
      have := hA' '.' (by rw [h.1]; simp)
      rw [dot_not_digit] at this; cases this
  | cons y A ih =>
    cases A' with
    | nil =>
      simp at h
      have := hA '.' (by rw [← h.1]; simp)
      rw [dot_not_digit] at this; cases this
    | cons x A' =>
      simp at h
      obtain ⟨rfl, h⟩ := h
      obtain ⟨rfl, rfl⟩ := ih h (fun c hc => hA c (by simp [hc])) (fun c hc => hA' c (by simp [hc]))
      exact ⟨rfl, rfl⟩

theorem lang_dot : Lang (seq (chr '.') (d13 u)) s t ↔ ∃ T, s = '.' :: (T ++ t) ∧ Short u T := by
  simp only [lang_seq, lang_chr, lang_d13, Short]
  constructor
  · rintro ⟨_, rfl, T, rfl, hT⟩; exact ⟨T, rfl, hT⟩
  · rintro ⟨T, rfl, hT⟩; exact ⟨_, rfl, T, rfl, hT⟩

theorem ascii_digits {T : Str} (h : ∀ c ∈ T, '0' ≤ c ∧ c ≤ '9') : ∀ c ∈ T, u.isDigit c = true :=
  fun c hc => rng_digit (h c hc).1 (h c hc).2 (by decide) (by decide)

/-- A first number, then at least three more. -/
theorem look_three {p A B C D R : Str} (hp : ∀ c ∈ p, '0' ≤ c ∧ c ≤ '9') (hA : Short u A) (hB : Short u B) (hC : Short u C)
    (hD : Short u D) :
    (∃ w, Lang (seq (lit p) (dots u 3)) (A ++ '.' :: (B ++ '.' :: (C ++ '.' :: (D ++ R)))) w) ↔ A = p := by
  simp only [dots, rep, lang_seq (r := lit _), lang_seq (r := seq _ _), lang_dot, lang_lit, lang_eps]
  constructor
  · rintro ⟨w, _, e, _, ⟨T, rfl, hT⟩, _⟩
    exact (upto_dot e hA.2.2 (ascii_digits hp)).1
  · rintro rfl
    exact ⟨R, _, rfl, _, ⟨B, rfl, hB⟩, _, ⟨C, rfl, hC⟩, _, ⟨D, rfl, hD⟩, rfl⟩

/-- Two numbers, then at least two more. -/
theorem look_two {r : Re} {P : Str → Prop} {p0 : Str} (hr : ∀ {s t : Str}, Lang r s t ↔ ∃ p q, P q ∧ s = p ++ '.' :: (q ++ t) ∧ p = p0)
    {A B C D R : Str} (hp : ∀ c ∈ p0, '0' ≤ c ∧ c ≤ '9') (hq : ∀ q, P q → ∀ c ∈ q, u.isDigit c = true)
    (hA : Short u A) (hB : Short u B) (hC : Short u C) (hD : Short u D) :
    (∃ w, Lang (seq r (dots u 2)) (A ++ '.' :: (B ++ '.' :: (C ++ '.' :: (D ++ R)))) w) ↔ A = p0 ∧ P B := by
  simp only [dots, rep, lang_seq (r := r), lang_seq (r := seq _ _), lang_dot, hr, lang_eps]
  constructor
  · rintro ⟨w, _, ⟨p, q, hPq, e, rfl⟩, _, ⟨T, rfl, hT⟩, _⟩
    obtain ⟨rfl, e1⟩ := upto_dot e hA.2.2 (ascii_digits hp)
    obtain ⟨rfl, e2⟩ := upto_dot e1 hB.2.2 (hq q hPq)
    exact ⟨rfl, hPq⟩
  · rintro ⟨rfl, hPB⟩
    exact ⟨R, _, ⟨A, B, hPB, rfl, rfl⟩, _, ⟨C, rfl, hC⟩, _, ⟨D, rfl, hD⟩, rfl⟩

theorem lang_lit2 {p q : Str} : Lang (lit (p ++ '.' :: q)) s t ↔ ∃ p' q', q' = q ∧ s = p' ++ '.' :: (q' ++ t) ∧ p' = p := by
  rw [lang_lit]
  constructor
  · rintro rfl; exact ⟨p, q, rfl, by simp, rfl⟩
  · rintro ⟨_, _, rfl, rfl, rfl⟩; simp

/-- The third kind of private address. -/
def P172 (u : UDB) (B : Str) : Prop :=
  (∃ c, '6' ≤ c ∧ c ≤ '9' ∧ B = ['1', c]) ∨ (∃ c, u.isDigit c ∧ B = ['2', c]) ∨ ∃ c, '0' ≤ c ∧ c ≤ '1' ∧ B = ['3', c]

theorem lang_172 : Lang (seq (lit c!"172.") (alts [seq (chr '1') (rng '6' '9'), seq (chr '2') (cls u.isDigit), seq (chr '3') (rng '0' '1')])) s t ↔
    ∃ p q, P172 u q ∧ s = p ++ '.' :: (q ++ t) ∧ p = c!"172" := by
  simp only [alts, lang_seq, lang_alt, lang_lit, lang_chr, lang_cls, lang_rng, P172]
  constructor
  · rintro ⟨_, rfl, ⟨_, rfl, c, h1, h2, rfl⟩ | ⟨_, rfl, c, h1, rfl⟩ | ⟨_, rfl, c, h1, h2, rfl⟩⟩
    · exact ⟨_, ['1', c], .inl ⟨c, h1, h2, rfl⟩, rfl, rfl⟩
    · exact ⟨_, ['2', c], .inr (.inl ⟨c, h1, rfl⟩), rfl, rfl⟩
    · exact ⟨_, ['3', c], .inr (.inr ⟨c, h1, h2, rfl⟩), rfl, rfl⟩
  · rintro ⟨_, _, ⟨c, h1, h2, rfl⟩ | ⟨c, h1, rfl⟩ | ⟨c, h1, h2, rfl⟩, rfl, rfl⟩
    · exact ⟨_, rfl, .inl ⟨_, rfl, c, h1, h2, rfl⟩⟩
    · exact ⟨_, rfl, .inr (.inl ⟨_, rfl, c, h1, rfl⟩)⟩
    · exact ⟨_, rfl, .inr (.inr ⟨_, rfl, c, h1, h2, rfl⟩)⟩

theorem digits_172 {B : Str} (h : P172 u B) : ∀ c ∈ B, u.isDigit c = true := by
  have d : ∀ c, '0' ≤ c → c ≤ '9' → u.isDigit c = true := fun c h1 h2 => rng_digit h1 h2 (by decide) (by decide)
  rcases h with ⟨c, h1, h2, rfl⟩ | ⟨c, h1, rfl⟩ | ⟨c, h1, h2, rfl⟩
  · simp [d '1' (by decide) (by decide), rng_digit (u := u) h1 h2 (by decide) (by decide)]
  · simp [d '2' (by decide) (by decide), h1]
  · simp [d '3' (by decide) (by decide), rng_digit (u := u) h1 h2 (by decide) (by decide)]

theorem lang_assoc {a b c : Re} : Lang (seq a (seq b c)) s t ↔ Lang (seq (seq a b) c) s t := by
  simp only [lang_seq]
  constructor
  · rintro ⟨x, h1, y, h2, h3⟩; exact ⟨y, ⟨x, h1, h2⟩, h3⟩
  · rintro ⟨y, ⟨x, h1, h2⟩, h3⟩; exact ⟨x, h1, y, h2, h3⟩

/-- The address branch. -/
theorem inRun_ip {c c' : List (Nat × Str)} : InRun (urlIpRe u) c s c' t ↔ c' = c ∧ ∃ h, s = h ++ t ∧ UrlAddress u h := by
  have octets : ∀ {s t : Str}, Lang (seqs [octet1 u, rep (seq (chr '.') (octet2 u)) 2, seq (chr '.') (octet4 u)]) s t ↔
      ∃ A B C D, Octet1 u A ∧ Octet2 u B ∧ Octet2 u C ∧ Octet4 u D ∧ s = A ++ '.' :: (B ++ '.' :: (C ++ '.' :: (D ++ t))) := by
    intro s t
    simp only [seqs, rep, lang_seq, lang_octet1, lang_octet2, lang_octet4, lang_chr, lang_eps]
    constructor
    · rintro ⟨_, ⟨A, rfl, hA⟩, _, ⟨_, ⟨_, rfl, B, rfl, hB⟩, _, ⟨_, rfl, C, rfl, hC⟩, rfl⟩, _, rfl, D, rfl, hD⟩
      exact ⟨A, B, C, D, hA, hB, hC, hD, rfl⟩
    · rintro ⟨A, B, C, D, hA, hB, hC, hD, rfl⟩
      exact ⟨_, ⟨A, rfl, hA⟩, _, ⟨_, ⟨_, rfl, B, rfl, hB⟩, _, ⟨_, rfl, C, rfl, hC⟩, rfl⟩, _, rfl, D, rfl, hD⟩
  have e : urlIpRe u = seq (nlook (seq (lit c!"10") (dots u 3))) (seq (nlook (seq (lit c!"127") (dots u 3)))
      (seq (nlook (seq (lit c!"169.254") (dots u 2))) (seq (nlook (seq (lit c!"192.168") (dots u 2)))
      (seq (nlook (seqs [lit c!"172.", alts [seq (chr '1') (rng '6' '9'), seq (chr '2') (cls u.isDigit), seq (chr '3') (rng '0' '1')], dots u 2]))
        (seqs [octet1 u, rep (seq (chr '.') (octet2 u)) 2, seq (chr '.') (octet4 u)]))))) := rfl
  rw [e]
  have ib : ∀ {c c' : List (Nat × Str)} {s t : Str}, InRun (seqs [octet1 u, rep (seq (chr '.') (octet2 u)) 2, seq (chr '.') (octet4 u)]) c s c' t ↔
      c' = c ∧ _ := inRun_bare rfl
  simp only [inRun_seq (r := nlook _), inRun_nlook (r := seq (lit c!"10") (dots u 3)) rfl,
    inRun_nlook (r := seq (lit c!"127") (dots u 3)) rfl, inRun_nlook (r := seq (lit c!"169.254") (dots u 2)) rfl,
    inRun_nlook (r := seq (lit c!"192.168") (dots u 2)) rfl, inRun_nlook (r := seqs [lit c!"172.", alts [seq (chr '1') (rng '6' '9'), seq (chr '2') (cls u.isDigit), seq (chr '3') (rng '0' '1')], dots u 2]) rfl,
    ib, octets]
  have looks : ∀ {A B C D R : Str}, Short u A → Short u B → Short u C → Short u D →
      (((¬ ∃ w, Lang (seq (lit c!"10") (dots u 3)) (A ++ '.' :: (B ++ '.' :: (C ++ '.' :: (D ++ R)))) w) ∧
       (¬ ∃ w, Lang (seq (lit c!"127") (dots u 3)) (A ++ '.' :: (B ++ '.' :: (C ++ '.' :: (D ++ R)))) w) ∧
       (¬ ∃ w, Lang (seq (lit c!"169.254") (dots u 2)) (A ++ '.' :: (B ++ '.' :: (C ++ '.' :: (D ++ R)))) w) ∧
       (¬ ∃ w, Lang (seq (lit c!"192.168") (dots u 2)) (A ++ '.' :: (B ++ '.' :: (C ++ '.' :: (D ++ R)))) w) ∧
       (¬ ∃ w, Lang (seqs [lit c!"172.", alts [seq (chr '1') (rng '6' '9'), seq (chr '2') (cls u.isDigit), seq (chr '3') (rng '0' '1')], dots u 2])
        (A ++ '.' :: (B ++ '.' :: (C ++ '.' :: (D ++ R)))) w)) ↔ ¬ PrivateParts u A B) := by
    intro A B C D R hA hB hC hD
    have l1 := look_three (R := R) (p := c!"10") (by decide) hA hB hC hD
    have l2 := look_three (R := R) (p := c!"127") (by decide) hA hB hC hD
    have l3 := look_two (R := R) (P := (· = c!"254")) (lang_lit2 (p := c!"169") (q := c!"254")) (by decide)
      (by rintro _ rfl; exact ascii_digits (by decide)) hA hB hC hD
    have l4 := look_two (R := R) (P := (· = c!"168")) (lang_lit2 (p := c!"192") (q := c!"168")) (by decide)
      (by rintro _ rfl; exact ascii_digits (by decide)) hA hB hC hD
    have l5 := look_two (R := R) (P := P172 u) lang_172 (by decide) (fun _ => digits_172) hA hB hC hD
    rw [show (c!"169" ++ '.' :: c!"254" : Str) = c!"169.254" from rfl] at l3
    rw [show (c!"192" ++ '.' :: c!"168" : Str) = c!"192.168" from rfl] at l4
    simp only [seqs, lang_assoc (a := lit c!"172.")]
    rw [l1, l2, l3, l4, l5]
    simp only [PrivateParts, P172, not_or]
  constructor
  · rintro ⟨_, _, ⟨rfl, rfl, n1⟩, _, _, ⟨rfl, rfl, n2⟩, _, _, ⟨rfl, rfl, n3⟩, _, _, ⟨rfl, rfl, n4⟩, _, _, ⟨rfl, rfl, n5⟩, rfl,
      A, B, C, D, hA, hB, hC, hD, rfl⟩
    exact ⟨rfl, A ++ '.' :: (B ++ '.' :: (C ++ '.' :: D)), by simp, A, B, C, D, hA, hB, hC, hD,
      (looks (short_octet1 hA) (short_octet2 hB) (short_octet2 hC) (short_octet4 hD)).1 ⟨n1, n2, n3, n4, n5⟩, rfl⟩
  · rintro ⟨rfl, _, rfl, A, B, C, D, hA, hB, hC, hD, hn, rfl⟩
    obtain ⟨n1, n2, n3, n4, n5⟩ := (looks (R := t) (short_octet1 hA) (short_octet2 hB) (short_octet2 hC) (short_octet4 hD)).2 hn
    simp only [List.append_assoc, List.cons_append]
    exact ⟨_, _, ⟨rfl, rfl, n1⟩, _, _, ⟨rfl, rfl, n2⟩, _, _, ⟨rfl, rfl, n3⟩, _, _, ⟨rfl, rfl, n4⟩, _, _, ⟨rfl, rfl, n5⟩, rfl,
      A, B, C, D, hA, hB, hC, hD, rfl⟩

/-- A nonempty text of word characters. -/
def Word (W : Str) : Prop := W ≠ [] ∧ ∀ c ∈ W, WideLetter c ∨ c.isDigit = true ∨ c = '_'

theorem lang_word : Lang (plus (cls wideNumI)) s t ↔ ∃ T, s = T ++ t ∧ Word T := by
  simp only [lang_plus, wideNumI_iff, Word]

theorem join_cons {a : Char} (x : Str) (xs : List Str) (h : xs ≠ []) : strJoin [a] (x :: xs) = x ++ a :: strJoin [a] xs := by
  cases xs with
  | nil => exact absurd rfl h
  | cons y ys => simp [strJoin]

theorem lang_urlLabel : Lang urlLabelRe s t ↔ ∃ T, s = T ++ t ∧ UrlLabel T := by
  have piece : ∀ {s t : Str}, Lang (seq (plus (cls wideNumI)) (opt (chr '-'))) s t ↔ ∃ T, s = T ++ t ∧ ∃ W, Word W ∧ (T = W ∨ T = W ++ ['-']) := by
    intro s t
    simp only [lang_seq, lang_word, lang_opt, lang_chr]
    constructor
    · rintro ⟨_, ⟨W, rfl, hW⟩, rfl | rfl⟩
      · exact ⟨W ++ ['-'], by simp, W, hW, .inr rfl⟩
      · exact ⟨W, rfl, W, hW, .inl rfl⟩
    · rintro ⟨_, rfl, W, hW, rfl | rfl⟩
      · exact ⟨t, ⟨_, rfl, hW⟩, .inr rfl⟩
      · exact ⟨'-' :: t, ⟨W, by simp, hW⟩, .inl rfl⟩
  simp only [urlLabelRe, lang_seq (r := star _), lang_word]
  simp only [lang_star piece (by rintro _ ⟨W, hW, rfl | rfl⟩ <;> simp [hW.1])]
  constructor
  · rintro ⟨_, ⟨Ts, hTs, rfl⟩, V, rfl, hV⟩
    refine ⟨Ts.flatten ++ V, by simp, ?_⟩
    induction Ts with
    | nil => exact ⟨[V], by simp, by simpa [Word] using hV, by simp [strJoin]⟩
    | cons T Ts ih =>
      obtain ⟨Ws, hn, hWs, e⟩ := ih fun x hx => hTs x (by simp [hx])
      obtain ⟨W, hW, rfl | rfl⟩ := hTs T (by simp)
      · cases Ws with
        | nil => exact absurd rfl hn
        | cons X Ws =>
          refine ⟨(T ++ X) :: Ws, by simp, ?_, ?_⟩
          · intro Y hY
            rcases List.mem_cons.1 hY with rfl | hY
            · refine ⟨by simp [hW.1], fun c hc => ?_⟩
              rcases List.mem_append.1 hc with h | h
              · exact hW.2 c h
              · exact (hWs X (by simp)).2 c h
            · exact hWs Y (by simp [hY])
          · rw [List.flatten_cons, List.append_assoc, e]
            cases Ws <;> simp [strJoin]
      · refine ⟨W :: Ws, by simp, by simpa using ⟨hW, hWs⟩, ?_⟩
        rw [List.flatten_cons, List.append_assoc, e, join_cons W Ws hn]
        simp
  · rintro ⟨_, rfl, Ws, hn, hWs, rfl⟩
    induction Ws with
    | nil => exact absurd rfl hn
    | cons W Ws ih =>
      cases Ws with
      | nil => exact ⟨W ++ t, ⟨[], by simp, by simp [strJoin]⟩, W, rfl, hWs W (by simp)⟩
      | cons X Ws =>
        obtain ⟨r, ⟨Ts, hTs, e⟩, V, rfl, hV⟩ := ih (by simp) (fun Y hY => hWs Y (by simp [hY]))
        refine ⟨V ++ t, ⟨(W ++ ['-']) :: Ts, ?_, ?_⟩, V, rfl, hV⟩
        · intro T hT
          rcases List.mem_cons.1 hT with rfl | hT
          · exact ⟨W, hWs W (by simp), .inr rfl⟩
          · exact hTs T hT
        · rw [join_cons _ _ (by simp), List.append_assoc, List.cons_append, e]
          simp

theorem lang_urlName : Lang urlNameRe s t ↔ ∃ T, s = T ++ t ∧ UrlName T := by
  have e : urlNameRe = seq urlLabelRe (seq (star (seq (chr '.') urlLabelRe)) (seqs [chr '.', cls wideI, cls wideI, star (cls wideI)])) := rfl
  rw [e, lang_assoc, lang_seq]
  simp only [lang_dotted lang_urlLabel, seqs, lang_seq (r := chr '.'), lang_seq (r := cls _), lang_chr, lang_cls, lang_star_cls, wideI_iff]
  constructor
  · rintro ⟨_, ⟨_, rfl, Ls, hn, hL, rfl⟩, _, rfl, _, ⟨a, ha, rfl⟩, _, ⟨b, hb, rfl⟩, T, rfl, hT⟩
    exact ⟨strJoin c!"." Ls ++ '.' :: (a :: b :: T), by simp, Ls, a :: b :: T, hn, hL, by simp, by simpa using ⟨ha, hb, hT⟩, rfl⟩
  · rintro ⟨_, rfl, Ls, tld, hn, hL, h2, hT, rfl⟩
    match tld, h2 with
    | a :: b :: T, _ =>
      exact ⟨'.' :: a :: b :: (T ++ t), ⟨_, by simp, Ls, hn, hL, rfl⟩, _, rfl, _, ⟨a, hT a (by simp), rfl⟩, _, ⟨b, hT b (by simp), rfl⟩, T, rfl,
        fun c hc => hT c (by simp [hc])⟩

theorem lang_scheme : Lang urlSchemeRe s t ↔ ∃ sch, s = sch ++ (c!"://" ++ t) ∧ (AnyCase c!"http" sch ∨ AnyCase c!"https" sch ∨ AnyCase c!"ftp" sch) := by
  have ci_iff : ∀ {a b : Char} {s t : Str}, Lang (ci a b) s t ↔ ∃ c, (c = a ∨ c = b) ∧ s = c :: t := by
    intro a b s t; simp [ci]
  have any_cons : ∀ {a : Char} {w s : Str}, AnyCase (a :: w) s ↔ ∃ c r, (c = a ∨ c = a.toUpper ∨ (a = 's' ∧ c = '\u017f')) ∧ AnyCase w r ∧ s = c :: r := by
    intro a w s
    cases s with
    | nil => simp [AnyCase]
    | cons x s => simp only [AnyCase]; constructor
                  · rintro ⟨h1, h2⟩; exact ⟨x, s, h1, h2, rfl⟩
                  · rintro ⟨c, r, h1, h2, e⟩; cases e; exact ⟨h1, h2⟩
  have any_nil : ∀ {s : Str}, AnyCase [] s ↔ s = [] := by intro s; cases s <;> simp [AnyCase]
  simp only [urlSchemeRe, seqs, lang_seq, lang_alt, lang_opt, ci_iff, lang_cls, lang_lit, isS, any_cons, any_nil,
    show 'h'.toUpper = 'H' from by decide, show 't'.toUpper = 'T' from by decide, show 'p'.toUpper = 'P' from by decide,
    show 's'.toUpper = 'S' from by decide, show 'f'.toUpper = 'F' from by decide, show ('h' = 's') = False from by simp,
    show ('t' = 's') = False from by simp, show ('p' = 's') = False from by simp, show ('f' = 's') = False from by simp,
    false_and, or_false, true_and, Bool.or_eq_true, beq_iff_eq]
  constructor
  · rintro ⟨_, ⟨_, ⟨a, ha, rfl⟩, _, ⟨b, hb, rfl⟩, _, ⟨c, hc, rfl⟩, _, ⟨d, hd, rfl⟩, ⟨e, he, rfl⟩ | rfl⟩ |
      ⟨_, ⟨a, ha, rfl⟩, _, ⟨b, hb, rfl⟩, c, hc, rfl⟩, rfl⟩
    · exact ⟨[a, b, c, d, e], rfl, .inr (.inl ⟨a, _, ha, ⟨b, _, hb, ⟨c, _, hc, ⟨d, _, hd, ⟨e, _, by simpa [or_assoc] using he, rfl, rfl⟩, rfl⟩, rfl⟩, rfl⟩, rfl⟩)⟩
    · exact ⟨[a, b, c, d], rfl, .inl ⟨a, _, ha, ⟨b, _, hb, ⟨c, _, hc, ⟨d, _, hd, rfl, rfl⟩, rfl⟩, rfl⟩, rfl⟩⟩
    · exact ⟨[a, b, c], rfl, .inr (.inr ⟨a, _, ha, ⟨b, _, hb, ⟨c, _, hc, rfl, rfl⟩, rfl⟩, rfl⟩)⟩
  · rintro ⟨_, rfl, ⟨a, _, ha, ⟨b, _, hb, ⟨c, _, hc, ⟨d, _, hd, rfl, rfl⟩, rfl⟩, rfl⟩, rfl⟩ |
      ⟨a, _, ha, ⟨b, _, hb, ⟨c, _, hc, ⟨d, _, hd, ⟨e, _, he, rfl, rfl⟩, rfl⟩, rfl⟩, rfl⟩, rfl⟩ |
      ⟨a, _, ha, ⟨b, _, hb, ⟨c, _, hc, rfl, rfl⟩, rfl⟩, rfl⟩⟩
    · exact ⟨_, .inl ⟨_, ⟨a, ha, rfl⟩, _, ⟨b, hb, rfl⟩, _, ⟨c, hc, rfl⟩, _, ⟨d, hd, rfl⟩, .inr rfl⟩, rfl⟩
    · exact ⟨_, .inl ⟨_, ⟨a, ha, rfl⟩, _, ⟨b, hb, rfl⟩, _, ⟨c, hc, rfl⟩, _, ⟨d, hd, rfl⟩, .inl ⟨e, by simpa [or_assoc] using he, rfl⟩⟩, rfl⟩
    · exact ⟨_, .inr ⟨_, ⟨a, ha, rfl⟩, _, ⟨b, hb, rfl⟩, c, hc, rfl⟩, rfl⟩

theorem at_nonspace : u.space '@' = false ∧ u.space ':' = false := by
  constructor <;> (rw [u.space_ascii _ (by decide)]; decide)

theorem lang_user : Lang (opt (seqs [plus (nonSpace u), opt (seq (chr ':') (star (nonSpace u))), chr '@'])) s t ↔
    ∃ user, s = user ++ t ∧ (user = [] ∨ ∃ T, T ≠ [] ∧ (∀ c ∈ T, u.space c = false) ∧ user = T ++ ['@']) := by
  simp only [seqs, nonSpace, lang_opt, lang_seq (r := plus _), lang_seq (r := opt _), lang_seq (r := chr _), lang_plus, lang_chr,
    lang_star_cls]
  constructor
  · rintro (⟨_, ⟨T, rfl, hn, hT⟩, _, ⟨_, rfl, V, rfl, hV⟩ | rfl, rfl⟩ | rfl)
    · refine ⟨(T ++ ':' :: V) ++ ['@'], by simp, .inr ⟨T ++ ':' :: V, by simp, ?_, rfl⟩⟩
      intro c hc
      simp only [List.mem_append, List.mem_cons] at hc
      rcases hc with h | rfl | h
      · simpa using hT c h
      · exact at_nonspace.2
      · simpa using hV c h
    · exact ⟨T ++ ['@'], by simp, .inr ⟨T, hn, by simpa using hT, rfl⟩⟩
    · exact ⟨[], rfl, .inl rfl⟩
  · rintro ⟨_, rfl, rfl | ⟨T, hn, hT, rfl⟩⟩
    · exact .inr rfl
    · exact .inl ⟨'@' :: t, ⟨T, by simp, hn, by simpa using hT⟩, _, .inr rfl, rfl⟩

theorem lang_port : Lang (opt (seqs [chr ':', cls u.isDigit, cls u.isDigit, upTo (cls u.isDigit) 3])) s t ↔
    ∃ port, s = port ++ t ∧ (port = [] ∨ ∃ T, 2 ≤ T.length ∧ T.length ≤ 5 ∧ (∀ c ∈ T, u.isDigit c = true) ∧ port = ':' :: T) := by
  simp only [seqs, lang_opt, lang_seq (r := chr _), lang_seq (r := cls _), lang_chr, lang_cls, lang_upTo]
  constructor
  · rintro (⟨_, rfl, _, ⟨a, ha, rfl⟩, _, ⟨b, hb, rfl⟩, T, rfl, hl, hT⟩ | rfl)
    · exact ⟨':' :: a :: b :: T, rfl, .inr ⟨a :: b :: T, by simp, by simp; omega, by simpa using ⟨ha, hb, hT⟩, rfl⟩⟩
    · exact ⟨[], rfl, .inl rfl⟩
  · rintro ⟨_, rfl, rfl | ⟨T, h2, h5, hT, rfl⟩⟩
    · exact .inr rfl
    · match T, h2 with
      | a :: b :: T, _ =>
        exact .inl ⟨_, rfl, _, ⟨a, hT a (by simp), rfl⟩, _, ⟨b, hT b (by simp), rfl⟩, T, rfl, by simp at h5; omega, fun c hc => hT c (by simp [hc])⟩

theorem lang_path : Lang (opt (seq (chr '/') (star (nonSpace u)))) s t ↔
    ∃ path, s = path ++ t ∧ (path = [] ∨ ∃ T, (∀ c ∈ T, u.space c = false) ∧ path = '/' :: T) := by
  simp only [nonSpace, lang_opt, lang_seq (r := chr _), lang_chr, lang_star_cls]
  constructor
  · rintro (⟨_, rfl, T, rfl, hT⟩ | rfl)
    · exact ⟨'/' :: T, rfl, .inr ⟨T, by simpa using hT, rfl⟩⟩
    · exact ⟨[], rfl, .inl rfl⟩
  · rintro ⟨_, rfl, rfl | ⟨T, hT, rfl⟩⟩
    · exact .inr rfl
    · exact .inl ⟨_, rfl, T, rfl, by simpa using hT⟩

theorem matches_inRun {r : Re} : matches? r s = true ↔ ∃ c t, InRun r [] s c t := by
  unfold matches?
  constructor
  · intro h
    obtain ⟨st, hst⟩ := Option.isSome_iff_exists.1 h
    exact ⟨_, _, pyMatch_some hst⟩
  · rintro ⟨c, t, h⟩
    cases hm : pyMatch r s with
    | none => exact absurd h (pyMatch_none hm c t)
    | some _ => rfl

/-- What the pattern of URLs accepts. -/
theorem url_iff : matches? (urlRe u) s = true ↔ ∃ t N, s = t ++ N ∧ End N ∧ UrlText u t := by
  have e : urlRe u = seq urlSchemeRe (seq (opt (seqs [plus (nonSpace u), opt (seq (chr ':') (star (nonSpace u))), chr '@']))
    (seq (alt (urlIpRe u) urlNameRe) (seq (opt (seqs [chr ':', cls u.isDigit, cls u.isDigit, upTo (cls u.isDigit) 3]))
      (seq (opt (seq (chr '/') (star (nonSpace u)))) eol)))) := rfl
  rw [matches_inRun, e]
  have b1 : ∀ {c c' : List (Nat × Str)} {s t : Str}, InRun urlSchemeRe c s c' t ↔ c' = c ∧ _ := inRun_bare rfl
  have b2 : ∀ {c c' : List (Nat × Str)} {s t : Str}, InRun (opt (seqs [plus (nonSpace u), opt (seq (chr ':') (star (nonSpace u))), chr '@'])) c s c' t ↔ c' = c ∧ _ := inRun_bare rfl
  have b3 : ∀ {c c' : List (Nat × Str)} {s t : Str}, InRun urlNameRe c s c' t ↔ c' = c ∧ _ := inRun_bare rfl
  have b4 : ∀ {c c' : List (Nat × Str)} {s t : Str}, InRun (opt (seqs [chr ':', cls u.isDigit, cls u.isDigit, upTo (cls u.isDigit) 3])) c s c' t ↔ c' = c ∧ _ := inRun_bare rfl
  have b5 : ∀ {c c' : List (Nat × Str)} {s t : Str}, InRun (opt (seq (chr '/') (star (nonSpace u)))) c s c' t ↔ c' = c ∧ _ := inRun_bare rfl
  have b6 : ∀ {c c' : List (Nat × Str)} {s t : Str}, InRun eol c s c' t ↔ c' = c ∧ _ := inRun_bare rfl
  simp only [inRun_seq (r := urlSchemeRe), inRun_seq (r := opt _), inRun_seq (r := alt _ _), b1, b2, b4, b5, b6, inRun_alt, inRun_ip, b3,
    lang_scheme, lang_user, lang_urlName, lang_port, lang_path, lang_eol]
  constructor
  · rintro ⟨_, _, _, _, ⟨rfl, sch, rfl, hsch⟩, _, _, ⟨rfl, user, rfl, hu⟩, _, _, hh, _, _, ⟨rfl, port, rfl, hp⟩, _, _, ⟨rfl, path, rfl, hpa⟩, rfl, rfl, hN⟩
    rcases hh with ⟨rfl, host, rfl, hh⟩ | ⟨rfl, host, rfl, hh⟩
    · exact ⟨sch ++ (c!"://" ++ (user ++ (host ++ (port ++ path)))), _, by simp, hN, sch, user, host, port, path, hsch, hu, .inl hh, hp, hpa, rfl⟩
    · exact ⟨sch ++ (c!"://" ++ (user ++ (host ++ (port ++ path)))), _, by simp, hN, sch, user, host, port, path, hsch, hu, .inr hh, hp, hpa, rfl⟩
  · rintro ⟨_, N, rfl, hN, sch, user, host, port, path, hsch, hu, hh, hp, hpa, rfl⟩
    simp only [List.append_assoc]
    refine ⟨[], N, [], _, ⟨rfl, sch, rfl, hsch⟩, [], _, ⟨rfl, user, rfl, hu⟩, [], port ++ (path ++ N), ?_, [], _, ⟨rfl, port, rfl, hp⟩, [], _,
      ⟨rfl, path, rfl, hpa⟩, rfl, rfl, hN⟩
    exact hh.imp (fun h => ⟨rfl, host, rfl, h⟩) (fun h => ⟨rfl, host, rfl, h⟩)

end Verif.Formats
