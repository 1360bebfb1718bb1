import Verif.Proofs.RegexFirst
import Verif.Proofs.UriPath
import Verif.Proofs.Formats
import Verif.Model.Uri
import Verif.Spec.Uri
/-! # Splitting URI texts into parts -/

namespace Verif.Uri
open Verif Re Rfc3986 UriSpec

theorem alpha_iff {c : Char} : alpha c = true ↔ c.isAlpha = true := by
  simp only [alpha, Char.isAlpha, Char.isUpper, Char.isLower, Bool.or_eq_true, Bool.and_eq_true, decide_eq_true_eq]
  rw [or_comm]; rfl

theorem digit_iff {c : Char} : digit c = true ↔ c.isDigit = true := by
  simp only [digit, Char.isDigit, Bool.and_eq_true, decide_eq_true_eq]; rfl

theorem hex_iff {c : Char} : hex c = true ↔ Hex c := by
  constructor
  · intro h
    have := ascii_all (P := fun c => !hex c || (c.isDigit || c!"abcdefABCDEF".contains c)) (by decide +kernel) c (hex_ascii h)
    simpa [h, Hex] using this
  · rintro (h | h)
    · simp [hex, digit_iff.2 h]
    · exact (by decide : ∀ c ∈ c!"abcdefABCDEF", hex c = true) c h

theorem regC_iff {c : Char} : regC c = true ↔ Plain c := by
  simp only [regC, Bool.or_eq_true, alpha_iff, digit_iff, List.contains_iff_mem, Plain, or_assoc]

theorem schemeC_iff {c : Char} : schemeC c = true ↔ c.isAlpha = true ∨ c.isDigit = true ∨ c ∈ c!"+.-" := by
  simp only [schemeC, Bool.or_eq_true, alpha_iff, digit_iff, List.contains_iff_mem, or_assoc]

/-! ## The languages -/

theorem lang_scheme {s t : Str} : Lang schemeRe s t ↔ ∃ T, s = T ++ t ∧ SchemeText T := by
  simp only [schemeRe, lang_seq, lang_cls, lang_star_cls, alpha_iff, schemeC_iff, SchemeText]
  constructor
  · rintro ⟨_, ⟨a, ha, rfl⟩, T, rfl, hT⟩
    exact ⟨a :: T, rfl, a, T, rfl, ha, hT⟩
  · rintro ⟨_, rfl, a, r, rfl, ha, hr⟩
    exact ⟨_, ⟨a, ha, rfl⟩, r, rfl, hr⟩

theorem lang_pct {s t : Str} : Lang pctRe s t ↔ ∃ a b, Hex a ∧ Hex b ∧ s = '%' :: a :: b :: t := by
  simp only [pctRe, seqs, lang_seq, lang_chr, lang_cls, hex_iff]
  constructor
  · rintro ⟨_, rfl, _, ⟨a, ha, rfl⟩, b, hb, rfl⟩; exact ⟨a, b, ha, hb, rfl⟩
  · rintro ⟨a, b, ha, hb, rfl⟩; exact ⟨_, rfl, _, ⟨a, ha, rfl⟩, b, hb, rfl⟩

theorem enc_append {p : Char → Prop} {a b : Str} (ha : Enc p a) (hb : Enc p b) : Enc p (a ++ b) := by
  induction ha with
  | nil => exact hb
  | chr h _ ih => exact .chr h ih
  | pct h1 h2 _ ih => exact .pct h1 h2 ih

/-- One character or percent encoding. -/
def One (p : Char → Prop) (T : Str) : Prop := (∃ c, p c ∧ T = [c]) ∨ ∃ a b, Hex a ∧ Hex b ∧ T = ['%', a, b]

theorem enc_flatten {p : Char → Prop} {T : Str} : Enc p T ↔ ∃ Ts : List Str, (∀ x ∈ Ts, One p x) ∧ T = Ts.flatten := by
  constructor
  · intro h
    induction h with
    | nil => exact ⟨[], by simp, rfl⟩
    | @chr c s h _ ih =>
      obtain ⟨Ts, h1, rfl⟩ := ih
      refine ⟨[c] :: Ts, ?_, rfl⟩
      intro x hx
      rcases List.mem_cons.1 hx with rfl | hx
      · exact .inl ⟨c, h, rfl⟩
      · exact h1 x hx
    | @pct a b s ha hb _ ih =>
      obtain ⟨Ts, h1, rfl⟩ := ih
      refine ⟨['%', a, b] :: Ts, ?_, rfl⟩
      intro x hx
      rcases List.mem_cons.1 hx with rfl | hx
      · exact .inr ⟨a, b, ha, hb, rfl⟩
      · exact h1 x hx
  · rintro ⟨Ts, h, rfl⟩
    induction Ts with
    | nil => exact .nil
    | cons x Ts ih =>
      have := ih fun y hy => h y (by simp [hy])
      rcases h x (by simp) with ⟨c, hc, rfl⟩ | ⟨a, b, ha, hb, rfl⟩
      · exact .chr hc this
      · exact .pct ha hb this

theorem lang_one {p : Char → Bool} {P : Char → Prop} (hp : ∀ c, p c = true ↔ P c) {s t : Str} :
    Lang (alt (cls p) pctRe) s t ↔ ∃ T, s = T ++ t ∧ One P T := by
  simp only [lang_alt, lang_cls, lang_pct, hp, One]
  constructor
  · rintro (⟨c, hc, rfl⟩ | ⟨a, b, ha, hb, rfl⟩)
    · exact ⟨[c], rfl, .inl ⟨c, hc, rfl⟩⟩
    · exact ⟨['%', a, b], rfl, .inr ⟨a, b, ha, hb, rfl⟩⟩
  · rintro ⟨T, rfl, ⟨c, hc, rfl⟩ | ⟨a, b, ha, hb, rfl⟩⟩
    · exact .inl ⟨c, hc, rfl⟩
    · exact .inr ⟨a, b, ha, hb, rfl⟩

theorem lang_one' {p : Char → Bool} {P : Char → Prop} (hp : ∀ c, p c = true ↔ P c) {s t : Str} :
    Lang (alt pctRe (cls p)) s t ↔ ∃ T, s = T ++ t ∧ One P T := by
  rw [← lang_one hp]; simp only [lang_alt]; rw [or_comm]

theorem one_ne {P : Char → Prop} (T : Str) (h : One P T) : T ≠ [] := by
  rcases h with ⟨c, _, rfl⟩ | ⟨a, b, _, _, rfl⟩ <;> simp

theorem lang_encs {r : Re} {P : Char → Prop} (hr : ∀ {s t : Str}, Lang r s t ↔ ∃ T, s = T ++ t ∧ One P T) {s t : Str} :
    Lang (star r) s t ↔ ∃ T, s = T ++ t ∧ Enc P T := by
  rw [Formats.lang_star hr one_ne]
  constructor
  · rintro ⟨Ts, h, rfl⟩; exact ⟨_, rfl, enc_flatten.2 ⟨Ts, h, rfl⟩⟩
  · rintro ⟨T, rfl, h⟩
    obtain ⟨Ts, h1, rfl⟩ := enc_flatten.1 h
    exact ⟨Ts, h1, rfl⟩

theorem lang_encs1 {r : Re} {P : Char → Prop} (hr : ∀ {s t : Str}, Lang r s t ↔ ∃ T, s = T ++ t ∧ One P T) {s t : Str} :
    Lang (plus r) s t ↔ ∃ T, s = T ++ t ∧ T ≠ [] ∧ Enc P T := by
  simp only [plus, lang_seq, hr, lang_encs hr]
  constructor
  · rintro ⟨_, ⟨A, rfl, hA⟩, B, rfl, hB⟩
    refine ⟨A ++ B, by simp, fun h => one_ne A hA (List.append_eq_nil_iff.1 h).1, enc_append (enc_flatten.2 ⟨[A], by simpa using hA, by simp⟩) hB⟩
  · rintro ⟨T, rfl, hne, h⟩
    obtain ⟨Ts, h1, rfl⟩ := enc_flatten.1 h
    cases Ts with
    | nil => exact absurd rfl hne
    | cons x Ts =>
      exact ⟨Ts.flatten ++ t, ⟨x, by simp, h1 x (by simp)⟩, Ts.flatten, rfl, enc_flatten.2 ⟨Ts, fun y hy => h1 y (by simp [hy]), rfl⟩⟩

theorem lang_regName {s t : Str} : Lang regNameRe s t ↔ ∃ T, s = T ++ t ∧ Enc Plain T :=
  lang_encs (lang_one' fun _ => regC_iff)

theorem lang_userinfo {s t : Str} : Lang userinfoRe s t ↔ ∃ T, s = T ++ t ∧ T ≠ [] ∧ Enc UserChar T :=
  lang_encs1 (lang_one fun c => by simp [regC_iff, UserChar])

theorem lang_port {s t : Str} : Lang portRe s t ↔ ∃ T, s = T ++ t ∧ PortText T := by
  simp only [portRe, lang_seq, lang_cls, Formats.lang_upTo, digit_iff, PortText]
  constructor
  · rintro ⟨_, ⟨a, ha, rfl⟩, T, rfl, hl, hT⟩
    exact ⟨a :: T, rfl, by simp, by simp; omega, by simpa using ⟨ha, hT⟩⟩
  · rintro ⟨T, rfl, hne, hl, hT⟩
    cases T with
    | nil => exact absurd rfl hne
    | cons a T => exact ⟨_, ⟨a, hT a (by simp), rfl⟩, T, rfl, by simp at hl; omega, fun c hc => hT c (by simp [hc])⟩

/-! ## Authorities -/

theorem enc_mem {p : Char → Prop} {s : Str} (h : Enc p s) {c : Char} (hc : c ∈ s) : p c ∨ c = '%' ∨ Hex c := by
  induction h with
  | nil => simp at hc
  | chr h _ ih =>
    rcases List.mem_cons.1 hc with rfl | hc
    · exact .inl h
    · exact ih hc
  | pct ha hb _ ih =>
    simp only [List.mem_cons] at hc
    rcases hc with rfl | rfl | rfl | hc
    · exact .inr (.inl rfl)
    · exact .inr (.inr ha)
    · exact .inr (.inr hb)
    · exact ih hc

theorem enc_mono {p q : Char → Prop} (h : ∀ c, p c → q c) {s : Str} (hs : Enc p s) : Enc q s := by
  induction hs with
  | nil => exact .nil
  | chr hc _ ih => exact .chr (h _ hc) ih
  | pct ha hb _ ih => exact .pct ha hb ih

theorem enc_all {p : Char → Prop} {s : Str} (h : ∀ c ∈ s, p c) : Enc p s := by
  induction s with
  | nil => exact .nil
  | cons a s ih => exact .chr (h a (by simp)) (ih fun c hc => h c (by simp [hc]))

variable (ip : IpRe)

/-- What may stand between the brackets. -/
def Literal (h : Str) : Prop := ∃ x, ip.inside x ∧ h = '[' :: (x ++ [']'])

def HostText (h : Str) : Prop := Enc Plain h ∨ Literal ip h

structure AuthOk (a : Authority) : Prop where
  user : a.userinfo = [] ∨ Enc UserChar a.userinfo
  host : HostText ip a.host
  port : a.port = [] ∨ PortText a.port

theorem plain_of_digit {c : Char} (h : c.isDigit = true) : Plain c := .inr (.inl h)

theorem lang_ipv4 {s t : Str} (h : Lang ipv4Re s t) : ∃ T, s = T ++ t ∧ Enc Plain T := by
  have hd : ∀ {s t : Str}, Lang (seq (cls digit) (upTo (cls digit) 2)) s t → ∃ T, s = T ++ t ∧ ∀ c ∈ T, Plain c := by
    intro s t h
    simp only [lang_seq, lang_cls, Formats.lang_upTo, digit_iff] at h
    obtain ⟨_, ⟨a, ha, rfl⟩, T, rfl, _, hT⟩ := h
    exact ⟨a :: T, rfl, by simpa using ⟨plain_of_digit ha, fun c hc => plain_of_digit (hT c hc)⟩⟩
  have hdd : ∀ {s t : Str}, Lang (seq (seq (cls digit) (upTo (cls digit) 2)) (chr '.')) s t → ∃ T, s = T ++ t ∧ ∀ c ∈ T, Plain c := by
    intro s t h
    rw [lang_seq] at h
    obtain ⟨u, h1, h2⟩ := h
    obtain ⟨T, rfl, hT⟩ := hd h1
    rw [lang_chr] at h2
    subst h2
    refine ⟨T ++ ['.'], by simp, fun c hc => ?_⟩
    rcases List.mem_append.1 hc with hc | hc
    · exact hT c hc
    · simp at hc; subst hc; exact .inr (.inr (by decide))
  have hr : ∀ (n : Nat) {s t : Str}, Lang (rep (seq (seq (cls digit) (upTo (cls digit) 2)) (chr '.')) n) s t →
      ∃ T, s = T ++ t ∧ ∀ c ∈ T, Plain c := by
    intro n
    induction n with
    | zero => intro s t h; simp only [rep, lang_eps] at h; exact ⟨[], by simp [h], by simp⟩
    | succ n ih =>
      intro s t h
      simp only [rep] at h
      rw [lang_seq] at h
      obtain ⟨u, h1, h2⟩ := h
      obtain ⟨A, rfl, hA⟩ := hdd h1
      obtain ⟨B, rfl, hB⟩ := ih h2
      refine ⟨A ++ B, by simp, fun c hc => ?_⟩
      rcases List.mem_append.1 hc with hc | hc
      · exact hA c hc
      · exact hB c hc
  rw [ipv4Re, lang_seq] at h
  obtain ⟨u, h1, h2⟩ := h
  obtain ⟨A, rfl, hA⟩ := hr 3 h1
  obtain ⟨B, rfl, hB⟩ := hd h2
  refine ⟨A ++ B, by simp, enc_all fun c hc => ?_⟩
  rcases List.mem_append.1 hc with hc | hc
  · exact hA c hc
  · exact hB c hc

theorem lang_literal {s t : Str} : Lang (seqs [chr '[', ip.re, chr ']']) s t ↔ ∃ T, s = T ++ t ∧ Literal ip T := by
  simp only [seqs, lang_seq, lang_chr, ip.lang, Literal]
  constructor
  · rintro ⟨_, rfl, _, ⟨T, rfl, hT⟩, rfl⟩
    exact ⟨'[' :: (T ++ [']']), by simp, T, hT, rfl⟩
  · rintro ⟨_, rfl, x, hx, rfl⟩
    exact ⟨x ++ ']' :: t, by simp, ']' :: t, ⟨x, rfl, hx⟩, rfl⟩

theorem lang_host {s t : Str} : Lang (hostRe ip) s t ↔ ∃ T, s = T ++ t ∧ HostText ip T := by
  simp only [hostRe, alts, lang_alt, lang_regName, lang_literal, HostText]
  constructor
  · rintro (⟨T, rfl, h⟩ | h | ⟨T, rfl, h⟩)
    · exact ⟨T, rfl, .inl h⟩
    · obtain ⟨T, rfl, h1⟩ := lang_ipv4 h; exact ⟨T, rfl, .inl h1⟩
    · exact ⟨T, rfl, .inr h⟩
  · rintro ⟨T, rfl, h | h⟩
    · exact .inl ⟨T, rfl, h⟩
    · exact .inr (.inr ⟨T, rfl, h⟩)

theorem bare_host : bare (hostRe ip) = true := by
  simp only [hostRe, alts, seqs, bare, ip.isBare, Bool.and_true, chr, regNameRe, ipv4Re, pctRe, rep, upTo, opt]

theorem auth_sound {s : Str} {a : Authority} (h : parseAuthority ip s = .ok a) : AuthOk ip a := by
  unfold parseAuthority at h
  split at h
  · cases h
  rename_i m hm
  have := pyMatch_some hm
  obtain ⟨c1, u1, h1, h2⟩ := inRun_seq.1 this
  obtain ⟨c2, u2, h2, h3⟩ := inRun_seq.1 h2
  obtain ⟨c3, u3, h3, h4⟩ := inRun_seq.1 h3
  obtain ⟨c4, u4, h4, h5⟩ := inRun_seq.1 h4
  obtain ⟨T, rfl, hT, rfl⟩ := (inRun_grp (bare_host ip)).1 h2
  obtain ⟨rfl, -⟩ := (inRun_bare (by decide)).1 h3
  obtain ⟨e5, -⟩ := (inRun_bare (by decide)).1 h5
  cases h
  have huser : ∃ x, c1 = x ∧ (x = [] ∨ ∃ p, x = [(1, p)] ∧ Enc UserChar p) := by
    refine ⟨_, rfl, ?_⟩
    rcases inRun_opt.1 h1 with h1 | ⟨h1, -⟩
    · obtain ⟨c0, u0, h1, h0⟩ := inRun_seq.1 h1
      obtain ⟨p, rfl, hl, rfl⟩ := (inRun_grp (by decide)).1 h1
      obtain ⟨e, -⟩ := (inRun_bare (by decide)).1 h0
      obtain ⟨p', hp', _, he⟩ := lang_userinfo.1 hl
      have := List.append_cancel_right hp'
      subst this
      exact .inr ⟨p, e, he⟩
    · exact .inl h1
  obtain ⟨T', hT', hh⟩ := (lang_host ip).1 hT
  have := List.append_cancel_right hT'
  subst this
  have hport : c4 = (2, T) :: c1 ∨ ∃ p, c4 = (3, p) :: (2, T) :: c1 ∧ PortText p := by
    rcases inRun_opt.1 h4 with h4 | ⟨h4, -⟩
    · obtain ⟨p, rfl, hl, rfl⟩ := (inRun_grp (by decide)).1 h4
      obtain ⟨p', hp', he⟩ := lang_port.1 hl
      have := List.append_cancel_right hp'
      subst this
      exact .inr ⟨p, rfl, he⟩
    · exact .inl h4
  obtain ⟨x, rfl, hx⟩ := huser
  rcases hx with rfl | ⟨p, rfl, hp⟩ <;> rcases hport with rfl | ⟨q, rfl, hq⟩ <;>
    refine ⟨?_, ?_, ?_⟩ <;> simp [group, e5] <;> first | exact hh | exact .inr hp | exact .inr hq

theorem first_one {p : Char → Prop} {q : Char → Bool} (hq : ∀ c, q c = true ↔ p c) (hpct : ¬ p '%') {c : List (Nat × Str)} {x : Str} (hx : One p x) (s : Str) :
    first (alt pctRe (cls q)) (c, x ++ s) = some (c, s) := by
  refine first_unique (by rfl) ((lang_one' hq).2 ⟨x, rfl, hx⟩) fun t' ht' => ?_
  obtain ⟨y, hy, h⟩ := (lang_one' hq).1 ht'
  rcases hx with ⟨a, ha, rfl⟩ | ⟨a, b, ha, hb, rfl⟩ <;> rcases h with ⟨a', ha', rfl⟩ | ⟨a', b', ha', hb', rfl⟩ <;> simp at hy
  · exact hy.2.symm
  · rw [hy.1] at ha; exact absurd ha hpct
  · rw [← hy.1] at ha'; exact absurd ha' hpct
  · exact hy.2.2.symm

theorem plain_pct : ¬ Plain '%' := by
  rintro (h | h | h) <;> revert h <;> decide

/-- The registered name takes all it can. -/
theorem first_regName {c : List (Nat × Str)} {h s : Str} (hh : Enc Plain h) (hs : ∀ x, s.head? = some x → ¬ Plain x ∧ x ≠ '%') :
    first regNameRe (c, h ++ s) = some (c, s) := by
  obtain ⟨Ts, h1, rfl⟩ := enc_flatten.1 hh
  clear hh
  induction Ts with
  | nil =>
    refine first_star_stop (fails_of_lang (by rfl) fun t ht => ?_)
    obtain ⟨T, hT, ho⟩ := (lang_one' fun _ => regC_iff).1 ht
    simp only [List.flatten_nil, List.nil_append] at hT
    rcases ho with ⟨a, ha, rfl⟩ | ⟨a, b, _, _, rfl⟩
    · exact (hs a (by rw [hT]; rfl)).1 ha
    · exact (hs '%' (by rw [hT]; rfl)).2 rfl
  | cons x Ts ih =>
    simp only [List.flatten_cons, List.append_assoc]
    refine first_star_step (first_one (p := Plain) (fun _ => regC_iff) plain_pct (h1 x (by simp)) _) ?_ (ih fun y hy => h1 y (by simp [hy]))
    have := one_ne x (h1 x (by simp))
    have : 0 < x.length := List.length_pos_iff.2 this
    simp; omega

theorem first_upTo {p : Char → Bool} {c : List (Nat × Str)} {a b : Str} : ∀ {n : Nat}, a.length ≤ n → (∀ x ∈ a, p x = true) →
    (∀ x, b.head? = some x → p x = false) → first (upTo (cls p) n) (c, a ++ b) = some (c, b) := by
  induction a with
  | nil =>
    intro n _ _ hb
    cases n with
    | zero => rfl
    | succ n => exact first_opt_none (fails_seq (fails_cls hb))
  | cons x a ih =>
    intro n hn ha hb
    cases n with
    | zero => simp at hn
    | succ n =>
      exact first_opt_some (first_seq (first_cls (ha x (by simp))) (ih (by simp at hn; exact hn) (fun y hy => ha y (by simp [hy])) hb))

/-- `:?port?$` -/
theorem first_port {L : Prop} {c : List (Nat × Str)} {pp p nl : Str} (hp : PortPart L pp p) (hn : nl = [] ∨ nl = ['\n']) :
    first (seq (opt (chr ':')) (seq (opt (grp 3 portRe)) eol)) (c, pp ++ nl) = some (if p = [] then c else (3, p) :: c, nl) := by
  have hh : ∀ x, nl.head? = some x → x = '\n' := by
    rcases hn with rfl | rfl <;> simp
  have hport : PortText p → first (seq (opt (grp 3 portRe)) eol) (c, p ++ nl) = some ((3, p) :: c, nl) := by
    intro hp
    refine first_seq (t := ((3, p) :: c, nl)) (first_opt_some (first_grp ?_)) (first_eol hn)
    obtain ⟨hne, hl, hd⟩ := hp
    cases p with
    | nil => exact absurd rfl hne
    | cons a p =>
      exact first_seq (first_cls (digit_iff.2 (hd a (by simp)))) (first_upTo (by simp at hl; omega)
        (fun x hx => digit_iff.2 (hd x (by simp [hx]))) (fun x hx => by rw [hh x hx]; rfl))
  have hnone : first (seq (opt (grp 3 portRe)) eol) (c, nl) = some (c, nl) :=
    first_seq (first_opt_none (fails_grp (fails_seq (fails_cls fun x hx => by rw [hh x hx]; rfl)))) (first_eol hn)
  rcases hp with ⟨rfl, rfl | rfl⟩ | ⟨hp, rfl | ⟨_, rfl⟩⟩
  · exact first_seq (first_opt_none (fails_cls fun x hx => by rw [hh x hx]; rfl)) hnone
  · exact first_seq (first_opt_some first_chr) hnone
  · rw [if_neg hp.1]
    exact first_seq (first_opt_some first_chr) (hport hp)
  · rw [if_neg hp.1]
    refine first_seq (first_opt_none (fails_cls fun x hx => ?_)) (hport hp)
    obtain ⟨hne, _, hd⟩ := hp
    cases pp with
    | nil => exact absurd rfl hne
    | cons a p =>
      simp at hx
      subst hx
      have := hd a (by simp)
      simp only [beq_eq_false_iff_ne, ne_eq]
      rintro rfl
      revert this; decide

theorem literal_mem {h : Str} (hl : Literal ip h) {c : Char} (hc : c ∈ h) : Plain c ∨ c = ':' ∨ c = '%' ∨ c = '[' ∨ c = ']' := by
  obtain ⟨x, hx, rfl⟩ := hl
  simp only [List.mem_cons, List.mem_append, List.not_mem_nil, or_false] at hc
  rcases hc with rfl | hc | rfl
  · simp
  · have := ip.chars x hx c hc
    simp [regC_iff] at this
    rcases this with (h | h) | h <;> simp [h]
  · simp

theorem hex_plain {c : Char} (h : Hex c) : Plain c := by
  rcases h with h | h
  · exact .inr (.inl h)
  · left; exact (by decide : ∀ c ∈ c!"abcdefABCDEF", c.isAlpha = true) c h

theorem host_mem {h : Str} (hh : HostText ip h) {c : Char} (hc : c ∈ h) : Plain c ∨ c = ':' ∨ c = '%' ∨ c = '[' ∨ c = ']' := by
  rcases hh with hh | hh
  · rcases enc_mem hh hc with h | h | h
    · exact .inl h
    · simp [h]
    · exact .inl (hex_plain h)
  · exact literal_mem ip hh hc

theorem port_mem {L : Prop} {pp p : Str} (hp : PortPart L pp p) {c : Char} (hc : c ∈ pp) : Plain c ∨ c = ':' := by
  rcases hp with ⟨_, rfl | rfl⟩ | ⟨hp, rfl | ⟨_, rfl⟩⟩
  · simp at hc
  · simp at hc; exact .inr hc
  · rcases List.mem_cons.1 hc with rfl | hc
    · exact .inr rfl
    · exact .inl (plain_of_digit (hp.2.2 c hc))
  · exact .inl (plain_of_digit (hp.2.2 c hc))

theorem not_plain_at : ¬ Plain '@' := by rintro (h | h | h) <;> revert h <;> decide
theorem not_plain_colon : ¬ Plain ':' := by rintro (h | h | h) <;> revert h <;> decide
theorem not_plain_open : ¬ Plain '[' := by rintro (h | h | h) <;> revert h <;> decide
theorem not_plain_close : ¬ Plain ']' := by rintro (h | h | h) <;> revert h <;> decide

/-- Host and port. -/
theorem first_host {c : List (Nat × Str)} {h pp p nl : Str} (hh : HostText ip h) (hp : PortPart (Literal ip h) pp p) (hn : nl = [] ∨ nl = ['\n']) :
    first (seq (grp 2 (hostRe ip)) (seq (opt (chr ':')) (seq (opt (grp 3 portRe)) eol))) (c, h ++ (pp ++ nl))
      = some (if p = [] then (2, h) :: c else (3, p) :: (2, h) :: c, nl) := by
  have hh : Enc Plain h ∧ ¬ Literal ip h ∨ Literal ip h := by
    by_cases hl : Literal ip h
    · exact .inr hl
    · exact .inl ⟨hh.resolve_right hl, hl⟩
  rcases hh with ⟨hh, hl⟩ | hh
  · refine first_seq (first_grp (c' := c) (first_altL (first_regName hh ?_))) (first_port hp hn)
    intro x hx
    have nlh : ∀ x, nl.head? = some x → ¬ Plain x ∧ x ≠ '%' := by
      intro x hx
      rcases hn with rfl | rfl
      · simp at hx
      · simp at hx; subst hx
        exact ⟨by rintro (h | h | h) <;> revert h <;> decide, by decide⟩
    rcases hp with ⟨_, rfl | rfl⟩ | ⟨hp, rfl | ⟨hl', _⟩⟩
    · exact nlh x hx
    · simp at hx; subst hx; exact ⟨not_plain_colon, by decide⟩
    · simp at hx; subst hx; exact ⟨not_plain_colon, by decide⟩
    · exact absurd hl' hl
  · obtain ⟨x, hx, rfl⟩ := id hh
    -- the registered name matches nothing, and then the text does not go on as it should
    generalize hP : pp ++ nl = P
    have hlit : ∀ s', Lang (hostRe ip) ('[' :: (x ++ [']']) ++ P) s' → s' = P ∨ s' = '[' :: (x ++ [']']) ++ P := by
      intro s' hs'
      obtain ⟨T, hT, hT'⟩ := (lang_host ip).1 hs'
      rcases hT' with hT' | ⟨y, hy, rfl⟩
      · cases T with
        | nil => simp at hT; right; simp [hT]
        | cons a T =>
          exfalso
          simp at hT
          rcases enc_mem hT' (c := a) (by simp) with h | h | h
          · rw [← hT.1] at h; exact not_plain_open h
          · rw [← hT.1] at h; exact absurd h (by decide)
          · rw [← hT.1] at h; exact not_plain_open (hex_plain h)
      · left
        simp at hT
        have no : ∀ {z : Str}, ip.inside z → ']' ∉ z := by
          intro z hz hm
          have := ip.chars z hz _ hm
          revert this; decide
        have : x = y := by
          have e1 := List.takeWhile_append_of_pos (p := (· ≠ ']')) (l₁ := x) (l₂ := ']' :: P) (by intro a ha; simp; rintro rfl; exact no hx ha)
          have e2 := List.takeWhile_append_of_pos (p := (· ≠ ']')) (l₁ := y) (l₂ := ']' :: s') (by intro a ha; simp; rintro rfl; exact no hy ha)
          rw [hT, e2] at e1
          simpa using e1.symm
        subst this
        simpa using hT.symm
    have hbad : Re.run (seq (opt (chr ':')) (seq (opt (grp 3 portRe)) eol)) ((2, []) :: c, '[' :: (x ++ [']']) ++ P) = [] := by
      simp [Re.run, opt, chr, portRe, List.flatMap, digit]
    have hmem : ((2, '[' :: (x ++ [']'])) :: c, P) ∈ Re.run (grp 2 (hostRe ip)) (c, '[' :: (x ++ [']']) ++ P) :=
      (inRun_grp (bare_host ip)).2 ⟨_, rfl, (lang_host ip).2 ⟨_, rfl, .inr hh⟩, rfl⟩
    have hall : ∀ st ∈ Re.run (grp 2 (hostRe ip)) (c, '[' :: (x ++ [']']) ++ P),
        st = ((2, '[' :: (x ++ [']'])) :: c, P) ∨ st = ((2, []) :: c, '[' :: (x ++ [']']) ++ P) := by
      intro st hst
      obtain ⟨p', e1, e2, e3⟩ := (inRun_grp (bare_host ip) (c' := st.1) (t := st.2)).1 hst
      rcases hlit _ e2 with e | e
      · left
        rw [e] at e1
        have := List.append_cancel_right e1
        exact Prod.ext (by rw [e3, this]) e
      · right
        rw [e] at e1
        have : p' = [] := (List.append_cancel_right (as := []) e1).symm
        exact Prod.ext (by rw [e3, this]) e
    have hport := first_port (c := (2, '[' :: (x ++ [']'])) :: c) hp hn
    rw [hP] at hport
    simp only [first] at hport ⊢
    rw [Re.run]
    generalize Re.run (grp 2 (hostRe ip)) (c, '[' :: (x ++ [']']) ++ P) = l at hmem hall
    induction l with
    | nil => simp at hmem
    | cons a l ih =>
      rcases hall a (by simp) with rfl | rfl
      · exact head_flatMap rfl hport
      · simp only [List.flatMap_cons, hbad, List.nil_append]
        refine ih ?_ fun st hst => hall st (by simp [hst])
        rcases List.mem_cons.1 hmem with h | h
        · simp at h
        · exact h

/-- What is taken for an authority is read as its parts. -/
theorem auth_complete {s ui host port : Str} (h : AuthorityText (Literal ip) s ui host port) : parseAuthority ip s = .ok ⟨ui, host, port⟩ := by
  obtain ⟨pp, nl, rfl, h1, h2, h3, hn⟩ := h
  have key : pyMatch (subauthorityMatcher ip) ((if ui = [] then [] else ui ++ ['@']) ++ (host ++ (pp ++ nl)))
      = some (if port = [] then (2, host) :: (if ui = [] then [] else [(1, ui)]) else (3, port) :: (2, host) :: (if ui = [] then [] else [(1, ui)]), nl) := by
    rw [pyMatch_first]
    by_cases hu : ui = []
    · subst hu
      simp only [if_true, List.nil_append]
      refine first_seq (first_opt_none ?_) (first_host ip h2 h3 hn)
      refine fails_grp_seq (by decide) (by decide) fun s' t' e1 e2 => ?_
      obtain ⟨T, e3, _⟩ := lang_userinfo.1 e1
      rw [lang_chr] at e2
      have : '@' ∈ host ++ (pp ++ nl) := by rw [e3, e2]; simp
      rcases List.mem_append.1 this with h | h
      · rcases host_mem ip h2 h with h | h | h | h | h
        · exact not_plain_at h
        all_goals exact absurd h (by decide)
      · rcases List.mem_append.1 h with h | h
        · rcases port_mem h3 h with h | h
          · exact not_plain_at h
          · exact absurd h (by decide)
        · rcases hn with rfl | rfl <;> revert h <;> decide
    · rw [if_neg hu, if_neg hu]
      have h1 := h1.resolve_left hu
      have noat : ∀ {u : Str}, Enc UserChar u → '@' ∉ u := by
        intro u hu hm
        rcases enc_mem hu hm with h | h | h
        · rcases h with h | h
          · exact not_plain_at h
          · exact absurd h (by decide)
        · exact absurd h (by decide)
        · exact not_plain_at (hex_plain h)
      have e : ui ++ ['@'] ++ (host ++ (pp ++ nl)) = ui ++ '@' :: (host ++ (pp ++ nl)) := by simp
      rw [e]
      refine first_seq (first_opt_some (first_grp_seq (by decide) (by decide) (t := host ++ (pp ++ nl))
        (lang_userinfo.2 ⟨ui, rfl, hu, h1⟩) (lang_chr.2 rfl) ?_)) (first_host ip h2 h3 hn)
      intro s' t' e1 e2
      obtain ⟨T, e3, _, e4⟩ := lang_userinfo.1 e1
      rw [lang_chr] at e2
      subst e2
      have : ui = T := by
        have x1 := List.takeWhile_append_of_pos (p := (· ≠ '@')) (l₁ := ui) (l₂ := '@' :: (host ++ (pp ++ nl))) (by intro a ha; simp; rintro rfl; exact noat h1 ha)
        have x2 := List.takeWhile_append_of_pos (p := (· ≠ '@')) (l₁ := T) (l₂ := '@' :: t') (by intro a ha; simp; rintro rfl; exact noat e4 ha)
        rw [e3, x2] at x1
        simpa using x1.symm
      subst this
      have := List.append_cancel_left e3
      exact ⟨this.symm, (List.cons.inj this).2.symm⟩
  unfold parseAuthority
  rw [key]
  by_cases hu : ui = [] <;> by_cases hpo : port = [] <;> simp [hu, hpo, group]

/-- What is printed is read back. -/
theorem auth_print {a : Authority} (h : AuthOk ip a) : parseAuthority ip (authorityText a) = .ok a := by
  refine auth_complete ip ⟨if a.port = [] then [] else ':' :: a.port, [], by simp [authorityText], h.user, h.host, ?_, .inl rfl⟩
  rcases h.port with e | e
  · exact .inl ⟨e, .inl (by simp [e])⟩
  · exact .inr ⟨e, .inl (by simp [e.1])⟩

/-! ## The parts of a text -/

theorem authC_iff {c : Char} : authC c = true ↔ c ∉ c!"\\/?#" := by
  simp [authC]

theorem pathC_iff {c : Char} : pathC c = true ↔ c ≠ '?' ∧ c ≠ '#' := by
  simp [pathC]

theorem authC_false {c : Char} : authC c = false ↔ c ∈ c!"\\/?#" := by
  simp only [authC, Bool.not_eq_false', List.contains_iff_mem]

theorem pathC_false {c : Char} : pathC c = false ↔ c = '?' ∨ c = '#' := by
  simp only [pathC, Bool.not_eq_false', List.contains_iff_mem]; simp

theorem colon_not_scheme {x : Str} (h : SchemeText x) : ':' ∉ x := by
  obtain ⟨a, r, rfl, ha, hr⟩ := h
  intro hm
  rcases List.mem_cons.1 hm with rfl | hm
  · revert ha; decide
  · have := hr _ hm; revert this; decide

theorem until_unique {x y r r' : Str} {c : Char} (hx : c ∉ x) (hy : c ∉ y) (h : x ++ c :: r = y ++ c :: r') : x = y ∧ r = r' := by
  induction x generalizing y with
  | nil =>
    cases y with
    | nil => simpa using h
    | cons b y => simp at h hy; exact absurd h.1 hy.1
  | cons a x ih =>
    cases y with
    | nil => simp at h hx; exact absurd h.1.symm hx.1
    | cons b y =>
      simp at h hx hy
      obtain ⟨rfl, h⟩ := h
      obtain ⟨rfl, rfl⟩ := ih hx.2 hy.2 h
      exact ⟨rfl, rfl⟩

theorem span_exists (p : Char → Bool) (s : Str) : ∃ a b, s = a ++ b ∧ (∀ c ∈ a, p c = true) ∧ ∀ c, b.head? = some c → p c = false := by
  induction s with
  | nil => exact ⟨[], [], rfl, by simp, by simp⟩
  | cons x s ih =>
    by_cases hx : p x = true
    · obtain ⟨a, b, rfl, h1, h2⟩ := ih
      exact ⟨x :: a, b, rfl, by simpa using ⟨hx, h1⟩, h2⟩
    · exact ⟨[], x :: s, rfl, by simp, by simpa using hx⟩

/-- Every text has parts. -/
theorem parts_exist (s : Str) : ∃ sch au p q f, Parts s sch au p q f := by
  have h1 : ∃ sch r, SchemeOf s sch r := by
    by_cases h : ∃ x r, SchemeText x ∧ s = x ++ ':' :: r
    · obtain ⟨x, r, h⟩ := h; exact ⟨some x, r, h⟩
    · exact ⟨none, s, rfl, h⟩
  obtain ⟨sch, r1, h1⟩ := h1
  have h2 : ∃ au r, AuthorityOf r1 au r := by
    by_cases h : ∃ r, r1 = '/' :: '/' :: r
    · obtain ⟨r, rfl⟩ := h
      obtain ⟨a, b, rfl, ha, hb⟩ := span_exists authC r
      exact ⟨some a, b, rfl, fun c hc => authC_iff.1 (ha c hc), fun c hc => authC_false.1 (hb c hc)⟩
    · exact ⟨none, r1, rfl, fun r' e => h ⟨r', e⟩⟩
  obtain ⟨au, r2, h2⟩ := h2
  obtain ⟨p, r3, e3, hp, hr3⟩ := span_exists pathC r2
  have h3 : PathOf r2 p r3 := ⟨e3, fun c hc => pathC_iff.1 (hp c hc), fun c hc => pathC_false.1 (hr3 c hc)⟩
  have h4 : ∃ q r, QueryOf r3 q r := by
    by_cases h : ∃ r, r3 = '?' :: r
    · obtain ⟨r, rfl⟩ := h
      obtain ⟨a, b, rfl, ha, hb⟩ := span_exists queryC r
      exact ⟨some a, b, rfl, fun hm => by have := ha _ hm; revert this; decide, fun c hc => by have := hb c hc; simpa [queryC] using this⟩
    · refine ⟨none, r3, rfl, fun e => h ?_⟩
      cases r3 with
      | nil => simp at e
      | cons a r => simp at e; exact ⟨r, by rw [e]⟩
  obtain ⟨q, r4, h4⟩ := h4
  have h5 : ∃ f, FragmentOf r4 f := by
    by_cases h : ∃ r, r4 = '#' :: r
    · obtain ⟨r, rfl⟩ := h
      obtain ⟨a, b, rfl, ha, hb⟩ := span_exists dotC r
      exact ⟨some a, b, rfl, fun hm => by have := ha _ hm; revert this; decide, fun c hc => by have := hb c hc; simpa [dotC] using this⟩
    · refine ⟨none, fun e => h ?_⟩
      cases r4 with
      | nil => simp at e
      | cons a r => simp at e; exact ⟨r, by rw [e]⟩
  obtain ⟨f, h5⟩ := h5
  exact ⟨sch, au, p, q, f, r1, r2, r3, r4, h1, h2, h3, h4, h5⟩

/-- The groups captured for an optional part. -/
def cap (n : Nat) : Option Str → List (Nat × Str) → List (Nat × Str)
  | some x, c => (n, x) :: c
  | none, c => c

theorem first_scheme {c : List (Nat × Str)} {s r : Str} {sch : Option Str} (h : SchemeOf s sch r) :
    first (opt (seq (grp 1 schemeRe) (chr ':'))) (c, s) = some (cap 1 sch c, r) := by
  cases sch with
  | some x =>
    obtain ⟨hx, rfl⟩ := h
    refine first_opt_some (first_grp_seq (by decide) (by decide) (t := r) (lang_scheme.2 ⟨x, rfl, hx⟩) (lang_chr.2 rfl) ?_)
    intro s' t' e1 e2
    obtain ⟨T, e3, e4⟩ := lang_scheme.1 e1
    rw [lang_chr] at e2
    subst e2
    obtain ⟨rfl, rfl⟩ := until_unique (colon_not_scheme hx) (colon_not_scheme e4) e3
    exact ⟨rfl, rfl⟩
  | none =>
    obtain ⟨rfl, h⟩ := h
    refine first_opt_none (fails_grp_seq (by decide) (by decide) fun s' t' e1 e2 => ?_)
    obtain ⟨T, e3, e4⟩ := lang_scheme.1 e1
    rw [lang_chr] at e2
    subst e2
    exact h ⟨T, t', e4, e3⟩

theorem first_authority {c : List (Nat × Str)} {s r : Str} {au : Option Str} (h : AuthorityOf s au r) :
    first (opt (seq (lit c!"//") (grp 2 (star (cls authC))))) (c, s) = some (cap 2 au c, r) := by
  cases au with
  | some a =>
    obtain ⟨rfl, h1, h2⟩ := h
    refine first_opt_some (first_seq (t := (c, a ++ r)) (first_lit (l := c!"//")) (first_grp ?_))
    refine first_star_cls (fun x hx => authC_iff.2 (h1 x hx)) fun x hx => authC_false.2 (h2 x hx)
  | none =>
    obtain ⟨rfl, h⟩ := h
    refine first_opt_none (fails_seq (fails_of_lang (by decide) fun t ht => ?_))
    rw [lang_lit] at ht
    exact h t ht

theorem first_path {c : List (Nat × Str)} {s p r : Str} (h : PathOf s p r) :
    first (grp 3 (star (cls pathC))) (c, s) = some ((3, p) :: c, r) := by
  obtain ⟨rfl, h1, h2⟩ := h
  refine first_grp (first_star_cls (fun x hx => pathC_iff.2 (h1 x hx)) fun x hx => ?_)
  rcases h2 x hx with rfl | rfl <;> rfl

theorem first_query {c : List (Nat × Str)} {s r : Str} {q : Option Str} (h : QueryOf s q r) :
    first (opt (seq (chr '?') (grp 4 (star (cls queryC))))) (c, s) = some (cap 4 q c, r) := by
  cases q with
  | some a =>
    obtain ⟨rfl, h1, h2⟩ := h
    refine first_opt_some (first_seq (t := (c, a ++ r)) first_chr (first_grp ?_))
    refine first_star_cls (fun x hx => ?_) fun x hx => ?_
    · simp only [queryC, bne_iff_ne]; rintro rfl; exact h1 hx
    · rw [h2 x hx]; rfl
  | none =>
    obtain ⟨rfl, h⟩ := h
    refine first_opt_none (fails_seq (fails_cls fun x hx => ?_))
    simp only [beq_eq_false_iff_ne]
    rintro rfl; exact h hx

theorem first_fragment {c : List (Nat × Str)} {s : Str} {f : Option Str} (h : FragmentOf s f) :
    ∃ r, first (opt (seq (chr '#') (grp 5 (star (cls dotC))))) (c, s) = some (cap 5 f c, r) := by
  cases f with
  | some a =>
    obtain ⟨r, rfl, h1, h2⟩ := h
    refine ⟨r, first_opt_some (first_seq (t := (c, a ++ r)) first_chr (first_grp ?_))⟩
    refine first_star_cls (fun x hx => ?_) fun x hx => ?_
    · simp only [dotC, bne_iff_ne]; rintro rfl; exact h1 hx
    · rw [h2 x hx]; rfl
  | none =>
    refine ⟨s, first_opt_none (fails_seq (fails_cls fun x hx => ?_))⟩
    simp only [beq_eq_false_iff_ne]
    rintro rfl; exact h hx

/-- Parsing, by parts. -/
theorem parse_parts {s : Str} {sch au q f : Option Str} {p : Str} (h : Parts s sch au p q f) :
    parse ip s = (parseAuthority ip (au.getD []) >>= fun a =>
      .ok ⟨lower (sch.getD []), a, if sch.isSome then normPath p else p, pctUpper (q.getD []), pctUpper (f.getD [])⟩) := by
  obtain ⟨r1, r2, r3, r4, h1, h2, h3, h4, h5⟩ := h
  obtain ⟨r5, h5⟩ := first_fragment (c := cap 4 q ((3, p) :: cap 2 au (cap 1 sch []))) h5
  have key : pyMatch uriMatcher s = some (cap 5 f (cap 4 q ((3, p) :: cap 2 au (cap 1 sch []))), r5) :=
    first_seq (first_scheme h1) (first_seq (first_authority h2) (first_seq (first_path h3) (first_seq (first_query h4) h5)))
  have hs : lower (sch.getD []) ≠ [] ↔ sch.isSome = true := by
    cases sch with
    | none => simp [lower]
    | some x =>
      obtain ⟨⟨a, r, rfl, _⟩, _⟩ := h1
      simp [lower]
  have g1 : (group (cap 5 f (cap 4 q ((3, p) :: cap 2 au (cap 1 sch []))), r5) 1).getD [] = sch.getD [] := by
    cases sch <;> cases au <;> cases q <;> cases f <;> rfl
  have g2 : (group (cap 5 f (cap 4 q ((3, p) :: cap 2 au (cap 1 sch []))), r5) 2).getD [] = au.getD [] := by
    cases sch <;> cases au <;> cases q <;> cases f <;> rfl
  have g3 : (group (cap 5 f (cap 4 q ((3, p) :: cap 2 au (cap 1 sch []))), r5) 3).getD [] = p := by
    cases sch <;> cases au <;> cases q <;> cases f <;> rfl
  have g4 : (group (cap 5 f (cap 4 q ((3, p) :: cap 2 au (cap 1 sch []))), r5) 4).getD [] = q.getD [] := by
    cases sch <;> cases au <;> cases q <;> cases f <;> rfl
  have g5 : (group (cap 5 f (cap 4 q ((3, p) :: cap 2 au (cap 1 sch []))), r5) 5).getD [] = f.getD [] := by
    cases sch <;> cases au <;> cases q <;> cases f <;> rfl
  unfold parse
  rw [key]
  simp only [g1, g2, g3, g4, g5, hs]

end Verif.Uri
