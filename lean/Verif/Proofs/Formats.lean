import Verif.Model.Formats
import Verif.Spec.Formats
import Verif.Proofs.Duration
/-! # Lemmas on the patterns of the formats -/

namespace Verif.Formats
open Verif Re Iso

variable {s t : Str}

theorem digitA_iff {c : Char} : digitA c = true ↔ c.isDigit = true := by
  simp only [digitA, Char.isDigit, Bool.and_eq_true, decide_eq_true_eq, char_le]
  rfl

theorem letterI_iff {c : Char} : letterI c = true ↔ LetterI c := by
  simp [letterI, LetterI, Letter, or_assoc]

theorem alnumI_iff {c : Char} : alnumI c = true ↔ LetterI c ∨ c.isDigit = true := by
  simp [alnumI, letterI_iff, digitA_iff]

theorem alnumDashI_iff {c : Char} : alnumDashI c = true ↔ LetterI c ∨ c.isDigit = true ∨ c = '-' := by
  simp [alnumDashI, alnumI_iff, or_assoc]

theorem lang_upTo {p : Char → Bool} {n : Nat} :
    Lang (upTo (cls p) n) s t ↔ ∃ T, s = T ++ t ∧ T.length ≤ n ∧ ∀ c ∈ T, p c = true := by
  induction n generalizing s with
  | zero =>
    simp only [upTo, lang_eps]
    constructor
    · rintro rfl; exact ⟨[], rfl, by simp, by simp⟩
    · rintro ⟨T, rfl, h, _⟩
      have : T = [] := by simpa using h
      simp [this]
  | succ n ih =>
    simp only [upTo, lang_opt, lang_seq, lang_cls, ih]
    constructor
    · rintro (⟨_, ⟨a, ha, rfl⟩, T, rfl, hl, hT⟩ | rfl)
      · exact ⟨a :: T, rfl, by simpa using hl, by simpa using ⟨ha, hT⟩⟩
      · exact ⟨[], rfl, by simp, by simp⟩
    · rintro ⟨T, rfl, hl, hT⟩
      cases T with
      | nil => exact .inr rfl
      | cons a T => exact .inl ⟨_, ⟨a, hT a (by simp), rfl⟩, T, rfl, by simpa using hl, fun c hc => hT c (by simp [hc])⟩

/-- Repetition of something that is never empty. -/
theorem lang_star {r : Re} {P : Str → Prop} (hP : ∀ {s t : Str}, Lang r s t ↔ ∃ T, s = T ++ t ∧ P T) (hn : ∀ T, P T → T ≠ []) :
    Lang (star r) s t ↔ ∃ Ts : List Str, (∀ T ∈ Ts, P T) ∧ s = Ts.flatten ++ t := by
  constructor
  · intro h
    generalize hr : star r = q at h
    induction h with
    | starNil => exact ⟨[], by simp, rfl⟩
    | starCons h1 _ _ _ ih =>
      cases hr
      obtain ⟨Ts, hTs, rfl⟩ := ih rfl
      obtain ⟨T, rfl, hT⟩ := hP.1 h1
      exact ⟨T :: Ts, by simpa using ⟨hT, hTs⟩, by simp⟩
    | _ => cases hr
  · rintro ⟨Ts, hTs, rfl⟩
    induction Ts with
    | nil => exact .starNil
    | cons T Ts ih =>
      have hT := hTs T (by simp)
      refine .starCons (hP.2 ⟨T, by simp, hT⟩) ?_ (ih fun x hx => hTs x (by simp [hx]))
      have := hn T hT
      have : T.length ≠ 0 := by simpa using this
      simp; omega

theorem alnumI_ne_dash {c : Char} (h : alnumI c = true) : c ≠ '-' := by
  rintro rfl; revert h; decide

theorem label_iff {T : Str} : (∃ a M, alnumI a = true ∧ M.length ≤ 61 ∧ (∀ c ∈ M, alnumDashI c = true) ∧
    (T = [a] ∧ M = [] ∨ ∃ b, alnumI b = true ∧ T = a :: (M ++ [b]))) ↔ Label LetterI T := by
  have dash : ∀ c, alnumI c = true → alnumDashI c = true := fun c h => by simp [alnumDashI, h]
  have split : ∀ c, alnumDashI c = true → c ≠ '-' → alnumI c = true := by
    intro c h hn
    simp only [alnumDashI, Bool.or_eq_true, beq_iff_eq] at h
    exact h.resolve_right hn
  constructor
  · rintro ⟨a, M, ha, hM, hd, ⟨rfl, rfl⟩ | ⟨b, hb, rfl⟩⟩
    · refine ⟨by simp, by simp, ?_, ?_, ?_⟩
      · intro c hc; simp at hc; subst hc; exact alnumDashI_iff.1 (dash _ ha)
      · simpa using alnumI_ne_dash ha
      · simpa using alnumI_ne_dash ha
    · refine ⟨by simp, by simp; omega, ?_, ?_, ?_⟩
      · intro c hc
        simp at hc
        rcases hc with rfl | hc | rfl
        · exact alnumDashI_iff.1 (dash _ ha)
        · exact alnumDashI_iff.1 (hd c hc)
        · exact alnumDashI_iff.1 (dash _ hb)
      · simpa using alnumI_ne_dash ha
      · rw [← List.cons_append, List.getLast?_append]; simpa using alnumI_ne_dash hb
  · rintro ⟨h1, h2, h3, h4, h5⟩
    cases T with
    | nil => exact absurd rfl h1
    | cons a T =>
      have h3' : ∀ c ∈ a :: T, alnumDashI c = true := fun c hc => alnumDashI_iff.2 (h3 c hc)
      have ha : alnumI a = true := split a (h3' a (by simp)) (by simpa using h4)
      rcases List.eq_nil_or_concat T with rfl | ⟨M, b, rfl⟩
      · exact ⟨a, [], ha, by simp, by simp, .inl ⟨rfl, rfl⟩⟩
      · refine ⟨a, M, ha, by simp at h2; omega, fun c hc => h3' c (by simp [hc]), .inr ⟨b, ?_, by simp⟩⟩
        refine split b (h3' b (by simp)) ?_
        rw [List.concat_eq_append, ← List.cons_append, List.getLast?_append] at h5
        simpa using h5

theorem lang_label : Lang labelRe s t ↔ ∃ T, s = T ++ t ∧ Label LetterI T := by
  simp only [labelRe, lang_seq, lang_cls, lang_opt, lang_upTo, ← label_iff]
  constructor
  · rintro ⟨_, ⟨a, ha, rfl⟩, ⟨_, ⟨M, rfl, hl, hM⟩, b, hb, rfl⟩ | rfl⟩
    · exact ⟨a :: (M ++ [b]), by simp, a, M, ha, hl, hM, .inr ⟨b, hb, rfl⟩⟩
    · exact ⟨[a], rfl, a, [], ha, by simp, by simp, .inl ⟨rfl, rfl⟩⟩
  · rintro ⟨_, rfl, a, M, ha, hl, hM, ⟨rfl, rfl⟩ | ⟨b, hb, rfl⟩⟩
    · exact ⟨t, ⟨a, ha, rfl⟩, .inr rfl⟩
    · exact ⟨M ++ ([b] ++ t), ⟨a, ha, by simp⟩, .inl ⟨b :: t, ⟨M, rfl, hl, hM⟩, b, hb, rfl⟩⟩

theorem strJoin_cons (x : Str) (xs : List Str) : strJoin c!"." (x :: xs) = x ++ (xs.map ('.' :: ·)).flatten := by
  induction xs generalizing x with
  | nil => simp [strJoin]
  | cons y ys ih =>
    simp only [List.map_cons, List.flatten_cons]
    rw [strJoin, ih]
    simp

/-- One or more pieces separated by points. -/
theorem lang_dotted {r : Re} {P : Str → Prop} (hP : ∀ {s t : Str}, Lang r s t ↔ ∃ T, s = T ++ t ∧ P T) :
    Lang (seq r (star (seq (chr '.') r))) s t ↔ ∃ T, s = T ++ t ∧ ∃ Ls, Ls ≠ [] ∧ (∀ L ∈ Ls, P L) ∧ T = strJoin c!"." Ls := by
  have hdot : ∀ {s t : Str}, Lang (seq (chr '.') r) s t ↔ ∃ T, s = T ++ t ∧ ∃ L, P L ∧ T = '.' :: L := by
    intro s t
    simp only [lang_seq, lang_chr, hP]
    constructor
    · rintro ⟨_, rfl, L, rfl, hL⟩; exact ⟨_, rfl, L, hL, rfl⟩
    · rintro ⟨_, rfl, L, hL, rfl⟩; exact ⟨_, rfl, L, rfl, hL⟩
  rw [lang_seq]
  simp only [lang_star hdot (by rintro _ ⟨L, _, rfl⟩; simp), hP]
  constructor
  · rintro ⟨_, ⟨L, rfl, hL⟩, Ts, hTs, rfl⟩
    have : ∃ Ls : List Str, (∀ L ∈ Ls, P L) ∧ Ts = Ls.map ('.' :: ·) := by
      clear hL
      induction Ts with
      | nil => exact ⟨[], by simp, rfl⟩
      | cons T Ts ih =>
        obtain ⟨Ls, h1, rfl⟩ := ih fun x hx => hTs x (by simp [hx])
        obtain ⟨L, hL, rfl⟩ := hTs T (by simp)
        exact ⟨L :: Ls, by simpa using ⟨hL, h1⟩, rfl⟩
    obtain ⟨Ls, h1, rfl⟩ := this
    exact ⟨_, (List.append_assoc _ _ _).symm, L :: Ls, by simp, by simpa using ⟨hL, h1⟩, (strJoin_cons L Ls).symm⟩
  · rintro ⟨_, rfl, Ls, hn, hLs, rfl⟩
    cases Ls with
    | nil => exact absurd rfl hn
    | cons L Ls =>
      rw [strJoin_cons]
      refine ⟨_, ⟨L, List.append_assoc _ _ _, hLs L (by simp)⟩, Ls.map ('.' :: ·), ?_, rfl⟩
      intro T hT
      simp at hT
      obtain ⟨x, hx, rfl⟩ := hT
      exact ⟨x, hLs x (by simp [hx]), rfl⟩

theorem lang_labels : Lang labelsRe s t ↔ ∃ T, s = T ++ t ∧ HostText LetterI T := lang_dotted lang_label

theorem lang_plus {p : Char → Bool} : Lang (plus (cls p)) s t ↔ ∃ T, s = T ++ t ∧ (T ≠ [] ∧ ∀ c ∈ T, p c = true) := by
  simp only [plus, lang_seq, lang_cls, lang_star_cls]
  constructor
  · rintro ⟨_, ⟨a, ha, rfl⟩, T, rfl, hT⟩
    exact ⟨a :: T, rfl, by simp, by simpa using ⟨ha, hT⟩⟩
  · rintro ⟨T, rfl, hn, hT⟩
    cases T with
    | nil => exact absurd rfl hn
    | cons a T => exact ⟨_, ⟨a, hT a (by simp), rfl⟩, T, rfl, fun c hc => hT c (by simp [hc])⟩

theorem lang_idents : Lang identsRe s t ↔ ∃ T, s = T ++ t ∧ Idents LetterI T := by
  refine (lang_dotted (P := fun I => I ≠ [] ∧ ∀ c ∈ I, LetterI c ∨ c.isDigit = true ∨ c = '-') ?_)
  intro s t
  simp only [lang_plus, alnumDashI_iff]

theorem matches_iff {r : Re} (hp : plain r = true) : matches? r s = true ↔ ∃ t, Lang r s t := by
  rw [matches?, run_ne_nil_iff hp]

theorem mem_join {sep : Str} {Ls : List Str} {L : Str} {c : Char} (hL : L ∈ Ls) (hc : c ∈ L) : c ∈ strJoin sep Ls := by
  induction Ls with
  | nil => simp at hL
  | cons x Ls ih =>
    cases Ls with
    | nil => simp at hL; subst hL; simpa [strJoin] using hc
    | cons y ys =>
      rcases List.mem_cons.1 hL with rfl | h
      · simp [strJoin, hc]
      · simp only [strJoin, List.mem_append]; exact .inr (ih h)

section
variable {p q : Char → Prop}

theorem label_mono {L : Str} (h : ∀ c ∈ L, p c → q c) (hl : Label p L) : Label q L := by
  obtain ⟨h1, h2, h3, h4⟩ := hl
  exact ⟨h1, h2, fun c hc => (h3 c hc).imp_left (h c hc), h4⟩

theorem host_mono (h : ∀ c ∈ s, p c → q c) (hs : HostText p s) : HostText q s := by
  obtain ⟨Ls, h1, h2, rfl⟩ := hs
  exact ⟨Ls, h1, fun L hL => label_mono (fun c hc => h c (mem_join hL hc)) (h2 L hL), rfl⟩

theorem email_mono (h : ∀ c ∈ s, p c → q c) (hs : EmailText p s) : EmailText q s := by
  obtain ⟨l, t, h1, h2, h3, rfl, h4⟩ := hs
  exact ⟨l, t, h1, fun c hc => (h2 c hc).imp_left (h c (by simp [hc])), host_mono (fun c hc => h c (by simp [hc])) h3, rfl, h4⟩

theorem idents_mono (h : ∀ c ∈ s, p c → q c) (hs : Idents p s) : Idents q s := by
  obtain ⟨Is, h1, h2, rfl⟩ := hs
  exact ⟨Is, h1, fun I hI => ⟨(h2 I hI).1, fun c hc => ((h2 I hI).2 c hc).imp_left (h c (mem_join hI hc))⟩, rfl⟩

theorem semver_mono (h : ∀ c ∈ s, p c → q c) (hs : SemverText p s) : SemverText q s := by
  obtain ⟨x, y, z, P, B, hx, hy, hz, hp, hb, rfl⟩ := hs
  refine ⟨x, y, z, P, B, hx, hy, hz, ?_, ?_, rfl⟩
  · rcases hp with rfl | ⟨i, hi, rfl⟩
    · exact .inl rfl
    · exact .inr ⟨i, idents_mono (fun c hc => h c (by simp [hc])) hi, rfl⟩
  · rcases hb with rfl | ⟨i, hi, rfl⟩
    · exact .inl rfl
    · exact .inr ⟨i, idents_mono (fun c hc => h c (by simp [hc])) hi, rfl⟩

theorem uri_mono {u : UDB} (h : ∀ c ∈ s, p c → q c) (hs : UriText p u s) : UriText q u s := by
  obtain ⟨a, sch, r, ha, h1, h2, rfl⟩ := hs
  exact ⟨a, sch, r, h a (by simp) ha, fun c hc => (h1 c hc).imp_left (h c (by simp [hc])), h2, rfl⟩
end

theorem letter_ascii {c : Char} (h : c.toNat < 128) (hl : LetterI c) : Letter c := by
  refine hl.resolve_right fun hm => ?_
  simp only [List.mem_cons, List.not_mem_nil, or_false] at hm
  rcases hm with rfl | rfl | rfl | rfl <;> exact absurd h (by decide)

/-- On ASCII text that does not end in a newline nothing but the grammar is left. -/
theorem plain_text {G : (Char → Prop) → Str → Prop} (hm : ∀ {p q : Char → Prop} {s : Str}, (∀ c ∈ s, p c → q c) → G p s → G q s)
    (ha : ∀ c ∈ s, c.toNat < 128) (hn : s.getLast? ≠ some '\n') :
    (∃ t N, s = t ++ N ∧ End N ∧ G LetterI t) ↔ G Letter s := by
  constructor
  · rintro ⟨t, N, rfl, rfl | rfl, h⟩
    · exact hm (fun c hc => letter_ascii (ha c hc)) (by simpa using h)
    · simp at hn
  · intro h
    exact ⟨s, [], by simp, .inl rfl, hm (fun _ _ => .inl) h⟩

/-- A pattern up to the end or a last newline. -/
theorem matches_eol {r : Re} (hp : plain r = true) {P : Str → Prop} (hP : ∀ {s t : Str}, Lang r s t ↔ ∃ T, s = T ++ t ∧ P T) :
    matches? (seq r eol) s = true ↔ ∃ T N, s = T ++ N ∧ End N ∧ P T := by
  rw [matches_iff (by simp [plain, hp])]
  simp only [lang_seq, hP, lang_eol]
  constructor
  · rintro ⟨t, u, ⟨T, rfl, hT⟩, rfl, hN⟩; exact ⟨T, _, rfl, hN, hT⟩
  · rintro ⟨T, N, rfl, hN, hT⟩; exact ⟨N, N, ⟨T, rfl, hT⟩, rfl, hN⟩

theorem strContains_iff {sub : Str} : strContains sub s = true ↔ ∃ a b, s = a ++ (sub ++ b) := by
  induction s with
  | nil =>
    simp only [strContains, List.isPrefixOf_iff_prefix]
    constructor
    · rintro ⟨b, h⟩; exact ⟨[], b, by simpa using h.symm⟩
    · rintro ⟨a, b, h⟩
      have := congrArg List.length h
      simp at this
      have : sub = [] := List.eq_nil_of_length_eq_zero (by omega)
      simp [this]
  | cons x s ih =>
    simp only [strContains, Bool.or_eq_true, List.isPrefixOf_iff_prefix, ih]
    constructor
    · rintro (⟨b, h⟩ | ⟨a, b, rfl⟩)
      · exact ⟨[], b, by simpa using h.symm⟩
      · exact ⟨x :: a, b, rfl⟩
    · rintro ⟨a, b, h⟩
      cases a with
      | nil => exact .inl ⟨b, by simpa using h.symm⟩
      | cons y a => simp at h; exact .inr ⟨a, b, by simpa using h.2⟩

theorem localI_iff {c : Char} : localI c = true ↔ LetterI c ∨ c.isDigit = true ∨ c ∈ c!"-.!#$%&'*+/=?^_`{|}~" := by
  simp only [localI, Bool.or_eq_true, alnumDashI_iff, List.contains_iff_mem, List.mem_cons (a := c) (b := '-'), or_assoc]

theorem lang_email : Lang (seqs [plus (cls localI), chr '@', labelsRe]) s t ↔ ∃ T, s = T ++ t ∧
    ∃ l h, l ≠ [] ∧ (∀ c ∈ l, LetterI c ∨ c.isDigit = true ∨ c ∈ c!"-.!#$%&'*+/=?^_`{|}~") ∧ HostText LetterI h ∧ T = l ++ '@' :: h := by
  simp only [seqs, lang_seq, lang_plus, lang_chr, lang_labels, localI_iff]
  constructor
  · rintro ⟨_, ⟨l, rfl, hl, hc⟩, _, rfl, h, rfl, hh⟩
    exact ⟨l ++ '@' :: h, by simp, l, h, hl, hc, hh, rfl⟩
  · rintro ⟨_, rfl, l, h, hl, hc, hh, rfl⟩
    exact ⟨'@' :: (h ++ t), ⟨l, by simp, hl, hc⟩, h ++ t, rfl, h, rfl, hh⟩

theorem lang_semver : Lang (seqs [plus (cls digitA), chr '.', plus (cls digitA), chr '.', plus (cls digitA),
    opt (seq (chr '-') identsRe), opt (seq (chr '+') identsRe)]) s t ↔ ∃ T, s = T ++ t ∧ SemverText LetterI T := by
  have opt1 : ∀ {a : Char} {s t : Str}, Lang (opt (seq (chr a) identsRe)) s t ↔
      ∃ p, s = p ++ t ∧ (p = [] ∨ ∃ i, Idents LetterI i ∧ p = a :: i) := by
    intro a s t
    simp only [lang_opt, lang_seq, lang_chr, lang_idents]
    constructor
    · rintro (⟨_, rfl, i, rfl, hi⟩ | rfl)
      · exact ⟨a :: i, rfl, .inr ⟨i, hi, rfl⟩⟩
      · exact ⟨[], rfl, .inl rfl⟩
    · rintro ⟨_, rfl, rfl | ⟨i, hi, rfl⟩⟩
      · exact .inr rfl
      · exact .inl ⟨_, rfl, i, rfl, hi⟩
  simp only [seqs, lang_seq (q := opt _), lang_seq (q := seq _ _), opt1, lang_plus, lang_chr, digitA_iff]
  constructor
  · rintro ⟨_, ⟨x, rfl, hx⟩, _, rfl, _, ⟨y, rfl, hy⟩, _, rfl, _, ⟨z, rfl, hz⟩, _, ⟨p, rfl, hp⟩, b, rfl, hb⟩
    exact ⟨x ++ '.' :: (y ++ '.' :: (z ++ (p ++ b))), by simp, x, y, z, p, b, hx, hy, hz, hp, hb, rfl⟩
  · rintro ⟨_, rfl, x, y, z, p, b, hx, hy, hz, hp, hb, rfl⟩
    exact ⟨'.' :: (y ++ '.' :: (z ++ (p ++ (b ++ t)))), ⟨x, by simp, hx⟩, _, rfl, '.' :: (z ++ (p ++ (b ++ t))), ⟨y, rfl, hy⟩, _, rfl,
      _, ⟨z, rfl, hz⟩, _, ⟨p, rfl, hp⟩, b, rfl, hb⟩

theorem plus_to_dot {c : Char} : ('+' ≤ c ∧ c ≤ '.') ↔ c ∈ c!"+,-." := by
  simp only [char_le, List.mem_cons, List.not_mem_nil, or_false]
  have e1 : '+'.toNat = 43 := rfl
  have e2 : '.'.toNat = 46 := rfl
  have ext : ∀ d : Char, c = d ↔ c.toNat = d.toNat := fun d => ⟨fun h => h ▸ rfl, fun h => Char.toNat_inj.1 h⟩
  rw [ext, ext, ext, ext]
  have e3 : ','.toNat = 44 := rfl
  have e4 : '-'.toNat = 45 := rfl
  omega

theorem lang_uri {u : UDB} : Lang (seqs [cls letterI, star (cls fun c => alnumI c || ('+' ≤ c && c ≤ '.')), chr ':',
    opt (seqs [chr '\\', opt (chr '/'), chr '\\', chr '/']), star (cls fun c => !u.space c)]) s t ↔ ∃ T, s = T ++ t ∧ UriText LetterI u T := by
  have bs : ∀ {s t : Str}, Lang (opt (seqs [chr '\\', opt (chr '/'), chr '\\', chr '/'])) s t →
      ∃ p, s = p ++ t ∧ ∀ c ∈ p, u.space c = false := by
    intro s t h
    have sp : u.space '\\' = false ∧ u.space '/' = false := by
      constructor <;> (rw [u.space_ascii _ (by decide)]; decide)
    simp only [seqs, lang_opt, lang_seq, lang_chr] at h
    rcases h with ⟨_, rfl, _, rfl | rfl, _, rfl, rfl⟩ | rfl
    · exact ⟨c!"\\/\\/", rfl, by simp [sp.1, sp.2]⟩
    · exact ⟨c!"\\\\/", rfl, by simp [sp.1, sp.2]⟩
    · exact ⟨[], rfl, by simp⟩
  have cl : ∀ c, (alnumI c || (decide ('+' ≤ c) && decide (c ≤ '.'))) = true ↔ LetterI c ∨ c.isDigit = true ∨ c ∈ c!"+,-." := by
    intro c
    rw [Bool.or_eq_true, alnumI_iff, or_assoc]
    simp only [Bool.and_eq_true, decide_eq_true_eq, plus_to_dot]
  simp only [seqs, lang_seq (q := star _), lang_seq (q := seq _ _), lang_star_cls, lang_cls, lang_chr, cl, letterI_iff]
  constructor
  · rintro ⟨_, ⟨a, ha, rfl⟩, _, ⟨sch, rfl, hs⟩, _, rfl, _, h4, r, rfl, hr⟩
    obtain ⟨p, rfl, hp⟩ := bs h4
    refine ⟨a :: (sch ++ ':' :: (p ++ r)), by simp, a, sch, p ++ r, ha, hs, ?_, rfl⟩
    intro c hc
    rcases List.mem_append.1 hc with h | h
    · exact hp c h
    · simpa using hr c h
  · rintro ⟨_, rfl, a, sch, r, ha, hs, hr, rfl⟩
    exact ⟨sch ++ ':' :: (r ++ t), ⟨a, ha, by simp⟩, _, ⟨sch, rfl, hs⟩, _, rfl, _, .altR .eps, r, rfl, by simpa using hr⟩

end Verif.Formats
