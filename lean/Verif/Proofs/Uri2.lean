import Verif.Proofs.Uri
/-! # Printing URIs; absolute URIs -/

namespace Verif.Uri
open Verif Re Rfc3986 UriSpec
open Verif.Pointer (strSplit_ne_nil strSplit_none strSplit_append split_first)

theorem alpha_ascii {c : Char} (h : c.isAlpha = true) : c.toNat < 128 := by
  rw [← alpha_iff] at h
  simp only [alpha, Bool.or_eq_true, Bool.and_eq_true, decide_eq_true_eq] at h
  have : c ≤ 'z' := by
    rcases h with ⟨_, h⟩ | ⟨_, h⟩
    · exact h
    · exact Char.le_trans h (by decide)
  exact Nat.lt_of_le_of_lt this (by decide)

theorem digit_ascii {c : Char} (h : c.isDigit = true) : c.toNat < 128 := hex_ascii (hex_iff.2 (.inl h))

theorem toLower_char {c : Char} (h : c.isAlpha = true ∨ c.isDigit = true ∨ c ∈ c!"+.-") :
    (c.toLower.isAlpha = true ∨ c.toLower.isDigit = true ∨ c.toLower ∈ c!"+.-") ∧ c.toLower.toLower = c.toLower ∧
      (c.isAlpha = true → c.toLower.isAlpha = true) := by
  have ha : c.toNat < 128 := by
    rcases h with h | h | h
    · exact alpha_ascii h
    · exact digit_ascii h
    · exact (by decide : ∀ c ∈ c!"+.-", c.toNat < 128) c h
  have := ascii_all (P := fun c => !(c.isAlpha || c.isDigit || c!"+.-".contains c) ||
    ((c.toLower.isAlpha || c.toLower.isDigit || c!"+.-".contains c.toLower) && (c.toLower.toLower == c.toLower) &&
      (!c.isAlpha || c.toLower.isAlpha))) (by decide +kernel) c ha
  have hb : (c.isAlpha || c.isDigit || c!"+.-".contains c) = true := by
    simpa only [Bool.or_eq_true, List.contains_iff_mem, or_assoc] using h
  simp only [hb, Bool.not_true, Bool.false_or, Bool.and_eq_true, beq_iff_eq, Bool.or_eq_true, List.contains_iff_mem, or_assoc] at this
  refine ⟨this.1.1, this.1.2, fun h => ?_⟩
  simpa [h] using this.2

theorem scheme_chars {x : Str} (h : SchemeText x) : ∀ c ∈ x, c.isAlpha = true ∨ c.isDigit = true ∨ c ∈ c!"+.-" := by
  obtain ⟨a, r, rfl, ha, hr⟩ := h
  intro c hc
  rcases List.mem_cons.1 hc with rfl | hc
  · exact .inl ha
  · exact hr c hc

theorem lower_scheme {x : Str} (h : SchemeText x) : SchemeText (lower x) := by
  have hc := scheme_chars h
  obtain ⟨a, r, rfl, ha, hr⟩ := h
  refine ⟨a.toLower, lower r, rfl, (toLower_char (.inl ha)).2.2 ha, ?_⟩
  intro c hc
  obtain ⟨d, hd, rfl⟩ := List.mem_map.1 hc
  exact (toLower_char (hr d hd)).1

theorem lower_idem {x : Str} (h : SchemeText x) : lower (lower x) = lower x := by
  simp only [lower, List.map_map]
  exact List.map_congr_left fun c hc => (toLower_char (scheme_chars h c hc)).2.1

variable (ip : IpRe)

theorem not_plain_stop {c : Char} (h : c ∈ c!"\\/?#@:[]%") : ¬ Plain c := by
  intro hp
  have : regC c = true := regC_iff.2 hp
  revert this
  exact (by decide : ∀ c ∈ c!"\\/?#@:[]%", ¬ regC c = true) c h

theorem authText_mem {a : Authority} (h : AuthOk ip a) {c : Char} (hc : c ∈ authorityText a) :
    Plain c ∨ c ∈ c!"@:%[]" := by
  simp only [authorityText, List.mem_append] at hc
  rcases hc with (hc | hc) | hc
  · split at hc
    · simp at hc
    · rename_i hu
      rcases List.mem_append.1 hc with hc | hc
      · rcases enc_mem (h.user.resolve_left hu) hc with (h | h) | h | h
        · exact .inl h
        · right; simp [h]
        · right; simp [h]
        · exact .inl (hex_plain h)
      · right; simp at hc; simp [hc]
  · rcases host_mem ip h.host hc with h | h | h | h | h
    · exact .inl h
    all_goals right; simp [h]
  · split at hc
    · simp at hc
    · rename_i hp
      rcases List.mem_cons.1 hc with rfl | hc
      · right; simp
      · exact .inl (plain_of_digit ((h.port.resolve_left hp).2.2 c hc))

theorem authText_authC {a : Authority} (h : AuthOk ip a) : ∀ c ∈ authorityText a, c ∉ c!"\\/?#" := by
  intro c hc hm
  rcases authText_mem ip h hc with hp | hp
  · refine not_plain_stop (c := c) ?_ hp
    exact (by decide : ∀ c ∈ c!"\\/?#", c ∈ c!"\\/?#@:[]%") c hm
  · exact (by decide : ∀ c ∈ c!"\\/?#", c ∉ c!"@:%[]") c hm hp

theorem authText_eq (a : Authority) : (if authorityTrue a then authorityText a else []) = authorityText a := by
  split
  · rfl
  · rename_i h
    simp [authorityTrue] at h
    simp [authorityText, h]

def some' (s : Str) : Option Str := if s = [] then none else some s

theorem some'_getD (s : Str) : (some' s).getD [] = s := by
  unfold some'; split <;> simp_all

/-- Path, query and fragment as printed. -/
theorem tail_parts {p q f : Str} (hp : ∀ c ∈ p, c ≠ '?' ∧ c ≠ '#') (hq : '#' ∉ q) (hf : '\n' ∉ f) :
    ∃ r3 r4, PathOf (p ++ (if q = [] then [] else '?' :: q) ++ (if f = [] then [] else '#' :: f)) p r3 ∧ QueryOf r3 (some' q) r4 ∧
      FragmentOf r4 (some' f) := by
  refine ⟨(if q = [] then [] else '?' :: q) ++ (if f = [] then [] else '#' :: f), if f = [] then [] else '#' :: f, ⟨by simp, hp, ?_⟩, ?_, ?_⟩
  · intro c hc
    by_cases h1 : q = []
    · by_cases h2 : f = []
      · simp [h1, h2] at hc
      · simp [h1, h2] at hc; exact .inr hc.symm
    · simp [h1] at hc; exact .inl hc.symm
  · by_cases h1 : q = []
    · rw [some', if_pos h1, if_pos h1]
      refine ⟨rfl, ?_⟩
      by_cases h2 : f = [] <;> simp [h2]
    · rw [some', if_neg h1, if_neg h1]
      refine ⟨by simp, hq, ?_⟩
      intro c hc
      by_cases h2 : f = []
      · simp [h2] at hc
      · simp [h2] at hc; exact hc.symm
  · by_cases h2 : f = []
    · rw [some', if_pos h2, if_pos h2]; simp [FragmentOf]
    · rw [some', if_neg h2, if_neg h2]; exact ⟨[], by simp, hf, by simp⟩

theorem text_eq (u : Uri) : text u = (if u.scheme = [] then [] else u.scheme ++ c!"://") ++ (authorityText u.authority ++
    (u.path ++ (if u.query = [] then [] else '?' :: u.query) ++ (if u.fragment = [] then [] else '#' :: u.fragment))) := by
  simp only [text, authText_eq]; simp

/-- The parts of a printed URI with scheme. -/
theorem text_parts {u : Uri} (h1 : SchemeText u.scheme) (h2 : AuthOk ip u.authority) (h3 : ∀ c ∈ u.path, c ≠ '?' ∧ c ≠ '#')
    (h3' : u.path = [] ∨ u.path.head? = some '/') (h4 : '#' ∉ u.query) (h5 : '\n' ∉ u.fragment) :
    Parts (text u) (some u.scheme) (some (authorityText u.authority)) u.path (some' u.query) (some' u.fragment) := by
  obtain ⟨r3, r4, e3, e4, e5⟩ := tail_parts h3 h4 h5
  refine ⟨_, _, r3, r4, ⟨h1, ?_⟩, ⟨rfl, authText_authC ip h2, ?_⟩, e3, e4, e5⟩
  · rw [text_eq]
    obtain ⟨a, r, e, _⟩ := h1
    rw [e]; simp
  · intro c hc
    rcases h3' with h | h
    · rw [h] at hc
      by_cases h1 : u.query = []
      · by_cases h2 : u.fragment = []
        · simp [h1, h2] at hc
        · simp [h1, h2] at hc; simp [← hc]
      · simp [h1] at hc; simp [← hc]
    · cases hp : u.path with
      | nil => rw [hp] at h; simp at h
      | cons a p => rw [hp] at h hc; simp at h hc; simp [← hc, h]

/-- The parts of a printed URI with neither scheme nor authority. -/
theorem text_parts_rel {u : Uri} (h1 : u.scheme = []) (h2 : u.authority = ⟨[], [], []⟩) (h3 : ∀ c ∈ u.path, c ≠ '?' ∧ c ≠ '#')
    (hs : ¬ ∃ x r, SchemeText x ∧ u.path = x ++ ':' :: r) (ha : ∀ r, u.path ≠ '/' :: '/' :: r) (h4 : '#' ∉ u.query) (h5 : '\n' ∉ u.fragment) :
    Parts (text u) none none u.path (some' u.query) (some' u.fragment) := by
  obtain ⟨r3, r4, e3, e4, e5⟩ := tail_parts h3 h4 h5
  have ht : text u = u.path ++ (if u.query = [] then [] else '?' :: u.query) ++ (if u.fragment = [] then [] else '#' :: u.fragment) := by
    rw [text_eq, h1, h2]; simp [authorityText]
  have hstop : ∀ c r, (if u.query = [] then [] else '?' :: u.query) ++ (if u.fragment = [] then [] else '#' :: u.fragment) = c :: r →
      c = '?' ∨ c = '#' := by
    intro c r e
    by_cases h1 : u.query = []
    · by_cases h2 : u.fragment = []
      · simp [h1, h2] at e
      · simp [h1, h2] at e; exact .inr e.1.symm
    · simp [h1] at e; exact .inl e.1.symm
  -- a text without `?` and `#` at the start lies in the path
  have hpre : ∀ (x : Str) (r : Str), (∀ c ∈ x, c ≠ '?' ∧ c ≠ '#') → text u = x ++ r → ∃ r', u.path = x ++ r' := by
    intro x r hx e
    rw [ht, List.append_assoc] at e
    generalize (if u.query = [] then [] else '?' :: u.query) ++ (if u.fragment = [] then [] else '#' :: u.fragment) = w at e hstop
    rcases List.append_eq_append_iff.1 e with ⟨a, e1, e2⟩ | ⟨a, e1, e2⟩
    · cases a with
      | nil => exact ⟨[], by simpa using e1.symm⟩
      | cons c a =>
        have := hx c (by rw [e1]; simp)
        rcases hstop c _ e2 with h | h
        · exact absurd h this.1
        · exact absurd h this.2
    · exact ⟨a, e1⟩
  refine ⟨_, _, r3, r4, ⟨rfl, ?_⟩, ⟨rfl, ?_⟩, by rw [ht]; exact e3, e4, e5⟩
  · rintro ⟨x, r, hx, e⟩
    obtain ⟨r', e'⟩ := hpre (x ++ [':']) r (by
      intro c hc
      rcases List.mem_append.1 hc with hc | hc
      · have := scheme_chars hx c hc
        constructor <;> rintro rfl <;> revert this <;> decide
      · simp at hc; subst hc; decide) (by simpa using e)
    exact hs ⟨x, r', hx, by simpa using e'⟩
  · intro r e
    obtain ⟨r', e'⟩ := hpre c!"//" r (by decide) e
    exact ha r' e'

/-! ## Absolute URIs -/

theorem join_slash (x : Str) (xs : List Str) : strJoin c!"/" (x :: xs) = x ++ (xs.map ('/' :: ·)).flatten := by
  induction xs generalizing x with
  | nil => simp [strJoin]
  | cons y ys ih =>
    simp only [strJoin, List.map_cons, List.flatten_cons, List.cons_append]
    rw [ih]; simp

theorem lang_pchar {s t : Str} : Lang pcharRe s t ↔ ∃ T, s = T ++ t ∧ One SegChar T :=
  lang_one fun c => by simp [regC_iff, SegChar, or_assoc]

theorem lang_abempty {xs : List Str} (h : ∀ x ∈ xs, Enc SegChar x) (t : Str) : Lang abemptyRe ((xs.map ('/' :: ·)).flatten ++ t) t := by
  induction xs with
  | nil => exact .starNil
  | cons x xs ih =>
    refine .starCons (u := (xs.map ('/' :: ·)).flatten ++ t) ?_ (by simp; omega) (ih fun y hy => h y (by simp [hy]))
    rw [lang_seq]
    refine ⟨x ++ ((xs.map ('/' :: ·)).flatten ++ t), lang_chr.2 (by simp), (lang_encs lang_pchar).2 ⟨x, rfl, h x (by simp)⟩⟩

theorem enc_auth {x : Str} (h : Enc SegChar x) : ∀ c ∈ x, authC c = true := by
  intro c hc
  rw [authC_iff]
  intro hm
  have hn : ¬ Plain c := not_plain_stop ((by decide : ∀ c ∈ c!"\\/?#", c ∈ c!"\\/?#@:[]%") c hm)
  rcases enc_mem h hc with (h | h | h) | h | h
  · exact hn h
  · subst h; revert hm; decide
  · subst h; revert hm; decide
  · subst h; revert hm; decide
  · exact hn (hex_plain h)

theorem plain_absolute : plain absoluteMatcher = true := by
  rfl

/-- A text `scheme://…` whose path has only legal characters is absolute. -/
theorem absolute_of {x a p : Str} (hx : SchemeText x) (ha : ∀ c ∈ a, c ∉ c!"\\/?#") (hp : LegalPath p) :
    (pyMatch absoluteMatcher (x ++ c!"://" ++ (a ++ p))).isSome = true := by
  rw [run_ne_nil_iff plain_absolute]
  refine ⟨[], ?_⟩
  have hne := strSplit_ne_nil '/' p
  have hj := strJoin_split '/' p
  cases hs : strSplit '/' p with
  | nil => exact absurd hs hne
  | cons y ys =>
    rw [hs, join_slash] at hj
    have hl : ∀ z ∈ y :: ys, Enc SegChar z := by intro z hz; exact hp z (by rw [hs]; exact hz)
    simp only [absoluteMatcher, seqs, lang_seq]
    refine ⟨c!"://" ++ (a ++ p), lang_scheme.2 ⟨x, by simp, hx⟩, c!"//" ++ (a ++ p), lang_chr.2 rfl, [], ?_, [], ?_, ?_⟩
    · simp only [hierPartRe, alts, seqs, lang_alt, lang_seq]
      left
      refine ⟨a ++ p, lang_lit.2 rfl, (ys.map ('/' :: ·)).flatten ++ [], lang_star_cls.2 ⟨a ++ y, by rw [← hj]; simp, ?_⟩,
        lang_abempty (fun z hz => hl z (by simp [hz])) []⟩
      intro c hc
      rcases List.mem_append.1 hc with hc | hc
      · exact authC_iff.2 (ha c hc)
      · exact enc_auth (hl y (by simp)) c hc
    · rw [lang_opt]; exact .inr rfl
    · rw [lang_eol]; exact ⟨rfl, .inl rfl⟩

/-- An absolute text begins with a scheme. -/
theorem absolute_scheme {s : Str} (h : (pyMatch absoluteMatcher s).isSome = true) : ∃ x r, SchemeText x ∧ s = x ++ ':' :: r := by
  rw [run_ne_nil_iff plain_absolute] at h
  obtain ⟨t, h⟩ := h
  simp only [absoluteMatcher, seqs, lang_seq] at h
  obtain ⟨u, h1, v, h2, _⟩ := h
  obtain ⟨x, rfl, hx⟩ := lang_scheme.1 h1
  rw [lang_chr] at h2
  exact ⟨x, v, hx, by rw [h2]⟩

theorem baseUri_eq (u : Uri) : baseUri ip u = .ok ⟨u.scheme, u.authority, if u.scheme ≠ [] then normPath u.path else u.path, [], []⟩ := rfl

theorem legal_norm {p : Str} (h : LegalPath p) : LegalPath (normPath p) := by
  intro x hx
  rcases normPath_seg hx with rfl | ⟨y, hy, rfl⟩
  · exact .nil
  · have := h y hy
    clear hy hx h
    have hup : ∀ {c : Char}, Hex c → Hex c.toUpper := fun h => hex_iff.1 (hex_upper (hex_iff.2 h)).1
    induction this with
    | nil => exact .nil
    | chr hc _ ih =>
      rw [pctUpper_cons]
      · exact .chr hc ih
      · rintro a b r rfl
        rcases hc with h | h | h
        · exact absurd h (not_plain_stop (by decide))
        · exact absurd h (by decide)
        · exact absurd h (by decide)
    | pct ha hb _ ih =>
      rw [pctUpper_triple ⟨hex_iff.2 ha, hex_iff.2 hb⟩]
      exact .pct (hup ha) (hup hb) ih

/-! ## Following segments -/

theorem fold_follow {segs out res : List Str} (b : List Str) (h : follow out segs = some res) :
    segs.foldl dotStep (b ++ out.reverse) = b ++ res := by
  induction segs generalizing out with
  | nil => simp [follow] at h; simp [h]
  | cons x r ih =>
    simp only [follow] at h
    simp only [List.foldl_cons, dotStep]
    split at h
    · rename_i hx; rw [if_pos hx]; exact ih h
    · rename_i hx
      rw [if_neg hx]
      split at h
      · rename_i hy
        rw [if_neg (by simpa using hy)]
        cases out with
        | nil => simp at h
        | cons o out =>
          simp only at h
          have : (b ++ (o :: out).reverse).dropLast = b ++ out.reverse := by
            rw [List.reverse_cons, ← List.append_assoc, List.dropLast_concat]
          rw [this]; exact ih h
      · rename_i hy
        rw [if_pos hy]
        have := ih h
        simpa using this

end Verif.Uri
