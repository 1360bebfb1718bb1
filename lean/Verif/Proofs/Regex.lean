import Verif.Py.Regex
/-! # The backtracking matcher and the language relation agree -/

namespace Verif.Re
open Verif

/-- The set of possible remainders of `r` on `s`. -/
def Rem (r : Re) (s t : Str) : Prop := ∀ c, ∃ c', (c', t) ∈ run r (c, s)

theorem lang_of_mem {r : Re} (hp : plain r = true) :
    ∀ {c c' : List (Nat × Str)} {s t : Str}, (c', t) ∈ run r (c, s) → Lang r s t := by
  induction r with
  | eps => intro c c' s t h; simp [run] at h; rw [h.2]; exact .eps
  | cls p =>
    intro c c' s t h
    cases s with
    | nil => simp [run] at h
    | cons a s =>
      simp only [run] at h
      split at h
      · simp at h; rw [h.2]; exact .cls (by assumption)
      · simp at h
  | seq r t ihr iht =>
    intro c c' s u h
    simp only [plain, Bool.and_eq_true] at hp
    simp only [run, List.mem_flatMap] at h
    obtain ⟨⟨c1, w⟩, h1, h2⟩ := h
    exact .seq (ihr hp.1 h1) (iht hp.2 h2)
  | alt r t ihr iht =>
    intro c c' s u h
    simp only [plain, Bool.and_eq_true] at hp
    simp only [run, List.mem_append] at h
    rcases h with h | h
    · exact .altL (ihr hp.1 h)
    · exact .altR (iht hp.2 h)
  | star r ih =>
    intro c c' s u h
    simp only [plain] at hp
    simp only [run] at h
    generalize hn : s.length + 1 = n at h
    clear hn
    induction n generalizing c c' s u with
    | zero => simp [starRun] at h; rw [h.2]; exact .starNil
    | succ n ihn =>
      simp only [starRun, List.mem_append, List.mem_flatMap, List.mem_filter, List.mem_singleton] at h
      rcases h with ⟨⟨c1, w⟩, ⟨h1, h2⟩, h3⟩ | h
      · exact .starCons (ih hp h1) (by simpa using h2) (ihn h3)
      · simp at h; rw [h.2]; exact .starNil
  | grp n r ih =>
    intro c c' s u h
    simp only [plain] at hp
    simp only [run, List.mem_map] at h
    obtain ⟨⟨c1, w⟩, h1, h2⟩ := h
    simp at h2
    exact .grp (ih hp (h2.2 ▸ h1))
  | look r => simp [plain] at hp
  | nlook r => simp [plain] at hp
  | eol =>
    intro c c' s u h
    simp only [run] at h
    split at h
    · simp at h; rw [h.2]; exact .eol (by assumption)
    · simp at h

theorem mem_of_lang {r : Re} {s t : Str} (h : Lang r s t) : Rem r s t := by
  induction h with
  | eps => intro c; exact ⟨c, by simp [run]⟩
  | cls h => intro c; exact ⟨c, by simp [run, h]⟩
  | seq _ _ ih1 ih2 =>
    intro c
    obtain ⟨c1, h1⟩ := ih1 c
    obtain ⟨c2, h2⟩ := ih2 c1
    exact ⟨c2, by simp only [run, List.mem_flatMap]; exact ⟨_, h1, h2⟩⟩
  | altL _ ih =>
    intro c
    obtain ⟨c1, h1⟩ := ih c
    exact ⟨c1, by simp [run, h1]⟩
  | altR _ ih =>
    intro c
    obtain ⟨c1, h1⟩ := ih c
    exact ⟨c1, by simp [run, h1]⟩
  | starNil =>
    intro c
    exact ⟨c, by simp [run, starRun]⟩
  | @starCons r s u w _ hlt _ ih1 ih2 =>
    intro c
    obtain ⟨c1, h1⟩ := ih1 c
    obtain ⟨c2, h2⟩ := ih2 c1
    refine ⟨c2, ?_⟩
    simp only [run, starRun, List.mem_append, List.mem_flatMap, List.mem_filter]
    refine Or.inl ⟨_, ⟨h1, by simpa using hlt⟩, ?_⟩
    simp only [run] at h2
    have mono : ∀ (n m : Nat) (x y : St), n ≤ m → y ∈ starRun (run r) n x → x.2.length < n →
        y ∈ starRun (run r) m x := by
      intro n
      induction n with
      | zero => intro m x y _ _ h; omega
      | succ n ihn =>
        intro m x y hm hy hl
        obtain ⟨m, rfl⟩ : ∃ k, m = k + 1 := ⟨m - 1, by omega⟩
        simp only [starRun, List.mem_append, List.mem_flatMap, List.mem_filter] at hy ⊢
        rcases hy with ⟨a, ⟨ha, hb⟩, hc⟩ | hy
        · exact Or.inl ⟨a, ⟨ha, hb⟩, ihn m a y (by omega) hc (by simp at hb; omega)⟩
        · exact Or.inr hy
    exact mono _ _ _ _ (by omega) h2 (by simp)
  | grp _ ih =>
    intro c
    obtain ⟨c1, h1⟩ := ih c
    exact ⟨_, by simp only [run, List.mem_map]; exact ⟨_, h1, rfl⟩⟩
  | eol h => intro c; exact ⟨c, by simp [run, h]⟩

theorem run_ne_nil_iff {r : Re} (hp : plain r = true) (s : Str) :
    (pyMatch r s).isSome = true ↔ ∃ t, Lang r s t := by
  unfold pyMatch
  constructor
  · intro h
    cases hr : run r ([], s) with
    | nil => simp [hr] at h
    | cons x xs => exact ⟨x.2, lang_of_mem hp (c' := x.1) (by rw [hr]; simp)⟩
  · rintro ⟨t, h⟩
    obtain ⟨c, hc⟩ := mem_of_lang h []
    cases hr : run r ([], s) with
    | nil => simp [hr] at hc
    | cons x xs => simp

theorem fullmatch_iff {r : Re} (hp : plain r = true) (s : Str) :
    (pyFullmatch r s).isSome = true ↔ Lang r s [] := by
  unfold pyFullmatch
  rw [List.find?_isSome]
  constructor
  · rintro ⟨⟨c, t⟩, h, ht⟩
    simp at ht; subst ht
    exact lang_of_mem hp h
  · intro h
    obtain ⟨c, hc⟩ := mem_of_lang h []
    exact ⟨_, hc, by simp⟩

/-! ## Inversion lemmas -/

@[simp] theorem lang_eps {s t : Str} : Lang eps s t ↔ t = s :=
  ⟨fun h => by cases h; rfl, fun h => h ▸ .eps⟩

@[simp] theorem lang_cls {p : Char → Bool} {s t : Str} : Lang (cls p) s t ↔ ∃ c, p c = true ∧ s = c :: t :=
  ⟨fun h => by cases h with | cls h => exact ⟨_, h, rfl⟩, fun ⟨_, h, e⟩ => e ▸ .cls h⟩

@[simp] theorem lang_chr {a : Char} {s t : Str} : Lang (chr a) s t ↔ s = a :: t := by
  simp [chr]

@[simp] theorem lang_seq {r q : Re} {s t : Str} : Lang (seq r q) s t ↔ ∃ u, Lang r s u ∧ Lang q u t :=
  ⟨fun h => by cases h with | seq h1 h2 => exact ⟨_, h1, h2⟩, fun ⟨_, h1, h2⟩ => .seq h1 h2⟩

@[simp] theorem lang_alt {r q : Re} {s t : Str} : Lang (alt r q) s t ↔ Lang r s t ∨ Lang q s t :=
  ⟨fun h => by cases h with
    | altL h => exact .inl h
    | altR h => exact .inr h, fun h => h.elim .altL .altR⟩

@[simp] theorem lang_grp {n : Nat} {r : Re} {s t : Str} : Lang (grp n r) s t ↔ Lang r s t :=
  ⟨fun h => by cases h with | grp h => exact h, .grp⟩

@[simp] theorem lang_eol {s t : Str} : Lang eol s t ↔ t = s ∧ (s = [] ∨ s = ['\n']) :=
  ⟨fun h => by cases h with | eol h => exact ⟨rfl, h⟩, fun ⟨e, h⟩ => by subst e; exact .eol h⟩

@[simp] theorem lang_opt {r : Re} {s t : Str} : Lang (opt r) s t ↔ Lang r s t ∨ t = s := by
  simp [opt]

theorem lang_lit {l s t : Str} : Lang (lit l) s t ↔ s = l ++ t := by
  induction l generalizing s with
  | nil => simp [lit, eq_comm]
  | cons c cs ih => simp [lit, ih]

theorem lang_length {r : Re} {s t : Str} (h : Lang r s t) : t.length ≤ s.length := by
  induction h with
  | eps => simp
  | cls => simp
  | seq _ _ h1 h2 => omega
  | altL _ h => exact h
  | altR _ h => exact h
  | starNil => simp
  | starCons _ _ _ h1 h2 => omega
  | grp _ h => exact h
  | eol => simp

/-- Every match removes a prefix. -/
theorem lang_suffix {r : Re} {s t : Str} (h : Lang r s t) : ∃ p, s = p ++ t := by
  induction h with
  | eps => exact ⟨[], rfl⟩
  | cls => exact ⟨[_], rfl⟩
  | seq _ _ h1 h2 =>
    obtain ⟨p, rfl⟩ := h1
    obtain ⟨q, rfl⟩ := h2
    exact ⟨p ++ q, by simp⟩
  | altL _ h => exact h
  | altR _ h => exact h
  | starNil => exact ⟨[], rfl⟩
  | starCons _ _ _ h1 h2 =>
    obtain ⟨p, rfl⟩ := h1
    obtain ⟨q, rfl⟩ := h2
    exact ⟨p ++ q, by simp⟩
  | grp _ h => exact h
  | eol => exact ⟨[], rfl⟩

/-- Repetition of a character class matches any run of such characters. -/
theorem lang_star_cls {p : Char → Bool} {s t : Str} :
    Lang (star (cls p)) s t ↔ ∃ u, s = u ++ t ∧ ∀ c ∈ u, p c = true := by
  constructor
  · intro h
    generalize hr : star (cls p) = r at h
    induction h with
    | starNil => exact ⟨[], rfl, by simp⟩
    | starCons h1 _ _ _ ih =>
      cases hr
      obtain ⟨u, rfl, hu⟩ := ih rfl
      simp at h1
      obtain ⟨c, hc, rfl⟩ := h1
      exact ⟨c :: u, rfl, by simp; exact ⟨hc, hu⟩⟩
    | _ => cases hr
  · rintro ⟨u, rfl, hu⟩
    induction u with
    | nil => exact .starNil
    | cons c u ih =>
      exact .starCons (.cls (hu c (by simp))) (by simp) (ih fun d hd => hu d (by simp [hd]))

end Verif.Re
