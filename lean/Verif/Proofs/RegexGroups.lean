import Verif.Proofs.Regex
/-! # Captured groups -/

namespace Verif.Re
open Verif

theorem bare_plain {r : Re} (h : bare r = true) : plain r = true := by
  induction r with
  | seq r t h1 h2 => simp [bare] at h; simp [plain, h1 h.1, h2 h.2]
  | alt r t h1 h2 => simp [bare] at h; simp [plain, h1 h.1, h2 h.2]
  | star r h1 => simp [bare] at h; simp [plain, h1 h]
  | _ => simp_all [bare, plain]

theorem bare_caps {r : Re} (hp : bare r = true) :
    ∀ {c c' : List (Nat × Str)} {s t : Str}, (c', t) ∈ run r (c, s) → c' = c := by
  induction r with
  | eps => intro c c' s t h; simp [run] at h; exact h.1
  | cls p =>
    intro c c' s t h
    cases s with
    | nil => simp [run] at h
    | cons a s =>
      simp only [run] at h
      split at h
      · simp at h; exact h.1
      · simp at h
  | seq r t ihr iht =>
    intro c c' s u h
    simp only [bare, Bool.and_eq_true] at hp
    simp only [run, List.mem_flatMap] at h
    obtain ⟨⟨c1, w⟩, h1, h2⟩ := h
    exact (iht hp.2 h2).trans (ihr hp.1 h1)
  | alt r t ihr iht =>
    intro c c' s u h
    simp only [bare, Bool.and_eq_true] at hp
    simp only [run, List.mem_append] at h
    rcases h with h | h
    · exact ihr hp.1 h
    · exact iht hp.2 h
  | star r ih =>
    intro c c' s u h
    simp only [bare] at hp
    simp only [run] at h
    generalize hn : s.length + 1 = n at h
    clear hn
    induction n generalizing c c' s u with
    | zero => simp [starRun] at h; exact h.1
    | succ n ihn =>
      simp only [starRun, List.mem_append, List.mem_flatMap, List.mem_filter, List.mem_singleton] at h
      rcases h with ⟨⟨c1, w⟩, ⟨h1, h2⟩, h3⟩ | h
      · exact (ihn h3).trans (ih hp h1)
      · simp at h; exact h.1
  | grp n r => simp [bare] at hp
  | look r => simp [bare] at hp
  | nlook r => simp [bare] at hp
  | eol =>
    intro c c' s u h
    simp only [run] at h
    split at h
    · simp at h; exact h.1
    · simp at h

/-- `InRun r c s c' t`: matching `r` at `s` with captures `c` can leave `t` with captures `c'`. -/
def InRun (r : Re) (c : List (Nat × Str)) (s : Str) (c' : List (Nat × Str)) (t : Str) : Prop := (c', t) ∈ run r (c, s)

theorem inRun_bare {r : Re} (h : bare r = true) {c c' : List (Nat × Str)} {s t : Str} :
    InRun r c s c' t ↔ c' = c ∧ Lang r s t := by
  constructor
  · intro hm; exact ⟨bare_caps h hm, lang_of_mem (bare_plain h) hm⟩
  · rintro ⟨rfl, hl⟩
    obtain ⟨c1, h1⟩ := mem_of_lang hl c'
    have := bare_caps h h1
    subst this; exact h1

theorem inRun_seq {r q : Re} {c c' : List (Nat × Str)} {s t : Str} :
    InRun (seq r q) c s c' t ↔ ∃ c1 u, InRun r c s c1 u ∧ InRun q c1 u c' t := by
  simp [InRun, run, List.mem_flatMap]

theorem inRun_alt {r q : Re} {c c' : List (Nat × Str)} {s t : Str} :
    InRun (alt r q) c s c' t ↔ InRun r c s c' t ∨ InRun q c s c' t := by
  simp [InRun, run]

theorem inRun_eps {c c' : List (Nat × Str)} {s t : Str} : InRun eps c s c' t ↔ c' = c ∧ t = s := by
  simp [InRun, run]

theorem inRun_opt {r : Re} {c c' : List (Nat × Str)} {s t : Str} :
    InRun (opt r) c s c' t ↔ InRun r c s c' t ∨ c' = c ∧ t = s := by
  rw [opt, inRun_alt, inRun_eps]

/-- A group around a pattern without groups. -/
theorem inRun_grp {n : Nat} {r : Re} (h : bare r = true) {c c' : List (Nat × Str)} {s t : Str} :
    InRun (grp n r) c s c' t ↔ ∃ p, s = p ++ t ∧ Lang r s t ∧ c' = (n, p) :: c := by
  constructor
  · intro hm
    simp only [InRun, run, List.mem_map] at hm
    obtain ⟨⟨c1, w⟩, h1, h2⟩ := hm
    simp at h2
    obtain ⟨h2, rfl⟩ := h2
    have hl := lang_of_mem (bare_plain h) h1
    obtain ⟨p, rfl⟩ := lang_suffix hl
    refine ⟨p, rfl, hl, ?_⟩
    rw [← h2, bare_caps h h1]
    simp
  · rintro ⟨p, rfl, hl, rfl⟩
    have := (inRun_bare h (c := c) (c' := c)).2 ⟨rfl, hl⟩
    simp only [InRun, run, List.mem_map]
    exact ⟨_, this, by simp⟩

/-- What `re.match` finds is one of the possible matches. -/
theorem pyMatch_some {r : Re} {s : Str} {st : St} (h : pyMatch r s = some st) : InRun r [] s st.1 st.2 :=
  List.mem_of_mem_head? h

theorem pyMatch_none {r : Re} {s : Str} (h : pyMatch r s = none) (c : List (Nat × Str)) (t : Str) :
    ¬ InRun r [] s c t := by
  intro hm
  unfold pyMatch at h
  rw [List.head?_eq_none_iff] at h
  simp [InRun, h] at hm

theorem pyFullmatch_some {r : Re} {s : Str} {st : St} (h : pyFullmatch r s = some st) :
    InRun r [] s st.1 [] := by
  have h1 := List.mem_of_find?_eq_some h
  have h2 := List.find?_some h
  simp at h2
  rw [show st = (st.1, []) by rw [← h2]] at h1
  exact h1

theorem pyFullmatch_none {r : Re} {s : Str} (h : pyFullmatch r s = none) (c : List (Nat × Str)) :
    ¬ InRun r [] s c [] := by
  intro hm
  unfold pyFullmatch at h
  rw [List.find?_eq_none] at h
  exact h _ hm (by simp)

end Verif.Re
