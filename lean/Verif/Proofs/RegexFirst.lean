import Verif.Proofs.RegexGroups
/-! # The first match -/

namespace Verif.Re
open Verif

/-- The match that is tried first. -/
def first (r : Re) (s : St) : Option St := (run r s).head?

theorem pyMatch_first (r : Re) (s : Str) : pyMatch r s = first r ([], s) := rfl

/-- `r` does not match at `s`. -/
def Fails (r : Re) (s : St) : Prop := run r s = []

theorem head_flatMap {α β : Type} {l : List α} {f : α → List β} {x : α} {y : β} (h1 : l.head? = some x) (h2 : (f x).head? = some y) :
    (l.flatMap f).head? = some y := by
  cases l with
  | nil => simp at h1
  | cons a l => simp at h1; subst h1; simp [List.head?_append, h2]

theorem first_seq {r q : Re} {s t u : St} (h1 : first r s = some t) (h2 : first q t = some u) : first (seq r q) s = some u :=
  head_flatMap h1 h2

theorem first_eps (s : St) : first eps s = some s := rfl

theorem first_altL {r q : Re} {s t : St} (h : first r s = some t) : first (alt r q) s = some t := by
  simp only [first, run, List.head?_append] at h ⊢; simp [h]

theorem first_altR {r q : Re} {s t : St} (h : Fails r s) (h2 : first q s = some t) : first (alt r q) s = some t := by
  simp only [Fails] at h
  simp only [first, run, h, List.nil_append] at h2 ⊢; exact h2

theorem first_opt_none {r : Re} {s : St} (h : Fails r s) : first (opt r) s = some s := first_altR h (first_eps s)

theorem first_opt_some {r : Re} {s t : St} (h : first r s = some t) : first (opt r) s = some t := first_altL h

theorem first_cls {p : Char → Bool} {c : List (Nat × Str)} {x : Char} {s : Str} (h : p x = true) : first (cls p) (c, x :: s) = some (c, s) := by
  simp [first, run, h]

theorem first_chr {c : List (Nat × Str)} {x : Char} {s : Str} : first (chr x) (c, x :: s) = some (c, s) :=
  first_cls (by simp)

theorem first_lit {c : List (Nat × Str)} {l s : Str} : first (lit l) (c, l ++ s) = some (c, s) := by
  induction l with
  | nil => rfl
  | cons x l ih => exact first_seq first_chr ih

theorem first_eol {c : List (Nat × Str)} {s : Str} (h : s = [] ∨ s = ['\n']) : first eol (c, s) = some (c, s) := by
  simp [first, run, h]

theorem first_grp {n : Nat} {r : Re} {c c' : List (Nat × Str)} {p s : Str} (h : first r (c, p ++ s) = some (c', s)) :
    first (grp n r) (c, p ++ s) = some ((n, p) :: c', s) := by
  simp only [first, run, List.head?_map] at h ⊢
  rw [h]; simp

theorem fails_of_lang {r : Re} (hp : plain r = true) {c : List (Nat × Str)} {s : Str} (h : ∀ t, ¬ Lang r s t) : Fails r (c, s) := by
  rw [Fails, List.eq_nil_iff_forall_not_mem]
  rintro ⟨c', t⟩ hm
  exact h t (lang_of_mem hp hm)

theorem fails_seq {r q : Re} {s : St} (h : Fails r s) : Fails (seq r q) s := by
  simp only [Fails] at h ⊢; simp [run, h]

theorem fails_grp {n : Nat} {r : Re} {s : St} (h : Fails r s) : Fails (grp n r) s := by
  simp only [Fails] at h ⊢; simp [run, h]

theorem fails_cls {p : Char → Bool} {c : List (Nat × Str)} {s : Str} (h : ∀ x, s.head? = some x → p x = false) : Fails (cls p) (c, s) := by
  cases s with
  | nil => simp [Fails, run]
  | cons a s => simp [Fails, run, h a rfl]

theorem starRun_enough (step : St → List St) : ∀ (n m : Nat) (s : St), s.2.length < n → s.2.length < m → starRun step n s = starRun step m s := by
  intro n
  induction n with
  | zero => intro m s h; exact absurd h (by omega)
  | succ n ih =>
    intro m s hn hm
    cases m with
    | zero => exact absurd hm (by omega)
    | succ m =>
      simp only [starRun]
      congr 1
      simp only [List.flatMap]
      congr 1
      refine List.map_congr_left fun t ht => ?_
      simp only [List.mem_filter, decide_eq_true_eq] at ht
      exact ih m t (by omega) (by omega)

theorem first_star_step {r : Re} {s t u : St} (h1 : first r s = some t) (hl : t.2.length < s.2.length) (h2 : first (star r) t = some u) :
    first (star r) s = some u := by
  simp only [first, run] at h1 h2 ⊢
  rw [starRun, List.head?_append]
  have hx : (((run r s).filter fun t => t.2.length < s.2.length).flatMap (starRun (run r) s.2.length)).head? = some u := by
    refine head_flatMap (x := t) ?_ ?_
    · cases hr : run r s with
      | nil => rw [hr] at h1; simp at h1
      | cons a l =>
        rw [hr] at h1
        simp at h1
        subst h1
        simp [hl]
    · rw [starRun_enough _ _ (t.2.length + 1) t (by omega) (by omega)]; exact h2
  rw [hx]; rfl

theorem first_star_stop {r : Re} {s : St} (h : Fails r s) : first (star r) s = some s := by
  simp only [Fails] at h
  simp [first, run, starRun, h]

/-- Greedy repetition of a class. -/
theorem first_star_cls {p : Char → Bool} {c : List (Nat × Str)} {a b : Str} (ha : ∀ x ∈ a, p x = true)
    (hb : ∀ x, b.head? = some x → p x = false) : first (star (cls p)) (c, a ++ b) = some (c, b) := by
  induction a with
  | nil => exact first_star_stop (fails_cls hb)
  | cons x a ih =>
    exact first_star_step (first_cls (ha x (by simp))) (by simp) (ih fun y hy => ha y (by simp [hy]))

/-- If all matches of the first part are the same, they are as good as one. -/
theorem first_seq_all {r q : Re} {s t u : St} (hne : run r s ≠ []) (h : ∀ x ∈ run r s, x = t) (h2 : first q t = some u) :
    first (seq r q) s = some u := by
  refine first_seq (t := t) ?_ h2
  cases hr : run r s with
  | nil => exact absurd hr hne
  | cons a l => simp [first, hr, h a (by simp [hr])]

/-- A pattern whose matches all leave the same rest. -/
theorem first_unique {r : Re} (hb : bare r = true) {c : List (Nat × Str)} {s t : Str} (h : Lang r s t) (hu : ∀ t', Lang r s t' → t' = t) :
    first r (c, s) = some (c, t) := by
  have hm : (c, t) ∈ run r (c, s) := (inRun_bare hb (c := c) (c' := c)).2 ⟨rfl, h⟩
  cases hr : run r (c, s) with
  | nil => rw [hr] at hm; simp at hm
  | cons a l =>
    have ha : (a.1, a.2) ∈ run r (c, s) := by rw [hr]; simp
    obtain ⟨e1, e2⟩ := (inRun_bare hb).1 ha
    simp only [first, hr, List.head?_cons, Option.some.injEq]
    exact Prod.ext e1 (hu _ e2)

/-- A group followed by something, if only one text fits the group. -/
theorem first_grp_seq {n : Nat} {r q : Re} (hr : bare r = true) (hq : bare q = true) {c : List (Nat × Str)} {p s t : Str}
    (h1 : Lang r (p ++ s) s) (h2 : Lang q s t) (hu : ∀ s' t', Lang r (p ++ s) s' → Lang q s' t' → s' = s ∧ t' = t) :
    first (seq (grp n r) q) (c, p ++ s) = some ((n, p) :: c, t) := by
  have hm : InRun (seq (grp n r) q) c (p ++ s) ((n, p) :: c) t :=
    inRun_seq.2 ⟨_, _, (inRun_grp hr).2 ⟨p, rfl, h1, rfl⟩, (inRun_bare hq).2 ⟨rfl, h2⟩⟩
  unfold InRun at hm
  cases hx : run (seq (grp n r) q) (c, p ++ s) with
  | nil => rw [hx] at hm; simp at hm
  | cons a l =>
    have ha : InRun (seq (grp n r) q) c (p ++ s) a.1 a.2 := by unfold InRun; rw [hx]; simp
    obtain ⟨c1, u, e1, e2⟩ := inRun_seq.1 ha
    obtain ⟨p', e3, e4, e5⟩ := (inRun_grp hr).1 e1
    obtain ⟨e6, e7⟩ := (inRun_bare hq).1 e2
    obtain ⟨rfl, e8⟩ := hu _ _ e4 e7
    have : p' = p := List.append_cancel_right e3.symm
    simp only [first, hx, List.head?_cons]
    rw [← this, ← e5, ← e6, ← e8]

theorem fails_grp_seq {n : Nat} {r q : Re} (hr : bare r = true) (hq : bare q = true) {c : List (Nat × Str)} {s : Str}
    (h : ∀ s' t', Lang r s s' → ¬ Lang q s' t') : Fails (seq (grp n r) q) (c, s) := by
  rw [Fails, List.eq_nil_iff_forall_not_mem]
  rintro ⟨c', t⟩ hm
  obtain ⟨c1, u, e1, e2⟩ := inRun_seq.1 hm
  obtain ⟨p', e3, e4, e5⟩ := (inRun_grp hr).1 e1
  exact h _ _ e4 ((inRun_bare hq).1 e2).2

end Verif.Re
