import Verif.Py.Basic
/-! # Lemmas about association lists -/

namespace Verif

theorem dictGet_mem {α : Type} {k : Str} {d : List (Str × α)} {x : α} (h : dictGet k d = some x) :
    (k, x) ∈ d := by
  induction d with
  | nil => simp [dictGet] at h
  | cons p d ih =>
    obtain ⟨k', a⟩ := p
    simp only [dictGet] at h
    split at h
    · next e => simp at h; subst e; subst h; simp
    · exact List.mem_cons_of_mem _ (ih h)

theorem dictGet_of_mem {α : Type} {k : Str} {d : List (Str × α)} {x : α} (hn : (d.map Prod.fst).Nodup)
    (h : (k, x) ∈ d) : dictGet k d = some x := by
  induction d with
  | nil => simp at h
  | cons p d ih =>
    obtain ⟨k', a⟩ := p
    simp only [List.map_cons, List.nodup_cons] at hn
    simp only [dictGet]
    rcases List.mem_cons.1 h with h | h
    · simp at h; simp [h]
    · have : k' ≠ k := by
        rintro rfl
        exact hn.1 (List.mem_map_of_mem (f := Prod.fst) h)
      rw [if_neg this]
      exact ih hn.2 h

theorem dictGet_none {α : Type} {k : Str} {d : List (Str × α)} : dictGet k d = none ↔ k ∉ d.map Prod.fst := by
  induction d with
  | nil => simp [dictGet]
  | cons p d ih =>
    obtain ⟨k', a⟩ := p
    simp only [dictGet, List.map_cons, List.mem_cons, not_or]
    split
    · next e => simp [e]
    · next e => simp only [ih]; exact ⟨fun h => ⟨fun e' => e e'.symm, h⟩, fun h => h.2⟩

theorem dictHas_iff {α : Type} {k : Str} {d : List (Str × α)} : dictHas k d = true ↔ k ∈ d.map Prod.fst := by
  unfold dictHas
  cases h : dictGet k d with
  | none => simp [dictGet_none.1 h]
  | some x => simp; exact ⟨x, dictGet_mem h⟩

theorem dictGet_set {α : Type} (k k' : Str) (x : α) (d : List (Str × α)) :
    dictGet k' (dictSet k x d) = if k = k' then some x else dictGet k' d := by
  induction d with
  | nil => simp [dictSet, dictGet]
  | cons p d ih =>
    obtain ⟨j, a⟩ := p
    simp only [dictSet]
    split
    · next e =>
      subst e
      simp only [dictGet]
      split <;> rfl
    · next e =>
      simp only [dictGet, ih]
      split
      · next e' => subst e'; rw [if_neg (fun h => e h.symm)]
      · rfl

theorem keys_set {α : Type} (k : Str) (x : α) (d : List (Str × α)) :
    (dictSet k x d).map Prod.fst = if k ∈ d.map Prod.fst then d.map Prod.fst else d.map Prod.fst ++ [k] := by
  induction d with
  | nil => simp [dictSet]
  | cons p d ih =>
    obtain ⟨j, a⟩ := p
    simp only [dictSet]
    split
    · next e => subst e; simp
    · next e =>
      simp only [List.map_cons, ih, List.mem_cons]
      have : ¬ k = j := fun h => e h.symm
      simp only [this, false_or]
      split <;> simp

theorem keys_del {α : Type} (k : Str) (d : List (Str × α)) (hn : (d.map Prod.fst).Nodup) :
    (dictDel k d).map Prod.fst = (d.map Prod.fst).filter (· ≠ k) := by
  induction d with
  | nil => rfl
  | cons p d ih =>
    obtain ⟨j, a⟩ := p
    simp only [List.map_cons, List.nodup_cons] at hn
    simp only [dictDel]
    split
    · next e =>
      subst e
      simp only [List.map_cons]
      rw [List.filter_cons_of_neg (by simp)]
      symm
      rw [List.filter_eq_self]
      intro x hx
      simp only [decide_eq_true_eq]
      rintro rfl
      exact hn.1 hx
    · next e =>
      rw [List.map_cons, List.map_cons, List.filter_cons_of_pos (by simpa using e), ih hn.2]

theorem dictGet_del {α : Type} (k k' : Str) (d : List (Str × α)) (hn : (d.map Prod.fst).Nodup) :
    dictGet k' (dictDel k d) = if k = k' then none else dictGet k' d := by
  induction d with
  | nil => simp [dictDel, dictGet]
  | cons p d ih =>
    obtain ⟨j, a⟩ := p
    simp only [List.map_cons, List.nodup_cons] at hn
    simp only [dictDel]
    split
    · next e =>
      subst e
      simp only [dictGet]
      split
      · next e' => subst e'; exact dictGet_none.2 hn.1
      · rfl
    · next e =>
      simp only [dictGet, ih hn.2]
      split
      · next e' => subst e'; rw [if_neg (fun h => e h.symm)]
      · rfl

theorem nodup_set {α : Type} (k : Str) (x : α) (d : List (Str × α)) (hn : (d.map Prod.fst).Nodup) :
    ((dictSet k x d).map Prod.fst).Nodup := by
  rw [keys_set]
  split
  · exact hn
  · next h =>
    rw [List.nodup_append]
    exact ⟨hn, by simp, by intro a ha b hb; simp at hb; subst hb; rintro rfl; exact h ha⟩

theorem nodup_del {α : Type} (k : Str) (d : List (Str × α)) (hn : (d.map Prod.fst).Nodup) :
    ((dictDel k d).map Prod.fst).Nodup := by
  rw [keys_del k d hn]
  exact hn.sublist List.filter_sublist

end Verif
