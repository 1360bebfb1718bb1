import Verif.Proofs.Pointer
/-! # Splitting and joining text -/

namespace Verif
open Pointer (strSplit_ne_nil strSplit_none strSplit_append split_first)

theorem strJoin_split (c : Char) (s : Str) : strJoin [c] (strSplit c s) = s := by
  induction s with
  | nil => rfl
  | cons x s ih =>
    have hne := strSplit_ne_nil c s
    cases hs : strSplit c s with
    | nil => exact absurd hs hne
    | cons y ys =>
      rw [hs] at ih
      unfold strSplit
      by_cases hx : x = c
      · subst hx
        simp only [if_pos, hs]
        cases ys with
        | nil => simp [strJoin] at ih ⊢; exact ih
        | cons z zs => simp [strJoin] at ih ⊢; exact ih
      · simp only [if_neg hx, hs]
        cases ys with
        | nil => simp [strJoin] at ih ⊢; exact ih
        | cons z zs => simp [strJoin] at ih ⊢; exact ih

theorem strSplit_join {c : Char} {l : List Str} (hne : l ≠ []) (h : ∀ x ∈ l, c ∉ x) : strSplit c (strJoin [c] l) = l := by
  induction l with
  | nil => exact absurd rfl hne
  | cons x l ih =>
    cases l with
    | nil => exact strSplit_none (h x (by simp))
    | cons y l =>
      simp only [strJoin, List.append_assoc, List.singleton_append]
      rw [strSplit_append (h x (by simp)), ih (by simp) fun z hz => h z (by simp at hz ⊢; exact .inr hz)]

theorem strSplit_mem {c : Char} {s x : Str} (h : x ∈ strSplit c s) : c ∉ x := by
  induction s generalizing x with
  | nil => simp [strSplit] at h; simp [h]
  | cons a s ih =>
    simp only [strSplit] at h
    split at h
    · rcases List.mem_cons.1 h with rfl | h
      · simp
      · exact ih h
    · rename_i ha
      split at h
      · simp at h; subst h; simpa using fun e => ha e.symm
      · rename_i p ps hs
        rcases List.mem_cons.1 h with rfl | h
        · have := ih (x := p) (by simp [hs])
          simp [this]; exact fun e => ha e.symm
        · exact ih (by simp [hs, h])

/-- The last piece. -/
theorem strSplit_last {c : Char} {a b : Str} (h : c ∉ b) : strSplit c (a ++ c :: b) = strSplit c a ++ [b] := by
  induction a with
  | nil => simp [strSplit, strSplit_none h]
  | cons x a ih =>
    simp only [strSplit, List.cons_append, ih]
    split
    · simp
    · cases hs : strSplit c a with
      | nil => exact absurd hs (strSplit_ne_nil c a)
      | cons y ys => simp

end Verif
