import Verif.Model.Schema
/-!
# Iterating over a reference to an array
-/

namespace Verif

theorem Num.eq_fin {n : Num} {i : Int} (h : n.eq (.fin i) = true) : n = .fin (i : Rat) := by
  cases n <;> simp [Num.eq] at h ⊢
  exact h

@[simp] theorem isRef_null : (Node.null).isRef = false := rfl
@[simp] theorem seqOf_null (xs : List Node) : seqOf (.null) xs = .ok xs := rfl
@[simp] theorem isRef_bool (b : Bool) : (Node.bool b).isRef = false := rfl
@[simp] theorem seqOf_bool (b : Bool) (xs : List Node) : seqOf (.bool b) xs = .ok xs := rfl
@[simp] theorem isRef_num (b : Num) : (Node.num b).isRef = false := rfl
@[simp] theorem seqOf_num (b : Num) (xs : List Node) : seqOf (.num b) xs = .ok xs := rfl
@[simp] theorem isRef_str (b : Str) : (Node.str b).isRef = false := rfl
@[simp] theorem seqOf_str (b : Str) (xs : List Node) : seqOf (.str b) xs = .ok xs := rfl
@[simp] theorem isRef_arr (b : List Node) : (Node.arr b).isRef = false := rfl
@[simp] theorem seqOf_arr (b : List Node) (xs : List Node) : seqOf (.arr b) xs = .ok xs := rfl
@[simp] theorem isRef_obj (b : List (Str × Node)) : (Node.obj b).isRef = false := rfl
@[simp] theorem seqOf_obj (b : List (Str × Node)) (xs : List Node) : seqOf (.obj b) xs = .ok xs := rfl
@[simp] theorem isRef_ref (o : List (Str × Node)) (d : Nat) (p : List Str) : (Node.ref o d p).isRef = true := rfl

@[simp] theorem nodeStr_text (w : World) (s : Str) : nodeStr w (.str s) = s := rfl

@[simp] theorem maxV_num {α : Type} (n : Num) (m : Num) (e : Bool) : (maxV (.num n) m e : V α) = .maximum m e := rfl

@[simp] theorem minV_num {α : Type} (n : Num) (m : Num) (e : Bool) : (minV (.num n) m e : V α) = .minimum m e := rfl

theorem maxV_plain {α : Type} {n : Node} (h : n.isRef = false) (m : Num) (e : Bool) : (maxV n m e : V α) = .maximum m e := by
  simp [maxV, h]

theorem minV_plain {α : Type} {n : Node} (h : n.isRef = false) (m : Num) (e : Bool) : (minV n m e : V α) = .minimum m e := by
  simp [minV, h]

/-- `i in array` says yes only for an element that is that number. -/
theorem intInArr_true {i : Int} : ∀ {xs : List Node}, intInArr i xs = .ok true → Node.num (.fin (i : Rat)) ∈ xs
  | [], h => by simp [intInArr] at h
  | x :: xs, h => by
    cases x with
    | num n =>
      simp only [intInArr] at h
      split at h
      · rename_i e; rw [Num.eq_fin e]; exact .head _
      · exact .tail _ (intInArr_true h)
    | bool b => simp [intInArr] at h
    | ref a b c => simp [intInArr] at h
    | null => exact .tail _ (intInArr_true (by simpa [intInArr] using h))
    | str s => exact .tail _ (intInArr_true (by simpa [intInArr] using h))
    | arr s => exact .tail _ (intInArr_true (by simpa [intInArr] using h))
    | obj s => exact .tail _ (intInArr_true (by simpa [intInArr] using h))

/-- Different numbers that are all in a list are no more than its elements. -/
theorem numbers_le : ∀ (l : List Int) (xs : List Node), l.Nodup → (∀ i ∈ l, Node.num (.fin (i : Rat)) ∈ xs) → l.length ≤ xs.length
  | [], _, _, _ => by simp
  | i :: l, xs, hn, hm => by
    obtain ⟨a, b, rfl⟩ := List.append_of_mem (hm i (.head _))
    have h1 : ∀ j ∈ l, Node.num (.fin (j : Rat)) ∈ a ++ b := by
      intro j hj
      have hij : j ≠ i := fun e => by subst e; exact (List.nodup_cons.1 hn).1 hj
      rcases List.mem_append.1 (hm j (.tail _ hj)) with h | h
      · exact List.mem_append.2 (.inl h)
      · rcases List.mem_cons.1 h with h | h
        · exact absurd (by simpa using h) hij
        · exact List.mem_append.2 (.inr h)
    have := numbers_le l (a ++ b) (List.nodup_cons.1 hn).2 h1
    simp at this ⊢
    omega

theorem iterRef_all {xs : List Node} : ∀ {rest : List Node} {i : Nat} {ys : List Node}, iterRef xs i rest = .ok ys →
    ∀ j, i ≤ j → j ≤ i + rest.length → intInArr j xs = .ok true
  | [], i, ys, h, j, h1, h2 => by
    have : j = i := by simp at h2; omega
    subst this
    simp only [iterRef] at h
    cases e : intInArr j xs with
    | ok b => cases b <;> simp [e] at h ⊢
    | err e' => simp [e] at h
    | timeout => simp [e] at h
  | x :: rest, i, ys, h, j, h1, h2 => by
    simp only [iterRef] at h
    cases e : intInArr i xs with
    | ok b =>
      cases b
      · simp [e] at h
      · by_cases hj : j = i
        · subst hj; exact e
        · simp only [e, Res.ok_bind, if_true] at h
          cases e2 : iterRef xs (i + 1) rest with
          | ok zs => exact iterRef_all e2 j (by omega) (by simp at h2; omega)
          | err e' => simp [e2] at h
          | timeout => simp [e2] at h
    | err e' => simp [e] at h
    | timeout => simp [e] at h

/-- Iterating over a reference to an array never succeeds: the array would have to contain all numbers up to its length. -/
theorem iterRef_fails (xs ys : List Node) : iterRef xs 0 xs ≠ .ok ys := by
  intro h
  have h1 := iterRef_all h
  have h2 := numbers_le ((List.range (xs.length + 1)).map fun n : Nat => (n : Int)) xs
    (by
      refine List.pairwise_map.2 (List.nodup_range.imp fun {a b} hab e => hab ?_)
      omega)
    (by
      intro i hi
      obtain ⟨n, hn, rfl⟩ := List.mem_map.1 hi
      exact intInArr_true (h1 n (by omega) (by have := List.mem_range.1 hn; omega)))
  simp at h2
  omega

theorem intInArr_ne_timeout (i : Int) (xs : List Node) : intInArr i xs ≠ .timeout := by
  induction xs with
  | nil => simp [intInArr]
  | cons x xs ih => cases x <;> simp [intInArr, ih] <;> split <;> simp [ih]

theorem intInArr_not_val (i : Int) (xs : List Node) (e : VErr) : intInArr i xs ≠ .err (.validation e) := by
  induction xs with
  | nil => simp [intInArr]
  | cons x xs ih => cases x <;> simp [intInArr, ih] <;> split <;> simp [ih]

theorem iterRef_err (xs : List Node) : ∀ (rest : List Node) (i : Nat), iterRef xs i rest ≠ .timeout ∧ ∀ e, iterRef xs i rest ≠ .err (.validation e)
  | [], i => by
    have h1 := intInArr_ne_timeout i xs
    have h2 := intInArr_not_val i xs
    simp only [iterRef]
    cases e : intInArr i xs with
    | ok b => cases b <;> simp
    | err e' => simp only [Res.err_bind]; exact ⟨by simp, fun v hv => h2 v (e.trans (by injection hv with hv; rw [hv]))⟩
    | timeout => exact absurd e h1
  | x :: rest, i => by
    have h1 := intInArr_ne_timeout i xs
    have h2 := intInArr_not_val i xs
    obtain ⟨h3, h4⟩ := iterRef_err xs rest (i + 1)
    simp only [iterRef]
    cases e : intInArr i xs with
    | ok b =>
      cases b
      · simp
      · simp only [Res.ok_bind, if_true]
        cases e2 : iterRef xs (i + 1) rest with
        | ok zs => simp
        | err e' => simp only [Res.err_bind]; exact ⟨by simp, fun v => by rw [← e2]; exact h4 v⟩
        | timeout => exact absurd e2 h3
    | err e' => simp only [Res.err_bind]; exact ⟨by simp, fun v hv => h2 v (e.trans (by injection hv with hv; rw [hv]))⟩
    | timeout => exact absurd e h1

/-- What iterating over an array, or a reference to it, can give: its elements, if it is not a reference, or an exception. -/
theorem seqOf_cases (n : Node) (xs : List Node) : (seqOf n xs = .ok xs ∧ n.isRef = false) ∨
    (n.isRef = true ∧ ∃ e, seqOf n xs = .err e ∧ ∀ v, e ≠ .validation v) := by
  cases n <;> simp [seqOf, Node.isRef]
  have h1 := iterRef_fails xs
  have h2 := iterRef_err xs xs 0
  cases e : iterRef xs 0 xs with
  | ok ys => exact absurd e (h1 ys)
  | timeout => exact absurd e h2.1
  | err e' => exact ⟨e', rfl, fun v hv => h2.2 v (by rw [e, hv])⟩

/-- The same for what is done with the elements. -/
theorem seqOf_bind {γ : Type} (n : Node) (xs : List Node) (f : List Node → Res γ) : ((seqOf n xs >>= f) = f xs ∧ n.isRef = false) ∨
    (n.isRef = true ∧ ∃ e, (seqOf n xs >>= f) = .err e ∧ ∀ v, e ≠ .validation v) := by
  rcases seqOf_cases n xs with ⟨h1, h2⟩ | ⟨h1, e, h2, h3⟩
  · exact .inl ⟨by rw [h1]; rfl, h2⟩
  · exact .inr ⟨h1, e, by rw [h2]; rfl, h3⟩

end Verif
