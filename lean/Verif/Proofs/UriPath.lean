import Verif.Proofs.Split
import Verif.Py.Rfc3986
/-! # Normalising percent encodings and paths -/

namespace Verif.Rfc3986
open Verif
open Verif.Pointer (strSplit_ne_nil strSplit_none strSplit_append split_first)

theorem ascii_all {P : Char → Bool} (h : ∀ n < 128, P (Char.ofNat n) = true) (c : Char) (hc : c.toNat < 128) : P c = true := by
  have := h c.toNat hc
  rwa [Char.ofNat_toNat] at this

theorem hex_ascii {c : Char} (h : hex c = true) : c.toNat < 128 := by
  simp only [hex, digit, Bool.or_eq_true, Bool.and_eq_true, decide_eq_true_eq] at h
  have : c ≤ 'f' := by
    rcases h with (⟨_, h⟩ | ⟨_, h⟩) | ⟨_, h⟩
    · exact Char.le_trans h (by decide)
    · exact h
    · exact Char.le_trans h (by decide)
  exact Nat.lt_of_le_of_lt this (by decide)

theorem hex_upper {c : Char} (h : hex c = true) : hex c.toUpper = true ∧ c.toUpper.toUpper = c.toUpper := by
  have := ascii_all (P := fun c => !hex c || (hex c.toUpper && c.toUpper.toUpper == c.toUpper)) (by decide +kernel) c (hex_ascii h)
  simpa [h] using this

theorem pctUpper_triple {a b : Char} (h : hex a = true ∧ hex b = true) (s : Str) :
    pctUpper ('%' :: a :: b :: s) = '%' :: a.toUpper :: b.toUpper :: pctUpper s := by
  rw [pctUpper]; simp [h]

theorem pctUpper_cons {c : Char} {s : Str} (h : ∀ a b r, c = '%' → s = a :: b :: r → ¬ (hex a = true ∧ hex b = true)) :
    pctUpper (c :: s) = c :: pctUpper s := by
  rw [pctUpper.eq_def]
  split
  · rename_i a b r e
    simp only [List.cons.injEq] at e
    obtain ⟨rfl, rfl⟩ := e
    have := h _ _ _ rfl rfl
    simp [this]
  · rename_i e; simp only [List.cons.injEq] at e; obtain ⟨rfl, rfl⟩ := e; rfl
  · rename_i e; simp at e

theorem pctUpper_idem (s : Str) : pctUpper (pctUpper s) = pctUpper s := by
  generalize hn : s.length = n
  induction n using Nat.strongRecOn generalizing s with
  | ind n ih =>
  cases s with
  | nil => rfl
  | cons c s =>
    by_cases h : ∃ a b r, c = '%' ∧ s = a :: b :: r ∧ (hex a = true ∧ hex b = true)
    · obtain ⟨a, b, r, rfl, rfl, h⟩ := h
      rw [pctUpper_triple h, pctUpper_triple ⟨(hex_upper h.1).1, (hex_upper h.2).1⟩, (hex_upper h.1).2, (hex_upper h.2).2,
        ih r.length (by simp at hn; omega) r rfl]
    · have h' : ∀ a b r, c = '%' → s = a :: b :: r → ¬ (hex a = true ∧ hex b = true) :=
        fun a b r h1 h2 h3 => h ⟨a, b, r, h1, h2, h3⟩
      rw [pctUpper_cons h', pctUpper_cons, ih s.length (by simp at hn; omega) s rfl]
      rintro a b r rfl e ⟨ha, hb⟩
      -- `pctUpper s` begins with two hexadecimal digits only if `s` does
      have key : ∀ {x : Char} {y : Str} {s : Str}, hex x = true → pctUpper s = x :: y → ∃ s', s = x :: s' ∧ pctUpper s' = y := by
        intro x y s hx hs
        cases s with
        | nil => simp [pctUpper] at hs
        | cons d s =>
          by_cases hd : ∃ a b r, d = '%' ∧ s = a :: b :: r ∧ (hex a = true ∧ hex b = true)
          · obtain ⟨a, b, r, rfl, rfl, h⟩ := hd
            rw [pctUpper_triple h] at hs
            simp only [List.cons.injEq] at hs
            rw [← hs.1] at hx
            exact absurd hx (by decide)
          · rw [pctUpper_cons fun a b r h1 h2 h3 => hd ⟨a, b, r, h1, h2, h3⟩] at hs
            simp only [List.cons.injEq] at hs
            exact ⟨s, by rw [hs.1], hs.2⟩
      obtain ⟨s1, rfl, e1⟩ := key ha e
      obtain ⟨s2, rfl, e2⟩ := key hb e1
      exact h' a b s2 rfl rfl ⟨ha, hb⟩

theorem pctUpper_mem {s : Str} {x : Char} (h : x ∈ pctUpper s) : x ∈ s ∨ hex x = true := by
  generalize hn : s.length = n
  induction n using Nat.strongRecOn generalizing s with
  | ind n ih =>
  cases s with
  | nil => simp [pctUpper] at h
  | cons c s =>
    by_cases hc : ∃ a b r, c = '%' ∧ s = a :: b :: r ∧ (hex a = true ∧ hex b = true)
    · obtain ⟨a, b, r, rfl, rfl, hab⟩ := hc
      rw [pctUpper_triple hab] at h
      simp only [List.mem_cons] at h
      rcases h with rfl | rfl | rfl | h
      · simp
      · exact .inr (hex_upper hab.1).1
      · exact .inr (hex_upper hab.2).1
      · rcases ih r.length (by simp at hn; omega) h rfl with h | h
        · simp [h]
        · exact .inr h
    · rw [pctUpper_cons fun a b r h1 h2 h3 => hc ⟨a, b, r, h1, h2, h3⟩] at h
      rcases List.mem_cons.1 h with rfl | h
      · simp
      · rcases ih s.length (by simp at hn; omega) h rfl with h | h
        · simp [h]
        · exact .inr h

theorem pctUpper_not_mem {s : Str} {x : Char} (hx : hex x = false) (h : x ∉ s) : x ∉ pctUpper s := by
  intro hm
  rcases pctUpper_mem hm with h' | h'
  · exact h h'
  · rw [hx] at h'; exact absurd h' (by decide)

theorem pctUpper_append {x : Char} (hx : hex x = false) (a b : Str) : pctUpper (a ++ x :: b) = pctUpper a ++ pctUpper (x :: b) := by
  generalize hn : a.length = n
  induction n using Nat.strongRecOn generalizing a with
  | ind n ih =>
  cases a with
  | nil => rfl
  | cons c s =>
    by_cases hc : ∃ a b r, c = '%' ∧ s = a :: b :: r ∧ (hex a = true ∧ hex b = true)
    · obtain ⟨a, b', r, rfl, rfl, hab⟩ := hc
      simp only [List.cons_append]
      rw [pctUpper_triple hab, pctUpper_triple hab, ih r.length (by simp at hn; omega) r rfl]
      simp
    · have h' : ∀ a b r, c = '%' → s = a :: b :: r → ¬ (hex a = true ∧ hex b = true) :=
        fun a b r h1 h2 h3 => hc ⟨a, b, r, h1, h2, h3⟩
      rw [pctUpper_cons h', List.cons_append, pctUpper_cons, ih s.length (by simp at hn; omega) s rfl, List.cons_append]
      rintro y z r rfl e ⟨hy, hz⟩
      match s, e with
      | [], e => simp at e; rw [← e.1, hx] at hy; exact absurd hy (by decide)
      | [_], e => simp at e; rw [← e.2.1, hx] at hz; exact absurd hz (by decide)
      | x' :: y' :: s, e => simp at e; exact h' _ _ _ rfl rfl (by rw [e.1, e.2.1]; exact ⟨hy, hz⟩)

theorem pctUpper_slash (a b : Str) : pctUpper (a ++ '/' :: b) = pctUpper a ++ '/' :: pctUpper b := by
  rw [pctUpper_append (by decide), pctUpper_cons (by intro a b r h; exact absurd h (by decide))]

theorem pctUpper_length (s : Str) : (pctUpper s).length = s.length := by
  generalize hn : s.length = n
  induction n using Nat.strongRecOn generalizing s with
  | ind n ih =>
  cases s with
  | nil => exact hn
  | cons c s =>
    by_cases hc : ∃ a b r, c = '%' ∧ s = a :: b :: r ∧ (hex a = true ∧ hex b = true)
    · obtain ⟨a, b, r, rfl, rfl, hab⟩ := hc
      rw [pctUpper_triple hab]
      simp at hn ⊢
      have := ih r.length (by omega) r rfl
      omega
    · rw [pctUpper_cons fun a b r h1 h2 h3 => hc ⟨a, b, r, h1, h2, h3⟩]
      simp at hn ⊢
      have := ih s.length (by omega) s rfl
      omega

/-- In a text that is not changed, percent encodings are in upper case. -/
theorem pctUpper_fixed {A B : Str} {a b : Char} (h : pctUpper (A ++ '%' :: a :: b :: B) = A ++ '%' :: a :: b :: B)
    (ha : hex a = true) (hb : hex b = true) : a.toUpper = a ∧ b.toUpper = b := by
  rw [pctUpper_append (by decide), pctUpper_triple ⟨ha, hb⟩] at h
  have := List.append_inj_right h (pctUpper_length A)
  simp only [List.cons.injEq, true_and] at this
  exact ⟨this.1, this.2.1⟩

theorem split_pctUpper (s : Str) : strSplit '/' (pctUpper s) = (strSplit '/' s).map pctUpper := by
  generalize hn : s.length = n
  induction n using Nat.strongRecOn generalizing s with
  | ind n ih =>
  obtain ⟨a, b, rfl, ha, rfl | ⟨r, rfl⟩⟩ := split_first '/' s
  · simp only [List.append_nil]
    rw [strSplit_none ha, strSplit_none (pctUpper_not_mem (by decide) ha)]; rfl
  · rw [pctUpper_slash, strSplit_append ha, strSplit_append (pctUpper_not_mem (by decide) ha), ih r.length (by simp at hn; omega) r rfl]
    rfl

theorem pctUpper_join (l : List Str) : pctUpper (strJoin c!"/" l) = strJoin c!"/" (l.map pctUpper) := by
  induction l with
  | nil => rfl
  | cons x l ih =>
    cases l with
    | nil => rfl
    | cons y l =>
      simp only [strJoin, List.map_cons, List.append_assoc, List.singleton_append] at ih ⊢
      rw [pctUpper_slash, ih]

theorem map_fixed {f : Str → Str} {l : List Str} (h : l.map f = l) : ∀ x ∈ l, f x = x := by
  induction l with
  | nil => simp
  | cons a l ih =>
    simp only [List.map_cons, List.cons.injEq] at h
    intro x hx
    rcases List.mem_cons.1 hx with rfl | hx
    · exact h.1
    · exact ih h.2 x hx

theorem map_fix {f : Str → Str} {l : List Str} (h : ∀ x ∈ l, f x = x) : l.map f = l := by
  induction l with
  | nil => rfl
  | cons a l ih => simp [h a (by simp), ih fun x hx => h x (by simp [hx])]

/-! ## Dot segments -/

/-- No segment is `.` or `..`. -/
def NoDots (s : Str) : Prop := ∀ x ∈ strSplit '/' s, x ≠ c!"." ∧ x ≠ c!".."

theorem fold_mem {segs out : List Str} {x : Str} (h : x ∈ segs.foldl dotStep out) :
    x ∈ out ∨ x ∈ segs ∧ x ≠ c!"." ∧ x ≠ c!".." := by
  induction segs generalizing out with
  | nil => exact .inl h
  | cons a segs ih =>
    rcases ih h with h1 | h1
    · simp only [dotStep] at h1
      split at h1
      · exact .inl h1
      · rename_i ha
        split at h1
        · rename_i hb
          rcases List.mem_append.1 h1 with h1 | h1
          · exact .inl h1
          · simp at h1; subst h1; exact .inr ⟨by simp, ha, hb⟩
        · exact .inl (List.dropLast_subset _ h1)
    · exact .inr ⟨by simp [h1.1], h1.2⟩

theorem fold_id {segs : List Str} (h : ∀ x ∈ segs, x ≠ c!"." ∧ x ≠ c!"..") (out : List Str) :
    segs.foldl dotStep out = out ++ segs := by
  induction segs generalizing out with
  | nil => simp
  | cons a segs ih =>
    have ha := h a (by simp)
    simp only [List.foldl_cons]
    rw [ih fun x hx => h x (by simp [hx])]
    simp [dotStep, ha.1, ha.2]

/-- The segments that are joined in the end. -/
def outL (s : Str) : List Str :=
  let out := (strSplit '/' s).foldl dotStep []
  let out := if s.head? = some '/' && (out.isEmpty || out.head? != some []) then [] :: out else out
  if c!"/.".isSuffixOf s || c!"/..".isSuffixOf s then out ++ [[]] else out

theorem removeDots_eq (s : Str) : removeDots s = strJoin c!"/" (outL s) := rfl

theorem outL_mem {s x : Str} (h : x ∈ outL s) : x = [] ∨ x ∈ strSplit '/' s ∧ x ≠ c!"." ∧ x ≠ c!".." := by
  have key : ∀ x, x ∈ (if s.head? = some '/' && (((strSplit '/' s).foldl dotStep []).isEmpty ||
      ((strSplit '/' s).foldl dotStep []).head? != some []) then [] :: (strSplit '/' s).foldl dotStep []
      else (strSplit '/' s).foldl dotStep []) → x = [] ∨ x ∈ strSplit '/' s ∧ x ≠ c!"." ∧ x ≠ c!".." := by
    intro x hx
    have hf : x ∈ (strSplit '/' s).foldl dotStep [] → x = [] ∨ x ∈ strSplit '/' s ∧ x ≠ c!"." ∧ x ≠ c!".." := by
      intro h; rcases fold_mem h with h | h
      · simp at h
      · exact .inr h
    split at hx
    · rcases List.mem_cons.1 hx with h | h
      · exact .inl h
      · exact hf h
    · exact hf hx
  simp only [outL] at h
  split at h
  · rcases List.mem_append.1 h with h | h
    · exact key x h
    · simp at h; exact .inl h
  · exact key x h

theorem outL_noslash {s x : Str} (h : x ∈ outL s) : '/' ∉ x := by
  rcases outL_mem h with rfl | ⟨h, _⟩
  · simp
  · exact strSplit_mem h

theorem split_removeDots (s : Str) : strSplit '/' (removeDots s) = outL s ∨ removeDots s = [] ∧ outL s = [] := by
  rw [removeDots_eq]
  by_cases h : outL s = []
  · right; simp [h, strJoin]
  · exact .inl (strSplit_join h fun x hx => outL_noslash hx)

theorem removeDots_noDots (s : Str) : NoDots (removeDots s) := by
  intro x hx
  rcases split_removeDots s with h | ⟨h, _⟩
  · rw [h] at hx
    rcases outL_mem hx with rfl | ⟨_, h⟩
    · decide
    · exact h
  · rw [h] at hx
    simp [strSplit] at hx
    subst hx; decide

theorem split_slash {s : Str} : s.head? = some '/' → (strSplit '/' s).head? = some [] := by
  cases s with
  | nil => simp
  | cons a s => simp only [List.head?_cons, Option.some.injEq]; rintro rfl; simp [strSplit]

theorem removeDots_fix {s : Str} (h : NoDots s) : removeDots s = s := by
  have h1 : (strSplit '/' s).foldl dotStep [] = strSplit '/' s := by rw [fold_id h]; rfl
  have h2 : outL s = strSplit '/' s := by
    simp only [outL, h1]
    have e1 : ¬ ((decide (s.head? = some '/') && ((strSplit '/' s).isEmpty || (strSplit '/' s).head? != some [])) = true) := by
      simp only [Bool.and_eq_true, Bool.or_eq_true, decide_eq_true_eq, List.isEmpty_iff, bne_iff_ne, ne_eq]
      rintro ⟨ha, hb | hb⟩
      · exact strSplit_ne_nil _ _ hb
      · exact hb (split_slash ha)
    have e2 : ¬ ((c!"/.".isSuffixOf s || c!"/..".isSuffixOf s) = true) := by
      simp only [Bool.or_eq_true, List.isSuffixOf_iff_suffix]
      rintro (⟨a, rfl⟩ | ⟨a, rfl⟩)
      · have := h c!"." (by rw [show a ++ c!"/." = a ++ '/' :: c!"." from rfl, strSplit_last (by decide)]; simp)
        exact this.1 rfl
      · have := h c!".." (by rw [show a ++ c!"/.." = a ++ '/' :: c!".." from rfl, strSplit_last (by decide)]; simp)
        exact this.2 rfl
    rw [if_neg e1, if_neg e2]
  rw [removeDots_eq, h2, strJoin_split]

theorem removeDots_slash {s : Str} (h : s.head? = some '/') : (removeDots s).head? = some '/' ∨ removeDots s = [] := by
  have : (outL s).head? = some [] := by
    simp only [outL]
    generalize (strSplit '/' s).foldl dotStep [] = o
    simp only [h, decide_true, Bool.true_and]
    have : ∀ l : List Str, l.head? = some [] → (if (c!"/.".isSuffixOf s || c!"/..".isSuffixOf s) = true then l ++ [[]] else l).head? = some [] := by
      intro l hl
      split
      · rw [List.head?_append]; simp [hl]
      · exact hl
    apply this
    split
    · rfl
    · rename_i hb
      simp at hb
      exact hb.2
  rw [removeDots_eq]
  match hl : outL s, this with
  | [[]], _ => right; rfl
  | [] :: y :: r, _ => left; rfl

/-! ## Normalised paths -/

theorem normPath_nil : normPath [] = [] := rfl

theorem normPath_noDots (s : Str) : NoDots (normPath s) := removeDots_noDots _

theorem normPath_slash {s : Str} (h : s.head? = some '/') : (normPath s).head? = some '/' ∨ normPath s = [] := by
  apply removeDots_slash
  cases s with
  | nil => simp at h
  | cons a s =>
    simp only [List.head?_cons, Option.some.injEq] at h
    subst h
    rw [pctUpper_cons (by intro a b r h; exact absurd h (by decide))]; rfl

theorem normPath_seg {s x : Str} (h : x ∈ strSplit '/' (normPath s)) : x = [] ∨ ∃ y ∈ strSplit '/' s, x = pctUpper y := by
  have : x = [] ∨ x ∈ strSplit '/' (pctUpper s) := by
    rcases split_removeDots (pctUpper s) with h1 | ⟨h1, _⟩
    · rw [normPath, h1] at h
      rcases outL_mem h with h | ⟨h, _⟩
      · exact .inl h
      · exact .inr h
    · rw [normPath, h1] at h
      simp [strSplit] at h; exact .inl h
  rcases this with h | h
  · exact .inl h
  · rw [split_pctUpper] at h
    obtain ⟨y, hy, rfl⟩ := List.mem_map.1 h
    exact .inr ⟨y, hy, rfl⟩

theorem pctUpper_normPath (s : Str) : pctUpper (normPath s) = normPath s := by
  have h := strJoin_split '/' (normPath s)
  rw [← h, pctUpper_join, map_fix]
  intro x hx
  rcases normPath_seg hx with rfl | ⟨y, _, rfl⟩
  · rfl
  · exact pctUpper_idem y

theorem normPath_idem (s : Str) : normPath (normPath s) = normPath s := by
  rw [normPath, pctUpper_normPath, removeDots_fix (normPath_noDots s)]

theorem mem_join_slash {c : Char} {l : List Str} (h : c ∈ strJoin c!"/" l) : c = '/' ∨ ∃ x ∈ l, c ∈ x := by
  induction l with
  | nil => simp [strJoin] at h
  | cons a l ih =>
    cases l with
    | nil => exact .inr ⟨a, by simp, h⟩
    | cons b l =>
      simp only [strJoin, List.append_assoc, List.mem_append, List.mem_singleton] at h
      rcases h with h | h | h
      · exact .inr ⟨a, by simp, h⟩
      · exact .inl h
      · rcases ih h with h | ⟨x, hx, h⟩
        · exact .inl h
        · exact .inr ⟨x, by simp at hx ⊢; exact .inr hx, h⟩

theorem split_sub {s x : Str} {c : Char} (h : x ∈ strSplit '/' s) (hc : c ∈ x) : c ∈ s := by
  induction s generalizing x with
  | nil => simp [strSplit] at h; subst h; simp at hc
  | cons a s ih =>
    simp only [strSplit] at h
    split at h
    · rcases List.mem_cons.1 h with rfl | h
      · simp at hc
      · exact List.mem_cons_of_mem _ (ih h hc)
    · split at h
      · simp at h; subst h; simp at hc; simp [hc]
      · rename_i p ps hs
        rcases List.mem_cons.1 h with rfl | h
        · rcases List.mem_cons.1 hc with rfl | hc
          · simp
          · exact List.mem_cons_of_mem _ (ih (by simp [hs]) hc)
        · exact List.mem_cons_of_mem _ (ih (by simp [hs, h]) hc)

theorem normPath_mem {s : Str} {c : Char} (h : c ∈ normPath s) : c = '/' ∨ c ∈ s ∨ hex c = true := by
  have hj := strJoin_split '/' (normPath s)
  rw [← hj] at h
  rcases mem_join_slash h with h | ⟨x, hx, hc⟩
  · exact .inl h
  · rcases normPath_seg hx with rfl | ⟨y, hy, rfl⟩
    · simp at hc
    · rcases pctUpper_mem hc with h | h
      · exact .inr (.inl (split_sub hy h))
      · exact .inr (.inr h)

end Verif.Rfc3986
