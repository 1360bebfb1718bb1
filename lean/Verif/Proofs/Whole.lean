import Verif.Model.Whole
import Verif.Proofs.Later
import Verif.Spec.Bridge
/-! # Objects read as trees: lemmas for C72 -/

namespace Verif.Obj
open Verif

theorem allL_mono {α β : Type} {g h : α → Option β} {xs : List α} {ys : List β} (H : ∀ x y, g x = some y → h x = some y)
    (e : allL g xs = some ys) : allL h xs = some ys := by
  induction xs generalizing ys with
  | nil => exact e
  | cons x xs ih =>
    simp only [allL] at e ⊢
    cases hx : g x with
    | none => simp [hx] at e
    | some y =>
      cases hr : allL g xs with
      | none => simp [hx, hr] at e
      | some r => simp only [hx, hr] at e; simp only [H x y hx, ih hr]; exact e

theorem allD_mono {α β : Type} {g h : α → Option β} {xs : List (Str × α)} {ys : List (Str × β)} (H : ∀ x y, g x = some y → h x = some y)
    (e : allD g xs = some ys) : allD h xs = some ys := by
  induction xs generalizing ys with
  | nil => exact e
  | cons x xs ih =>
    obtain ⟨k, x⟩ := x
    simp only [allD] at e ⊢
    cases hx : g x with
    | none => simp [hx] at e
    | some y =>
      cases hr : allD g xs with
      | none => simp [hx, hr] at e
      | some r => simp only [hx, hr] at e; simp only [H x y hx, ih hr]; exact e

theorem treeOf_step (m : Mem) : ∀ (f i : Nat) (n : Node), treeOf m f i = some n → treeOf m (f + 1) i = some n
  | 0, _, _, h => by cases h
  | f + 1, i, n, h => by
    have ih := treeOf_step m f
    rw [treeOf] at h ⊢
    cases hc : m[i]? with
    | none => simp [hc] at h
    | some c =>
      simp only [hc] at h ⊢
      obtain ⟨sh, p, k⟩ := c
      cases sh with
      | null => exact h
      | bool b => exact h
      | num n => exact h
      | str t => exact h
      | arr ids =>
        simp only [Option.map_eq_some_iff] at h ⊢
        obtain ⟨a, h1, h2⟩ := h
        exact ⟨a, allL_mono ih h1, h2⟩
      | obj ids =>
        simp only [Option.map_eq_some_iff] at h ⊢
        obtain ⟨a, h1, h2⟩ := h
        exact ⟨a, allD_mono ih h1, h2⟩
      | ref j d q =>
        simp only at h ⊢
        cases hj : m[j]? with
        | none => simp [hj] at h
        | some c' =>
          obtain ⟨sh', p', k'⟩ := c'
          cases sh' with
          | obj ids =>
            simp only [hj, Option.map_eq_some_iff] at h ⊢
            obtain ⟨a, h1, h2⟩ := h
            exact ⟨a, allD_mono ih h1, h2⟩
          | _ => simp [hj] at h

theorem treeOf_mono (m : Mem) {f g : Nat} (hfg : f ≤ g) {i : Nat} {n : Node} (h : treeOf m f i = some n) : treeOf m g i = some n := by
  induction hfg with
  | refl => exact h
  | step _ ih => exact treeOf_step m _ i n ih

mutual
theorem treeOf_shows (m : Mem) : ∀ (n : Node) (i : Nat), Shows m n i → ∃ f, treeOf m f i = some n
  | .null, i, h => by
    rw [Shows] at h; obtain ⟨c, h1, h2⟩ := h; exact ⟨1, by simp [treeOf, h1, h2]⟩
  | .bool _, i, h => by
    rw [Shows] at h; obtain ⟨c, h1, h2⟩ := h; exact ⟨1, by simp [treeOf, h1, h2]⟩
  | .num _, i, h => by
    rw [Shows] at h; obtain ⟨c, h1, h2⟩ := h; exact ⟨1, by simp [treeOf, h1, h2]⟩
  | .str _, i, h => by
    rw [Shows] at h; obtain ⟨c, h1, h2⟩ := h; exact ⟨1, by simp [treeOf, h1, h2]⟩
  | .arr xs, i, h => by
    rw [Shows] at h
    obtain ⟨c, ids, h1, h2, h3⟩ := h
    obtain ⟨f, hf⟩ := treeL_shows m xs ids h3
    exact ⟨f + 1, by simp [treeOf, h1, h2, hf]⟩
  | .obj xs, i, h => by
    rw [Shows] at h
    obtain ⟨c, ids, h1, h2, h3⟩ := h
    obtain ⟨f, hf⟩ := treeD_shows m xs ids h3
    exact ⟨f + 1, by simp [treeOf, h1, h2, hf]⟩
  | .ref own d p, i, h => by
    rw [Shows] at h
    obtain ⟨c, j, c', ids, h1, h2, h3, h4, h5⟩ := h
    obtain ⟨f, hf⟩ := treeD_shows m own ids h5
    obtain ⟨sh', p', k'⟩ := c'
    cases h4
    exact ⟨f + 1, by simp [treeOf, h1, h2, h3, hf]⟩
theorem treeL_shows (m : Mem) : ∀ (xs : List Node) (ids : List Nat), ShowsL m xs ids → ∃ f, allL (treeOf m f) ids = some xs
  | [], ids, h => by rw [ShowsL] at h; subst h; exact ⟨0, rfl⟩
  | x :: xs, ids, h => by
    rw [ShowsL] at h
    obtain ⟨i, rest, rfl, h1, h2⟩ := h
    obtain ⟨f, hf⟩ := treeOf_shows m x i h1
    obtain ⟨g, hg⟩ := treeL_shows m xs rest h2
    refine ⟨max f g, ?_⟩
    simp only [allL, treeOf_mono m (Nat.le_max_left f g) hf, allL_mono (fun _ _ => treeOf_mono m (Nat.le_max_right f g)) hg]
theorem treeD_shows (m : Mem) : ∀ (xs : List (Str × Node)) (ids : List (Str × Nat)), ShowsD m xs ids → ∃ f, allD (treeOf m f) ids = some xs
  | [], ids, h => by rw [ShowsD] at h; subst h; exact ⟨0, rfl⟩
  | (k, x) :: xs, ids, h => by
    rw [ShowsD] at h
    obtain ⟨i, rest, rfl, h1, h2⟩ := h
    obtain ⟨f, hf⟩ := treeOf_shows m x i h1
    obtain ⟨g, hg⟩ := treeD_shows m xs rest h2
    refine ⟨max f g, ?_⟩
    simp only [allD, treeOf_mono m (Nat.le_max_left f g) hf, allD_mono (fun _ _ => treeOf_mono m (Nat.le_max_right f g)) hg]
end

theorem docTree_mono (m : Mem) {f g : Nat} (hfg : f ≤ g) (x : Schema) (D : Doc) (h : docTree m f x = some D) : docTree m g x = some D := by
  unfold docTree at h ⊢
  split at h
  · next hr =>
    rw [if_pos hr]
    cases e1 : treeOf m f x.value with
    | none => simp [e1] at h
    | some r =>
      cases e2 : allD (treeOf m f) x.anchors with
      | none => simp [e1, e2] at h
      | some a =>
        simp only [e1, e2] at h
        simp only [treeOf_mono m hfg e1, allD_mono (fun _ _ => treeOf_mono m hfg) e2]
        exact h
  · cases h

/-- All schemas of a state that mirrors documents are read as these documents. -/
theorem docs_read {s : St} {docs : List Doc} (hm : Mirrors s docs) : ∃ f0, ∀ f, f0 ≤ f → allL (docTree s.mem f) s.docs = some docs := by
  have key : ∀ (xs : List Schema) (Ds : List Doc), Ds.length = xs.length →
      (∀ (d : Nat) (x : Schema) (D : Doc), xs[d]? = some x → Ds[d]? = some D →
        x.ready = true ∧ Shows s.mem D.root x.value ∧ ShowsD s.mem D.anchors x.anchors) → ∃ f, allL (docTree s.mem f) xs = some Ds := by
    intro xs
    induction xs with
    | nil => intro Ds hl _; cases Ds with
      | nil => exact ⟨0, rfl⟩
      | cons _ _ => simp at hl
    | cons x xs ih =>
      intro Ds hl h
      cases Ds with
      | nil => simp at hl
      | cons D Ds =>
        obtain ⟨f, hf⟩ := ih Ds (by simpa using hl) fun d y E h1 h2 => h (d + 1) y E (by simpa using h1) (by simpa using h2)
        obtain ⟨h1, h2, h3⟩ := h 0 x D rfl rfl
        obtain ⟨f1, e1⟩ := treeOf_shows s.mem _ _ h2
        obtain ⟨f2, e2⟩ := treeD_shows s.mem _ _ h3
        refine ⟨max f (max f1 f2), ?_⟩
        have : docTree s.mem (max f (max f1 f2)) x = some D := by
          unfold docTree
          rw [if_pos h1, treeOf_mono s.mem (by omega) e1, allD_mono (fun _ _ => treeOf_mono s.mem (Nat.le_trans (Nat.le_max_right f1 f2) (Nat.le_max_right _ _))) e2]
        simp only [allL, this, allL_mono (docTree_mono s.mem (Nat.le_max_left _ _)) hf]
  obtain ⟨f, hf⟩ := key s.docs docs hm.length hm.doc
  exact ⟨f, fun g hg => allL_mono (docTree_mono s.mem hg) hf⟩

/-- Validation by a schema of such a state is validation by its document, and modifies nothing. -/
theorem validate_mirrors (E : Env) {s : St} {docs : List Doc} (hm : Mirrors s docs) {d : Nat} {x : Schema} {D : Doc} (hx : s.docs[d]? = some x)
    (hD : docs[d]? = some D) : ∃ f0, ∀ f, f0 ≤ f → ∀ v, validate E f d v s = (schemaValidate E.w docs x.vocabulary f D.root v, s) := by
  obtain ⟨f0, h0⟩ := docs_read hm
  refine ⟨f0 + 1, fun f hf v => ?_⟩
  obtain ⟨g, rfl⟩ : ∃ g, f = g + 1 := ⟨f - 1, by omega⟩
  unfold validate
  rw [load_again hx (hm.doc d x D hx hD).1]
  simp only [hx, h0 (g + 1) (by omega), hD]

end Verif.Obj
