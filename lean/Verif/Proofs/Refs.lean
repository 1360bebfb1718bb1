import Verif.Spec.Refs
import Verif.Proofs.Families
import Verif.Proofs.Mono
/-! # Following references: lemmas for C39 and C45 -/

namespace Verif
open Verif.Spec

theorem dictGet_filter_key {β : Type} (own : List (Str × β)) (k : Str) :
    dictGet k (own.filter fun p => p.1 ≠ c!"$ref") = if k = c!"$ref" then none else dictGet k own := by
  induction own with
  | nil => simp [dictGet]
  | cons x own ih =>
    obtain ⟨a, b⟩ := x
    by_cases e : a = c!"$ref"
    · subst e
      rw [List.filter_cons_of_neg (by simp), ih]
      by_cases e : k = c!"$ref"
      · simp [e]
      · simp [e, dictGet, Ne.symm e]
    · rw [List.filter_cons_of_pos (by simpa using e)]
      by_cases e' : a = k
      · subst e'; simp [dictGet, e]
      · simp only [dictGet, if_neg e', ih]

theorem fold_set_nodup {β : Type} (kvs : List (Str × β)) : ∀ p : List (Str × β), (p.map Prod.fst).Nodup →
    ((kvs.foldl (fun d x => dictSet x.1 x.2 d) p).map Prod.fst).Nodup := by
  induction kvs with
  | nil => exact fun p h => h
  | cons x kvs ih => exact fun p h => ih _ (nodup_set _ _ _ h)

/-- `_ref_value` (keywords/ref_keyword.py 42-58) is the merged dictionary. -/
theorem overlay_merged {β : Type} {own theirs : List (Str × β)} (ho : (own.map Prod.fst).Nodup) (ht : (theirs.map Prod.fst).Nodup) :
    Merged own theirs (theirs.foldl (fun d p => dictSet p.1 p.2 d) (own.filter fun p => p.1 ≠ c!"$ref")) := by
  refine ⟨fold_set_nodup _ _ (ho.sublist (List.Sublist.map _ List.filter_sublist)), fun k => ?_⟩
  rw [dictGet_fold _ ht, dictGet_filter_key]

/-! ## When following references ends -/

variable {docs : List Doc}

theorem queryDoc_start (vw : Node → Res Node) (doc : Doc) (p : List Str) :
    queryDoc vw doc p = queryLoop vw (startOf doc p).1 (startOf doc p).2 := by
  match p with
  | [] => rfl
  | [k] =>
    simp only [queryDoc, startOf]
    cases dictGet k doc.anchors with
    | some n => rfl
    | none => by_cases e : k = [] <;> simp [e, queryLoop]
  | _ :: _ :: _ => rfl

theorem pyIndex_ends {α : Type} (xs : List α) (i : Int) : pyIndex xs i ≠ .timeout := by
  simp only [pyIndex]
  generalize (if i < 0 then i + xs.length else i) = j
  by_cases h : j < 0
  · simp [h]
  · rw [if_neg h]; cases xs[j.toNat]? <;> simp

theorem intInArr_ends (i : Int) (xs : List Node) : intInArr i xs ≠ .timeout := by
  induction xs with
  | nil => simp [intInArr]
  | cons x xs ih =>
    cases x <;> simp only [intInArr] <;> first | exact ih | (split <;> first | exact ih | simp) | simp

theorem queryStep_ends (n v : Node) (k : Str) : queryStep n v k ≠ .timeout := by
  unfold queryStep
  split
  · split
    · split
      · simp
      · split
        · simp
        · rename_i xs _ _ _ _ _ _ i _
          have := intInArr_ends i xs
          cases e : intInArr i xs with
          | timeout => exact absurd e this
          | err e => simp
          | ok b => cases b <;> simp [pyIndex_ends]
    · split
      · simp
      · split
        · simp
        · exact pyIndex_ends _ _
  · split <;> simp
  · simp

theorem view_plain_ok {n : Node} (h : ∀ o d p, n ≠ .ref o d p) (f : Nat) : view docs (f + 1) n = .ok n := by
  cases n with
  | ref o d p => exact absurd rfl (h o d p)
  | _ => rfl

/-- Whether a reference shows something depends on where it points only. -/
theorem view_own {f : Nat} {own own' : List (Str × Node)} {d : Nat} {p : List Str} (h : view docs f (.ref own d p) ≠ .timeout) :
    view docs f (.ref own' d p) ≠ .timeout := by
  cases f with
  | zero => exact absurd rfl h
  | succ f =>
    rw [view] at h ⊢
    split
    · simp
    · next doc hd =>
      simp only [hd] at h
      cases e : queryDoc (view docs f) doc p with
      | timeout => rw [e] at h; exact absurd rfl h
      | err x => simp
      | ok frag =>
        rw [e] at h
        rw [Res.ok_bind] at h ⊢
        cases e' : view docs f frag with
        | timeout => rw [e'] at h; exact absurd rfl h
        | err x => simp
        | ok v => rw [Res.ok_bind]; cases v <;> simp

/-- The chain of references at `x` ends. -/
def EndsAt (docs : List Doc) (f : Nat) (x : Nat × List Str) : Prop := view docs f (.ref [] x.1 x.2) ≠ .timeout

theorem view_agree {f g : Nat} {n v : Node} (h : view docs f n = .ok v) (hg : view docs g n ≠ .timeout) : view docs g n = .ok v := by
  rcases Nat.le_total f g with hl | hl
  · rw [view_mono docs hl n (by rw [h]; simp), h]
  · rw [← view_mono docs hl n hg, h]

theorem look_ends {ks : List Str} : ∀ {n : Node}, (∀ x, Meets docs n ks x → ∃ f, EndsAt docs f x) →
    ∃ f, (queryLoop (view docs f) n ks >>= view docs f) ≠ .timeout := by
  have node : ∀ {n : Node} {ks}, (∀ x, Meets docs n ks x → ∃ f, EndsAt docs f x) → ∃ f, view docs f n ≠ .timeout := by
    intro n ks h
    cases n with
    | ref own d p =>
      obtain ⟨f, hf⟩ := h (d, p) (.here own (d, p) ks)
      exact ⟨f, view_own hf⟩
    | _ => exact ⟨1, by simp [view]⟩
  induction ks with
  | nil =>
    intro n h
    obtain ⟨f, hf⟩ := node h
    exact ⟨f, hf⟩
  | cons k ks ih =>
    intro n h
    obtain ⟨f, hf⟩ := node h
    cases e : view docs f n with
    | timeout => exact absurd e hf
    | err x => exact ⟨f, by rw [queryLoop, e]; simp⟩
    | ok v =>
      cases e' : queryStep n v k with
      | timeout => exact absurd e' (queryStep_ends _ _ _)
      | err x => exact ⟨f, by rw [queryLoop, e, Res.ok_bind, e']; simp⟩
      | ok n' =>
        obtain ⟨g, hg⟩ := ih fun x hx => h x (.next ⟨f, v, e, e'⟩ hx)
        have h1 : view docs (max f g) n = .ok v := by rw [view_mono docs (Nat.le_max_left f g) n hf, e]
        refine ⟨max f g, ?_⟩
        rw [queryLoop, h1, Res.ok_bind, e', Res.ok_bind]
        have hm : (queryLoop (view docs g) n' ks >>= view docs g) ⊑ (queryLoop (view docs (max f g)) n' ks >>= view docs (max f g)) :=
          (queryLoop_le (fun n => view_mono docs (Nat.le_max_right f g) n) _ _).bind fun _ => view_mono docs (Nat.le_max_right f g) _
        rw [hm hg]
        exact hg

theorem look_meets {f : Nat} {n : Node} {ks : List Str} {x : Nat × List Str} (hx : Meets docs n ks x)
    (h : (queryLoop (view docs f) n ks >>= view docs f) ≠ .timeout) : EndsAt docs f x := by
  induction hx with
  | here own x ks =>
    cases ks with
    | nil => exact view_own h
    | cons k ks =>
      have : view docs f (.ref own x.1 x.2) ≠ .timeout := by
        intro e
        rw [queryLoop, e] at h
        exact h rfl
      exact view_own this
  | @next n n' k ks x hn _ ih =>
    obtain ⟨g, v, e, e'⟩ := hn
    have hv : view docs f n ≠ .timeout := by
      intro e
      rw [queryLoop, e] at h
      exact h rfl
    have hv := view_agree e hv
    rw [queryLoop, hv, Res.ok_bind, e', Res.ok_bind] at h
    exact ih h

theorem ends_of_acc {x : Nat × List Str} (h : Acc (Needs docs) x) : ∃ f, EndsAt docs f x := by
  induction h with
  | intro y _ ih =>
    cases hd : docs[y.1]? with
    | none => exact ⟨1, by simp [EndsAt, view, hd]⟩
    | some doc =>
      obtain ⟨f, hf⟩ := look_ends (docs := docs) (n := (startOf doc y.2).1) (ks := (startOf doc y.2).2) fun x hx => ih x ⟨doc, hd, hx⟩
      refine ⟨f + 1, ?_⟩
      rw [EndsAt, view, hd]
      simp only [queryDoc_start]
      cases e : queryLoop (view docs f) (startOf doc y.2).1 (startOf doc y.2).2 with
      | timeout => rw [e] at hf; exact absurd rfl hf
      | err x => simp
      | ok frag =>
        rw [e] at hf
        rw [Res.ok_bind] at hf ⊢
        cases e' : view docs f frag with
        | timeout => exact absurd e' hf
        | err x => simp
        | ok v => rw [Res.ok_bind]; cases v <;> simp

theorem acc_of_ends : ∀ {f : Nat} {x : Nat × List Str}, EndsAt docs f x → Acc (Needs docs) x
  | 0, x, h => absurd rfl h
  | f + 1, x, h => by
    refine ⟨_, fun y hy => ?_⟩
    obtain ⟨doc, hd, hm⟩ := hy
    refine acc_of_ends (f := f) (look_meets hm ?_)
    rw [EndsAt, view, hd] at h
    simp only [queryDoc_start] at h
    intro e
    apply h
    cases e' : queryLoop (view docs f) (startOf doc x.2).1 (startOf doc x.2).2 with
    | timeout => rfl
    | err x => rw [e'] at e; cases e
    | ok frag =>
      rw [e', Res.ok_bind] at e
      rw [Res.ok_bind, e]
      rfl

end Verif
