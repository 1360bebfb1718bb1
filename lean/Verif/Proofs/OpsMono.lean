import Verif.Proofs.LoadPlain
/-! # Loading and querying: more fuel gives the same outcome and the same state -/

namespace Verif.Obj
open Verif

/-- Where `x` ends, `y` does the same. -/
def M.Ext {α : Type} (x y : M α) : Prop := ∀ s, (x s).1 ≠ .timeout → y s = x s

namespace M.Ext
variable {α β : Type}

theorem refl (x : M α) : Ext x x := fun _ _ => rfl

theorem bind {x y : M α} {g h : α → M β} (hx : Ext x y) (hg : ∀ a, Ext (g a) (h a)) : Ext (x >>= g) (y >>= h) := by
  intro s hs
  have hxt : (x s).1 ≠ .timeout := by
    intro e
    apply hs
    change (match x s with | (.ok a, s) => g a s | (.err e, s) => (.err e, s) | (.timeout, s) => (.timeout, s)).1 = .timeout
    rcases hxs : x s with ⟨r, s'⟩
    rw [hxs] at e
    simp only at e
    subst e
    rfl
  have hy := hx s hxt
  rcases hxs : x s with ⟨r, s'⟩
  rw [hxs] at hy
  cases r with
  | ok a =>
    rw [M.bind_ok hxs] at hs ⊢
    rw [M.bind_ok hy]
    exact hg a s' hs
  | err e => rw [M.bind_err hxs, M.bind_err hy]
  | timeout => rw [hxs] at hxt; exact absurd rfl hxt

theorem ite {c : Prop} [Decidable c] {x y x' y' : M α} (h : Ext x y) (h' : Ext x' y') : Ext (if c then x else x') (if c then y else y') := by
  split
  · exact h
  · exact h'

theorem timeout (y : M α) : Ext (lift .timeout) y := fun _ h => absurd rfl h
end M.Ext

open M.Ext

structure Ops.Le (o p : Ops) : Prop where
  kind : ∀ i, M.Ext (o.kind i) (p.kind i)
  members : ∀ i, M.Ext (o.members i) (p.members i)
  elems : ∀ i, M.Ext (o.elems i) (p.elems i)
  node : ∀ i, M.Ext (o.node i) (p.node i)
  query : ∀ d q, M.Ext (o.query d q) (p.query d q)
  load : ∀ d, M.Ext (o.load d) (p.load d)
  process : ∀ d ks i, M.Ext (o.process d ks i) (p.process d ks i)

section
variable (E : Env) {o p : Ops} (h : Ops.Le o p)
include h

theorem kindS_le (i : Nat) : M.Ext (kindS o i) (kindS p i) := by
  refine (refl _).bind fun c => ?_
  obtain ⟨sh, q, k⟩ := c
  cases sh with
  | ref n d q => exact (h.query _ _).bind fun x => h.kind x
  | _ => exact refl _

theorem membersS_le (i : Nat) : M.Ext (membersS o i) (membersS p i) := by
  refine (refl _).bind fun c => ?_
  obtain ⟨sh, q, k⟩ := c
  cases sh with
  | ref n d q =>
    refine (refl _).bind fun x => (h.members _).ite ((h.query _ _).bind fun x => (h.kind x).bind fun k => (refl _).ite ?_)
    exact (h.members _).bind fun a => (h.members _).bind fun b => refl _
  | _ => exact refl _

theorem elemsS_le (i : Nat) : M.Ext (elemsS o i) (elemsS p i) := by
  refine (refl _).bind fun c => ?_
  obtain ⟨sh, q, k⟩ := c
  cases sh with
  | ref n d q => exact (refl _).bind fun x => (refl _).ite ((h.query _ _).bind fun x => h.elems x)
  | _ => exact refl _

omit h in
theorem eachL_le {α : Type} {f g : Nat → M α} (hf : ∀ x, M.Ext (f x) (g x)) : ∀ xs, M.Ext (eachL f xs) (eachL g xs)
  | [] => refl _
  | x :: xs => (hf x).bind fun _ => (eachL_le hf xs).bind fun _ => refl _
omit h in
theorem eachD_le {α : Type} {f g : Nat → M α} (hf : ∀ x, M.Ext (f x) (g x)) : ∀ xs, M.Ext (eachD f xs) (eachD g xs)
  | [] => refl _
  | (_, x) :: xs => (hf x).bind fun _ => (eachD_le hf xs).bind fun _ => refl _

theorem nodeS_le (i : Nat) : M.Ext (nodeS o i) (nodeS p i) := by
  refine (refl _).bind fun c => ?_
  obtain ⟨sh, q, k⟩ := c
  cases sh with
  | arr xs => exact (eachL_le h.node xs).bind fun _ => refl _
  | obj xs => exact (eachD_le h.node xs).bind fun _ => refl _
  | ref n d q => exact (h.node _).bind fun n => by cases n <;> exact refl _
  | _ => exact refl _

theorem item_le (i : Nat) (k : Str) : M.Ext (item o i k) (item p i k) := (h.members i).bind fun _ => refl _

theorem itemText_le (i : Nat) (k : Str) : M.Ext (itemText E o i k) (itemText E p i k) :=
  (item_le h i k).bind fun x => (h.node x).bind fun _ => refl _

theorem loadS_le (d : Nat) : M.Ext (loadS o d) (loadS p d) :=
  (refl _).bind fun _ => (refl _).ite ((h.process _ _ _).bind fun _ => refl _)

theorem walk_le (ks : List Str) : ∀ n, M.Ext (walk o n ks) (walk p n ks) := by
  induction ks with
  | nil => exact fun n => refl _
  | cons k ks ih =>
    intro n
    refine (h.kind n).bind fun t => ?_
    cases t with
    | array =>
      refine (refl _).bind fun c => ?_
      obtain ⟨sh, q, k'⟩ := c
      cases sh with
      | arr xs =>
        refine (refl _).ite ?_
        cases pyInt k with
        | none => exact refl _
        | some i => exact (refl _).bind fun x => ih x
      | _ =>
        refine (refl _).ite ?_
        cases pyInt k with
        | none => exact refl _
        | some i => exact (h.elems n).bind fun xs => (refl _).bind fun b => ((refl _).bind fun x => ih x).ite (refl _)
    | object => exact (item_le h n k).bind fun x => ih x
    | _ => exact refl _

theorem queryS_le (d : Nat) (ptr : List Str) : M.Ext (queryS o d ptr) (queryS p d ptr) := by
  refine (h.load d).bind fun _ => (refl _).bind fun s => ?_
  match ptr with
  | [k] =>
    simp only
    cases dictGet k s.anchors with
    | some n => exact refl _
    | none => exact (refl _).ite (walk_le h _ _)
  | [] => exact walk_le h _ _
  | a :: b :: c => exact walk_le h _ _

theorem canApply_le (k : Kw) (n : Nat) : M.Ext (canApply o k n) (canApply p k n) := (h.members n).bind fun _ => refl _

theorem applyCore_le (d n : Nat) (k : Kw) : M.Ext (applyCore E o d n k) (applyCore E p d n k) := by
  cases k with
  | ref => exact (itemText_le E h n _).bind fun _ => refl _
  | anchor => exact (itemText_le E h n _).bind fun _ => refl _
  | id =>
    have h1 : M.Ext (idText E o n) (idText E p n) := (h.members n).bind fun _ => (itemText_le E h _ _).ite (itemText_le E h _ _)
    have h2 : ∀ u, M.Ext (childUri E o n u) (childUri E p n u) := by
      intro u
      refine (refl _).bind fun _ => (refl _).ite ((refl _).bind fun _ => (refl _).bind fun _ => (h.members _).bind fun _ => ?_)
      exact ((itemText_le E h _ _).bind fun _ => refl _).ite (((itemText_le E h _ _).bind fun _ => refl _).ite (refl _))
    refine h1.bind fun _ => (refl _).bind fun _ => (refl _).ite ((refl _).bind fun c => ?_)
    obtain ⟨sh, q, k'⟩ := c
    cases q with
    | none => exact refl _
    | some j => exact (refl _).bind fun _ => (refl _).bind fun _ => (refl _).ite ((h2 _).bind fun _ => refl _)
  | _ => exact refl _

theorem applyAll_le (d : Nat) (ks : List Kw) : ∀ n, M.Ext (applyAll E o d ks n) (applyAll E p d ks n) := by
  induction ks with
  | nil => exact fun n => refl _
  | cons k ks ih => exact fun n => (canApply_le h k n).bind fun _ => ((applyCore_le E h d n k).bind fun n' => ih n').ite (ih n)

theorem processS_le (d : Nat) (ks : List Kw) (n : Nat) : M.Ext (processS E o d ks n) (processS E p d ks n) :=
  (h.kind n).bind fun _ => (refl _).ite ((h.members n).bind fun _ => (eachD_le (h.process d ks) _).bind fun _ => (refl _).bind fun _ => applyAll_le E h d ks n)
end

theorem ops_succ (E : Env) : ∀ f, Ops.Le (ops E f) (ops E (f + 1))
  | 0 => ⟨fun _ => timeout _, fun _ => timeout _, fun _ => timeout _, fun _ => timeout _, fun _ _ => timeout _, fun _ => timeout _, fun _ _ _ => timeout _⟩
  | f + 1 =>
    have ih := ops_succ E f
    ⟨kindS_le ih, membersS_le ih, elemsS_le ih, nodeS_le ih, queryS_le ih, loadS_le ih, processS_le E ih⟩

theorem M.Ext.trans {α : Type} {x y z : M α} (h : M.Ext x y) (h' : M.Ext y z) : M.Ext x z := by
  intro s hs
  have e := h s hs
  rw [← e]
  exact h' s (by rw [e]; exact hs)

theorem ops_mono (E : Env) {f g : Nat} (h : f ≤ g) : Ops.Le (ops E f) (ops E g) := by
  induction h with
  | refl => exact ⟨fun _ => refl _, fun _ => refl _, fun _ => refl _, fun _ => refl _, fun _ _ => refl _, fun _ => refl _, fun _ _ _ => refl _⟩
  | step _ ih =>
    have s := ops_succ E
    exact ⟨fun _ => (ih.kind _).trans ((s _).kind _), fun _ => (ih.members _).trans ((s _).members _),
      fun _ => (ih.elems _).trans ((s _).elems _), fun _ => (ih.node _).trans ((s _).node _),
      fun _ _ => (ih.query _ _).trans ((s _).query _ _), fun _ => (ih.load _).trans ((s _).load _), fun _ _ _ => (ih.process _ _ _).trans ((s _).process _ _ _)⟩

theorem call_mono (E : Env) {f g : Nat} (h : f ≤ g) (c : Call) : M.Ext (call E f c) (call E g c) := by
  have hl := ops_mono E h
  cases c with
  | create v voc => exact refl _
  | load d => exact (hl.load d).bind fun _ => refl _
  | value d => exact (hl.load d).bind fun _ => refl _
  | query d t => exact (refl _).bind fun _ => (hl.query _ _).bind fun _ => refl _

/-- A program none of whose calls runs out of fuel has the same outcomes and the same final state with more fuel. -/
theorem calls_mono (E : Env) {f g : Nat} (h : f ≤ g) : ∀ (cs : List Call) (s : St), .timeout ∉ (calls E f cs s).1 → calls E g cs s = calls E f cs s := by
  intro cs
  induction cs with
  | nil => exact fun s _ => rfl
  | cons c cs ih =>
    intro s hs
    simp only [calls, List.mem_cons, not_or] at hs
    have e := call_mono E h c s (Ne.symm hs.1)
    simp only [calls]
    rw [e, ih _ hs.2]

end Verif.Obj
