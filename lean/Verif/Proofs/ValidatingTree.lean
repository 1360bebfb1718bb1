import Verif.Proofs.ValidatingMono
import Verif.Proofs.Bridge
/-! # Validation on the objects and validation with the trees they make up -/

set_option linter.unusedSimpArgs false

namespace Verif.Obj
open Verif Verif.Spec

/-- Read from `s`, the objects and the trees have the same to say: both end, with related results, or neither does. -/
structure Sim {α β : Type} (s : St) (R : β → α → Prop) (X : Nat → M α) (T : Nat → Res β) : Prop where
  up : ∀ {g h : Nat}, g ≤ h → M.Ext (X g) (X h)
  upT : ∀ {f h : Nat}, f ≤ h → T f ⊑ T h
  to : ∀ f, T f ≠ .timeout → ∃ g0, ∀ g, g0 ≤ g → ∃ y, X g s = (y, s) ∧ Alike R (T f) y
  back : ∀ g, (X g s).1 ≠ .timeout → ∃ f, T f ≠ .timeout

section
variable {α β γ δ : Type} {s : St}

theorem Sim.at {R : β → α → Prop} {X : Nat → M α} {T : Nat → Res β} (h : Sim s R X T) {g : Nat} (hg : (X g s).1 ≠ .timeout) :
    ∃ f y, X g s = (y, s) ∧ T f ≠ .timeout ∧ Alike R (T f) y := by
  obtain ⟨f, hf⟩ := h.back g hg
  obtain ⟨g0, hh⟩ := h.to f hf
  obtain ⟨y, e, ha⟩ := hh (max g g0) (by omega)
  exact ⟨f, y, (h.up (by omega : g ≤ max g g0) s hg).symm.trans e, hf, ha⟩

theorem Sim.const {R : β → α → Prop} {x : M α} {y : Res α} {z : Res β} (e : x s = (y, s)) (h : Alike R z y) : Sim s R (fun _ => x) fun _ => z :=
  ⟨fun _ => .refl _, fun _ => .refl _, fun _ _ => ⟨0, fun _ _ => ⟨y, e, h⟩⟩, fun _ hg => ⟨0, fun ez => by
    subst ez
    change (x s).1 ≠ _ at hg
    rw [e] at hg
    cases y with
    | timeout => exact hg rfl
    | _ => exact h.elim⟩⟩

theorem Sim.bind {R : β → α → Prop} {R' : δ → γ → Prop} {X : Nat → M α} {T : Nat → Res β} {G : Nat → α → M γ} {H : Nat → β → Res δ} (hx : Sim s R X T)
    (up : ∀ {g h : Nat}, g ≤ h → ∀ a, M.Ext (G g a) (G h a)) (upT : ∀ {g h : Nat}, g ≤ h → ∀ a, H g a ⊑ H h a)
    (hg : ∀ b a, R b a → (∃ f, T f = .ok b) → Sim s R' (fun g => G g a) fun f => H f b) : Sim s R' (fun g => X g >>= G g) fun f => T f >>= H f := by
  refine ⟨fun h => (hx.up h).bind (up h), fun h => (hx.upT h).bind (upT h), fun f hf => ?_, fun g hne => ?_⟩
  · cases e : T f with
    | timeout =>
      change (T f >>= H f) ≠ _ at hf
      rw [e] at hf
      exact absurd rfl hf
    | err x =>
      obtain ⟨g0, hh⟩ := hx.to f (by rw [e]; simp)
      refine ⟨g0, fun g hle => ?_⟩
      obtain ⟨y, e1, ha⟩ := hh g hle
      rw [e] at ha
      rw [ha.of_err] at e1
      exact ⟨.err x, M.bind_err e1, rfl⟩
    | ok b =>
      obtain ⟨g0, hh⟩ := hx.to f (by rw [e]; simp)
      have hf' : H f b ≠ .timeout := by
        change (T f >>= H f) ≠ _ at hf
        rw [e] at hf
        exact hf
      have hh0 := hh g0 (Nat.le_refl _)
      obtain ⟨y, e0, ha⟩ := hh0
      rw [e] at ha
      obtain ⟨a, rfl, hr⟩ := ha.of_ok
      obtain ⟨g1, hh1⟩ := (hg b a hr ⟨f, e⟩).to f hf'
      refine ⟨max g0 g1, fun g hle => ?_⟩
      obtain ⟨y, e1, h1⟩ := hh1 g (by omega)
      have e2 := (hx.up (by omega : g0 ≤ g) s (by rw [e0]; simp)).trans e0
      exact ⟨y, (M.bind_ok e2).trans e1, h1⟩
  · change ((X g >>= G g) s).1 ≠ _ at hne
    have h1 : (X g s).1 ≠ .timeout := by
      intro e
      rcases e' : X g s with ⟨r, s'⟩
      rw [e'] at e
      simp only at e
      subst e
      rw [M.bind_timeout e'] at hne
      exact hne rfl
    obtain ⟨f, y, e, hf, ha⟩ := hx.at h1
    cases y with
    | timeout => rw [e] at h1; exact absurd rfl h1
    | err x =>
      refine ⟨f, ?_⟩
      change (T f >>= H f) ≠ _
      cases e' : T f with
      | err x => simp
      | timeout => exact absurd e' hf
      | ok b => rw [e'] at ha; exact ha.elim
    | ok a =>
      rw [M.bind_ok e] at hne
      cases e' : T f with
      | err x => rw [e'] at ha; exact ha.elim
      | timeout => exact absurd e' hf
      | ok b =>
        rw [e'] at ha
        obtain ⟨f', hf'⟩ := (hg b a ha ⟨f, e'⟩).back g hne
        refine ⟨max f f', ?_⟩
        change (T _ >>= H _) ≠ _
        rw [hx.upT (by omega : f ≤ max f f') hf, e']
        change H _ b ≠ _
        rw [upT (by omega : f' ≤ max f f') b hf']
        exact hf'

theorem Sim.weaken {R R' : β → α → Prop} {X : Nat → M α} {T : Nat → Res β} (h : Sim s R X T) (hr : ∀ b a, R b a → R' b a) : Sim s R' X T := by
  refine ⟨h.up, h.upT, fun f hf => ?_, h.back⟩
  obtain ⟨g0, hh⟩ := h.to f hf
  refine ⟨g0, fun g hle => ?_⟩
  obtain ⟨y, e, ha⟩ := hh g hle
  refine ⟨y, e, ?_⟩
  generalize T f = x at ha
  match x, y, ha with
  | .ok _, .ok _, ha => exact hr _ _ ha
  | .err _, .err _, ha => exact ha
  | .timeout, .timeout, _ => trivial

/-- One more step on both sides. -/
theorem Sim.step {R : β → α → Prop} {X Y : Nat → M α} {T U : Nat → Res β} (h : Sim s R X T) (e : ∀ g, Y (g + 1) = X g) (e' : ∀ f, U (f + 1) = T f)
    (e0 : Y 0 = lift .timeout) (e0' : U 0 = .timeout) : Sim s R Y U := by
  refine ⟨fun {g h'} hle => ?_, fun {g h'} hle => ?_, fun f hf => ?_, fun g hg => ?_⟩
  · cases g with
    | zero => rw [e0]; exact .timeout _
    | succ g =>
      obtain ⟨k, rfl⟩ : ∃ k, h' = k + 1 := ⟨h' - 1, by omega⟩
      rw [e, e]
      exact h.up (by omega)
  · cases g with
    | zero => rw [e0']; exact fun h => absurd rfl h
    | succ g =>
      obtain ⟨k, rfl⟩ : ∃ k, h' = k + 1 := ⟨h' - 1, by omega⟩
      rw [e', e']
      exact h.upT (by omega)
  · cases f with
    | zero => exact absurd e0' hf
    | succ f =>
      rw [e'] at hf ⊢
      obtain ⟨g0, hh⟩ := h.to f hf
      refine ⟨g0 + 1, fun g hle => ?_⟩
      obtain ⟨k, rfl⟩ : ∃ k, g = k + 1 := ⟨g - 1, by omega⟩
      rw [e]
      exact hh k (by omega)
  · cases g with
    | zero => rw [e0] at hg; exact absurd rfl hg
    | succ g =>
      rw [e] at hg
      obtain ⟨f, hf⟩ := h.back g hg
      exact ⟨f + 1, by rw [e']; exact hf⟩
end

/-! ## Looking -/

/-- An object and the tree it makes up. -/
abbrev Pair (s : St) : Type := { p : Nat × Node // Shows s.mem p.2 p.1 }

def Pair.obj {s : St} (p : Pair s) : Nat := p.1.1
def Pair.node {s : St} (p : Pair s) : Node := p.1.2

theorem ShowsL.pairs {s : St} : ∀ {xs : List Node} {ids : List Nat}, ShowsL s.mem xs ids → ∃ ps : List (Pair s), xs = ps.map Pair.node ∧ ids = ps.map Pair.obj
  | [], ids, h => by rw [ShowsL] at h; exact ⟨[], rfl, h⟩
  | x :: xs, ids, h => by
    rw [ShowsL] at h
    obtain ⟨i, rest, rfl, h1, h2⟩ := h
    obtain ⟨ps, rfl, rfl⟩ := ShowsL.pairs h2
    exact ⟨⟨(i, x), h1⟩ :: ps, rfl, rfl⟩

theorem ShowsD.pairs {s : St} : ∀ {xs : List (Str × Node)} {ids : List (Str × Nat)}, ShowsD s.mem xs ids →
    ∃ ps : List (Str × Pair s), xs = mapD Pair.node ps ∧ ids = mapD Pair.obj ps
  | [], ids, h => by rw [ShowsD] at h; exact ⟨[], rfl, h⟩
  | (k, x) :: xs, ids, h => by
    rw [ShowsD] at h
    obtain ⟨i, rest, rfl, h1, h2⟩ := h
    obtain ⟨ps, rfl, rfl⟩ := ShowsD.pairs h2
    exact ⟨(k, ⟨(i, x), h1⟩) :: ps, rfl, rfl⟩

/-- The tree shows what the object shows. -/
def SameSight (s : St) (n : Node) (x : Sight Nat) : Prop := n.isRef = false ∧ ∃ y : Sight (Pair s), n.sight = y.map Pair.node ∧ x = y.map Pair.obj

theorem isRef_false {n : Node} (h : ∀ own d p, n ≠ .ref own d p) : n.isRef = false := by
  cases n with
  | ref own d p => exact absurd rfl (h own d p)
  | _ => rfl

section
variable {E : Env} {s : St} {docs : List Doc} (hm : Mirrors s docs)
include hm

theorem Mirrors.all_ready : AllReady s := by
  intro x hx
  obtain ⟨d, hd⟩ := List.getElem?_of_mem hx
  rcases hm.both d with ⟨h, -⟩ | ⟨x', D, h, hD⟩
  · rw [hd] at h; cases h
  · rw [hd] at h; cases h
    exact (hm.doc d x D hd hD).1

theorem final_shows {f : Nat} {n : Node} {i : Nat} {v : Node} (hv : view docs f n = .ok v) (ho : ∀ kvs, v ≠ .obj kvs) (hs : Shows s.mem n i) :
    ∃ j g0, Shows s.mem v j ∧ ∀ g, g0 ≤ g → final E g i s = (.ok j, s) := by
  induction f generalizing n i with
  | zero => cases hv
  | succ f ih =>
    have plain : (∀ own d p, n ≠ .ref own d p) → ∃ j g0, Shows s.mem v j ∧ ∀ g, g0 ≤ g → final E g i s = (.ok j, s) := by
      intro hn
      have : view docs (f + 1) n = .ok n := view_self hn (by rw [hv]; simp)
      rw [this] at hv
      cases hv
      clear this ih ho
      refine ⟨i, 1, hs, fun g hg => ?_⟩
      obtain ⟨g, rfl⟩ : ∃ k, g = k + 1 := ⟨g - 1, by omega⟩
      obtain ⟨c, hc, hc'⟩ : ∃ c, s.mem[i]? = some c ∧ ∀ m d p, c.shape ≠ .ref m d p := by
        cases v with
        | ref own d p => exact absurd rfl (hn own d p)
        | null => rw [Shows] at hs; obtain ⟨c, h1, h2⟩ := hs; exact ⟨c, h1, by simp [h2]⟩
        | bool b => rw [Shows] at hs; obtain ⟨c, h1, h2⟩ := hs; exact ⟨c, h1, by simp [h2]⟩
        | num m => rw [Shows] at hs; obtain ⟨c, h1, h2⟩ := hs; exact ⟨c, h1, by simp [h2]⟩
        | str t => rw [Shows] at hs; obtain ⟨c, h1, h2⟩ := hs; exact ⟨c, h1, by simp [h2]⟩
        | arr xs => rw [Shows] at hs; obtain ⟨c, ids, h1, h2, -⟩ := hs; exact ⟨c, h1, by simp [h2]⟩
        | obj xs => rw [Shows] at hs; obtain ⟨c, ids, h1, h2, -⟩ := hs; exact ⟨c, h1, by simp [h2]⟩
      have hcell : cell i s = (.ok c, s) := by simp [cell, hc]
      rw [final]
      refine (M.bind_ok hcell).trans ?_
      obtain ⟨sh, q, k⟩ := c
      cases sh with
      | ref m d p => exact absurd rfl (hc' m d p)
      | _ => rfl
    cases n with
    | ref own d p =>
      rw [view] at hv
      cases hD : docs[d]? with
      | none => simp [hD] at hv
      | some D =>
        simp only [hD] at hv
        cases hq : queryDoc (view docs f) D p with
        | err e => simp [hq] at hv
        | timeout => simp [hq] at hv
        | ok t =>
          simp only [hq, Res.ok_bind] at hv
          cases ht : view docs f t with
          | err e => simp [ht] at hv
          | timeout => simp [ht] at hv
          | ok u =>
            have hu : u = v := by
              rw [ht] at hv
              cases u with
              | obj kvs => simp only [Res.ok_bind, Res.ok.injEq] at hv; exact absurd hv.symm (ho _)
              | _ => simpa using hv
            subst hu
            obtain ⟨g0, hh⟩ := query_reads hm f hD p (by rw [hq]; simp)
            have h0 := hh g0 (Nat.le_refl _)
            rw [hq] at h0
            obtain ⟨j, ej, hj⟩ := h0.of_ok
            obtain ⟨l, g1, hl, hg1⟩ := ih ht hj
            rw [Shows] at hs
            obtain ⟨c, m, c', ids, hc, hsh, -⟩ := hs
            refine ⟨l, max g0 g1 + 1, hl, fun g hg => ?_⟩
            obtain ⟨g, rfl⟩ : ∃ k, g = k + 1 := ⟨g - 1, by omega⟩
            have hcell : cell i s = (.ok c, s) := by simp [cell, hc]
            rw [final]
            refine (M.bind_ok hcell).trans ?_
            simp only [hsh]
            have e := (ropsOf_eq E hm.all_ready g).query d p
            rw [(ropsOf_mono s (by omega : g0 ≤ g)).query d p (by rw [ej]; simp), ej] at e
            exact (M.bind_ok e).trans (hg1 g (by omega))
    | _ => exact plain (by simp)

theorem sight_sim {n : Node} {i : Nat} (hs : Shows s.mem n i) : Sim s (SameSight s) (fun g => sightS E g i) fun f => view docs f n := by
  refine ⟨fun h => sightS_mono E h i, fun h => view_mono docs h n, fun f hf => ?_, fun g hg => ?_⟩
  · obtain ⟨g0, hr⟩ := reads hm f n i hf hs
    have hkind : ∀ g, g0 ≤ g → ∃ y, (ops E g).kind i s = (y, s) ∧ Alike (fun v k => k = v.kind) (view docs f n) y := fun g hg =>
      ⟨_, (ropsOf_eq E hm.all_ready g).kind i, hr.kind g hg⟩
    cases hv : view docs f n with
    | timeout => exact absurd hv hf
    | err e =>
      refine ⟨g0, fun g hg => ?_⟩
      obtain ⟨y, e1, h1⟩ := hkind g hg
      rw [hv] at h1
      rw [h1.of_err] at e1
      exact ⟨.err e, M.bind_err e1, rfl⟩
    | ok v =>
      have hk : ∀ g, g0 ≤ g → (ops E g).kind i s = (.ok v.kind, s) := by
        intro g hg
        obtain ⟨y, e1, h1⟩ := hkind g hg
        rw [hv] at h1
        obtain ⟨k, rfl, rfl⟩ := h1.of_ok
        exact e1
      have leaf : (∀ kvs, v ≠ .obj kvs) → ∃ j g1, Shows s.mem v j ∧ ∀ g, g1 ≤ g → final E g i s = (.ok j, s) := fun ho => final_shows hm hv ho hs
      cases v with
      | ref own d p => exact absurd rfl (view_not_ref hv own d p)
      | obj kvs =>
        obtain ⟨ids, e1, h1⟩ := hr.members kvs hv
        obtain ⟨ps, rfl, rfl⟩ := h1.pairs
        refine ⟨g0, fun g hg => ⟨.ok (.obj _), ?_, rfl, .obj ps, rfl, rfl⟩⟩
        have e2 := (ropsOf_eq E hm.all_ready g).members i
        rw [e1 g hg] at e2
        exact (M.bind_ok (hk g hg)).trans (M.bind_ok e2)
      | arr xs =>
        obtain ⟨ids, e1, h1⟩ := hr.elems xs hv
        obtain ⟨ps, rfl, rfl⟩ := h1.pairs
        refine ⟨g0, fun g hg => ⟨.ok (.arr _), ?_, rfl, .arr ps, rfl, rfl⟩⟩
        have e2 := (ropsOf_eq E hm.all_ready g).elems i
        rw [e1 g hg] at e2
        exact (M.bind_ok (hk g hg)).trans (M.bind_ok e2)
      | null =>
        obtain ⟨j, g1, hj, hh⟩ := leaf (by simp)
        rw [Shows] at hj
        obtain ⟨c, hc, hsh⟩ := hj
        have hcell : cell j s = (.ok c, s) := by simp [cell, hc]
        refine ⟨max g0 g1, fun g hg => ⟨.ok .null, ?_, rfl, .null, rfl, rfl⟩⟩
        refine (M.bind_ok (hk g (by omega))).trans ((M.bind_ok (hh g (by omega))).trans ((M.bind_ok hcell).trans ?_))
        simp only [hsh]; rfl
      | bool b =>
        obtain ⟨j, g1, hj, hh⟩ := leaf (by simp)
        rw [Shows] at hj
        obtain ⟨c, hc, hsh⟩ := hj
        have hcell : cell j s = (.ok c, s) := by simp [cell, hc]
        refine ⟨max g0 g1, fun g hg => ⟨.ok (.bool b), ?_, rfl, .bool b, rfl, rfl⟩⟩
        refine (M.bind_ok (hk g (by omega))).trans ((M.bind_ok (hh g (by omega))).trans ((M.bind_ok hcell).trans ?_))
        simp only [hsh]; rfl
      | num b =>
        obtain ⟨j, g1, hj, hh⟩ := leaf (by simp)
        rw [Shows] at hj
        obtain ⟨c, hc, hsh⟩ := hj
        have hcell : cell j s = (.ok c, s) := by simp [cell, hc]
        refine ⟨max g0 g1, fun g hg => ⟨.ok (.num b), ?_, rfl, .num b, rfl, rfl⟩⟩
        refine (M.bind_ok (hk g (by omega))).trans ((M.bind_ok (hh g (by omega))).trans ((M.bind_ok hcell).trans ?_))
        simp only [hsh]; rfl
      | str b =>
        obtain ⟨j, g1, hj, hh⟩ := leaf (by simp)
        rw [Shows] at hj
        obtain ⟨c, hc, hsh⟩ := hj
        have hcell : cell j s = (.ok c, s) := by simp [cell, hc]
        refine ⟨max g0 g1, fun g hg => ⟨.ok (.str b), ?_, rfl, .str b, rfl, rfl⟩⟩
        refine (M.bind_ok (hk g (by omega))).trans ((M.bind_ok (hh g (by omega))).trans ((M.bind_ok hcell).trans ?_))
        simp only [hsh]; rfl
  · refine (ends hm g).1 n i hs fun e => hg ?_
    have e2 := (ropsOf_eq E hm.all_ready g).kind i
    rw [e] at e2
    change ((_ >>= _ : M _) s).1 = _
    rw [M.bind_timeout e2]
end

/-! ## The tree of a node -/

def leafOf : Shape → Option Node
  | .null => some .null
  | .bool b => some (.bool b)
  | .num n => some (.num n)
  | .str t => some (.str t)
  | _ => none

theorem node_leaf {E : Env} {s : St} {i : Nat} {c : Cell} {n : Node} (hc : s.mem[i]? = some c) (h : leafOf c.shape = some n) :
    ∃ g0, ∀ g, g0 ≤ g → (ops E g).node i s = (.ok n, s) := by
  refine ⟨1, fun g hg => ?_⟩
  obtain ⟨g, rfl⟩ : ∃ k, g = k + 1 := ⟨g - 1, by omega⟩
  have hcell : cell i s = (.ok c, s) := by simp [cell, hc]
  refine (M.bind_ok hcell).trans ?_
  obtain ⟨sh, q, k⟩ := c
  cases sh <;> cases h <;> rfl

mutual
theorem node_shows {E : Env} {s : St} : ∀ (n : Node) (i : Nat), Shows s.mem n i → ∃ g0, ∀ g, g0 ≤ g → (ops E g).node i s = (.ok n, s)
  | .null, i, h => by rw [Shows] at h; obtain ⟨c, hc, hsh⟩ := h; exact node_leaf hc (by rw [hsh]; rfl)
  | .bool _, i, h => by rw [Shows] at h; obtain ⟨c, hc, hsh⟩ := h; exact node_leaf hc (by rw [hsh]; rfl)
  | .num _, i, h => by rw [Shows] at h; obtain ⟨c, hc, hsh⟩ := h; exact node_leaf hc (by rw [hsh]; rfl)
  | .str _, i, h => by rw [Shows] at h; obtain ⟨c, hc, hsh⟩ := h; exact node_leaf hc (by rw [hsh]; rfl)
  | .arr xs, i, h => by
    rw [Shows] at h
    obtain ⟨c, ids, hc, hsh, hx⟩ := h
    obtain ⟨g0, hh⟩ := nodeL_shows (E := E) xs ids hx
    refine ⟨g0 + 1, fun g hg => ?_⟩
    obtain ⟨g, rfl⟩ : ∃ k, g = k + 1 := ⟨g - 1, by omega⟩
    have hcell : cell i s = (.ok c, s) := by simp [cell, hc]
    refine (M.bind_ok hcell).trans ?_
    simp only [hsh]
    exact M.bind_ok (hh g (by omega))
  | .obj kvs, i, h => by
    rw [Shows] at h
    obtain ⟨c, ids, hc, hsh, hx⟩ := h
    obtain ⟨g0, hh⟩ := nodeD_shows (E := E) kvs ids hx
    refine ⟨g0 + 1, fun g hg => ?_⟩
    obtain ⟨g, rfl⟩ : ∃ k, g = k + 1 := ⟨g - 1, by omega⟩
    have hcell : cell i s = (.ok c, s) := by simp [cell, hc]
    refine (M.bind_ok hcell).trans ?_
    simp only [hsh]
    exact M.bind_ok (hh g (by omega))
  | .ref own d p, i, h => by
    rw [Shows] at h
    obtain ⟨c, j, c', ids, hc, hsh, hc', hsh', hx⟩ := h
    obtain ⟨g0, hh⟩ := nodeD_shows (E := E) own ids hx
    refine ⟨g0 + 2, fun g hg => ?_⟩
    obtain ⟨g, rfl⟩ : ∃ k, g = k + 2 := ⟨g - 2, by omega⟩
    have hcell : cell i s = (.ok c, s) := by simp [cell, hc]
    have hcell' : cell j s = (.ok c', s) := by simp [cell, hc']
    have hj : (ops E (g + 1)).node j s = (.ok (.obj own), s) := by
      refine (M.bind_ok hcell').trans ?_
      simp only [hsh']
      exact M.bind_ok (hh g (by omega))
    refine (M.bind_ok hcell).trans ?_
    simp only [hsh]
    exact M.bind_ok hj
theorem nodeL_shows {E : Env} {s : St} : ∀ (xs : List Node) (ids : List Nat), ShowsL s.mem xs ids → ∃ g0, ∀ g, g0 ≤ g → eachL (ops E g).node ids s = (.ok xs, s)
  | [], ids, h => by rw [ShowsL] at h; subst h; exact ⟨0, fun _ _ => rfl⟩
  | x :: xs, ids, h => by
    rw [ShowsL] at h
    obtain ⟨i, rest, rfl, h1, h2⟩ := h
    obtain ⟨g1, hh1⟩ := node_shows (E := E) x i h1
    obtain ⟨g2, hh2⟩ := nodeL_shows (E := E) xs rest h2
    exact ⟨max g1 g2, fun g hg => (M.bind_ok (hh1 g (by omega))).trans (M.bind_ok (hh2 g (by omega)))⟩
theorem nodeD_shows {E : Env} {s : St} : ∀ (xs : List (Str × Node)) (ids : List (Str × Nat)), ShowsD s.mem xs ids → ∃ g0, ∀ g, g0 ≤ g → eachD (ops E g).node ids s = (.ok xs, s)
  | [], ids, h => by rw [ShowsD] at h; subst h; exact ⟨0, fun _ _ => rfl⟩
  | (k, x) :: xs, ids, h => by
    rw [ShowsD] at h
    obtain ⟨i, rest, rfl, h1, h2⟩ := h
    obtain ⟨g1, hh1⟩ := node_shows (E := E) x i h1
    obtain ⟨g2, hh2⟩ := nodeD_shows (E := E) xs rest h2
    exact ⟨max g1 g2, fun g hg => (M.bind_ok (hh1 g (by omega))).trans (M.bind_ok (hh2 g (by omega)))⟩
end

theorem view_isRef {docs : List Doc} {f : Nat} (n x : Node) (h : view docs f n = .ok x) : x.isRef = false := isRef_false (view_not_ref h)

theorem lookT_le {ρ : Type} {vw vw' : Node → Res Node} (h : ∀ n, vw n ⊑ vw' n) (q : Look Node ρ) : lookT vw q ⊑ lookT vw' q := by
  induction q with
  | done r => exact .refl _
  | sight n k ih => exact (h n).bind fun x => ih _
  | tree n k ih => exact ih n

section
variable {E : Env} {s : St} {docs : List Doc} (hm : Mirrors s docs)
include hm

theorem look_sim {ρ σ τ : Type} {h : ρ → σ} {h' : ρ → τ} (p : Look (Pair s) ρ) : ∀ (q : Look Nat σ) (q' : Look Node τ), Like Pair.obj h p q → Like Pair.node h' p q' →
    Sim s (fun b a => ∃ c, b = h' c ∧ a = h c) (fun g => lookS E g q) fun f => lookT (view docs f) q' := by
  induction p with
  | done r =>
    intro q q' hq hq'
    cases q with
    | done a =>
      cases q' with
      | done b =>
        simp only [Like] at hq hq'
        subst hq hq'
        refine Sim.const (y := r.fmap h) rfl ?_
        cases r with
        | ok c => exact ⟨c, rfl, rfl⟩
        | err e => exact rfl
        | timeout => trivial
      | _ => exact hq'.elim
    | _ => exact hq.elim
  | sight n k ih =>
    intro q q' hq hq'
    cases q with
    | sight a ka =>
      cases q' with
      | sight b kb =>
        obtain ⟨rfl, hk⟩ := hq
        obtain ⟨rfl, hk'⟩ := hq'
        refine Sim.bind (sight_sim hm n.2) (fun hle x => lookS_mono E hle _) (fun hle x => lookT_le (view_mono docs hle) _) fun b a hba _ => ?_
        obtain ⟨-, y, e, rfl⟩ := hba
        rw [e]
        exact ih y _ _ (hk y) (hk' y)
      | _ => exact hq'.elim
    | _ => exact hq.elim
  | tree n k ih =>
    intro q q' hq hq'
    cases q with
    | tree a ka =>
      cases q' with
      | tree b kb =>
        obtain ⟨rfl, hk⟩ := hq
        obtain ⟨rfl, hk'⟩ := hq'
        have hn : Sim s (fun b a => b = n.node ∧ a = n.node) (fun g => (ops E g).node n.obj) fun _ => .ok n.node := by
          obtain ⟨g0, hh⟩ := node_shows (E := E) n.node n.obj n.2
          exact ⟨fun hle => (ops_mono E hle).node _, fun _ => .refl _, fun f _ => ⟨g0, fun g hg => ⟨.ok n.node, hh g hg, rfl, rfl⟩⟩, fun _ _ => ⟨0, by simp⟩⟩
        refine Sim.bind (T := fun _ => .ok n.node) (H := fun f x => lookT (view docs f) (kb x)) hn (fun hle x => lookS_mono E hle _) (fun hle x => lookT_le (view_mono docs hle) _) fun b a hba _ => ?_
        obtain ⟨rfl, rfl⟩ := hba
        exact ih _ _ _ (hk _) (hk' _)
      | _ => exact hq'.elim
    | _ => exact hq.elim

omit hm in
theorem interp_sim {α β : Type} {rec : Nat → α → Val → Ctx → M Unit} {recT : Nat → α → Val → Ctx → Res Unit}
    (hrec : ∀ a v c, Sim s (fun _ _ => True) (fun g => rec g a v c) fun f => recT f a v c) (q : Prog α β) :
    Sim s (fun b a => b = a) (fun g => interpS (rec g) q) fun f => Prog.interp (recT f) q := by
  have upX : ∀ {g h : Nat}, g ≤ h → ∀ q : Prog α β, M.Ext (interpS (rec g) q) (interpS (rec h) q) := fun hle q => interpS_le (fun a v c => (hrec a v c).up hle) (.refl q)
  have upT : ∀ {g h : Nat}, g ≤ h → ∀ q : Prog α β, Prog.interp (recT g) q ⊑ Prog.interp (recT h) q := fun hle q => interp_le (fun a v c => (hrec a v c).upT hle) q
  induction q with
  | done r =>
    refine Sim.const (y := r) rfl ?_
    cases r with
    | ok b => exact rfl
    | err e => exact rfl
    | timeout => trivial
  | call a v c k ih =>
    have hr := hrec a v c
    have same : ∀ {x y : Res Unit}, Alike (fun _ _ => True) x y → y = x := by
      intro x y h
      match x, y, h with
      | .ok _, .ok _, _ => rfl
      | .err _, .err _, h => exact congrArg _ (Eq.symm h)
      | .timeout, .timeout, _ => rfl
    refine ⟨fun hle => upX hle _, fun hle => upT hle _, fun f hf => ?_, fun g hg => ?_⟩
    · have h1 : recT f a v c ≠ .timeout := fun e => hf (Prog.interp_call_timeout _ _ _ _ _ e)
      rw [Prog.interp_call _ _ _ _ _ h1] at hf ⊢
      obtain ⟨g0, hh⟩ := hr.to f h1
      obtain ⟨g1, hh1⟩ := (ih _).to f hf
      refine ⟨max g0 g1, fun g hg => ?_⟩
      obtain ⟨y, e, ha⟩ := hh g (by omega)
      obtain ⟨y', e', ha'⟩ := hh1 g (by omega)
      rw [same ha] at e
      exact ⟨y', (interpS_call e h1).trans e', ha'⟩
    · have h1 : (rec g a v c s).1 ≠ .timeout := by
        intro e
        rcases e' : rec g a v c s with ⟨r, s'⟩
        rw [e'] at e
        simp only at e
        subst e
        apply hg
        change (interpS (rec g) (.call a v c k) s).1 = _
        rw [interpS_call_timeout e']
      obtain ⟨f, y, e, hf, ha⟩ := hr.at h1
      rw [same ha] at e
      have hg' : (interpS (rec g) (k (recT f a v c)) s).1 ≠ .timeout := by
        intro e'
        apply hg
        change (interpS (rec g) (.call a v c k) s).1 = _
        rw [interpS_call e hf]
        exact e'
      obtain ⟨f', hf'⟩ := (ih _).back g hg'
      have e1 : recT (max f f') a v c = recT f a v c := hr.upT (by omega : f ≤ max f f') hf
      refine ⟨max f f', ?_⟩
      change Prog.interp _ _ ≠ _
      rw [Prog.interp_call _ _ _ _ _ (by rw [e1]; exact hf), e1, upT (by omega : f' ≤ max f f') _ hf']
      exact hf'

omit hm in
/-- With a validator that itself depends on the fuel. -/
theorem interp_sim_fuel {α β : Type} {rec : Nat → α → Val → Ctx → M Unit} {recT : Nat → α → Val → Ctx → Res Unit}
    (hrec : ∀ a v c, Sim s (fun _ _ => True) (fun g => rec g a v c) fun f => recT f a v c) (p : Nat → Prog α β) (hp : ∀ {f g : Nat}, f ≤ g → (p f).Le (p g)) :
    Sim s (fun b a => b = a) (fun g => interpS (rec g) (p g)) fun f => Prog.interp (recT f) (p f) := by
  have upX : ∀ {g h g' h' : Nat}, g ≤ h → g' ≤ h' → M.Ext (interpS (rec g) (p g')) (interpS (rec h) (p h')) := fun hle hle' => interpS_le (fun a v c => (hrec a v c).up hle) (hp hle')
  have upT : ∀ {g h g' h' : Nat}, g ≤ h → g' ≤ h' → Prog.interp (recT g) (p g') ⊑ Prog.interp (recT h) (p h') := fun hle hle' => Prog.Le.interp (fun a v c => (hrec a v c).upT hle) (hp hle')
  refine ⟨fun hle => upX hle hle, fun hle => upT hle hle, fun f hf => ?_, fun g hg => ?_⟩
  · obtain ⟨g0, hh⟩ := (interp_sim hrec (p f)).to f hf
    refine ⟨max g0 f, fun g hg => ?_⟩
    obtain ⟨y, e, ha⟩ := hh g (by omega)
    refine ⟨y, ?_, ha⟩
    have hy := ha.right_ne hf
    exact (upX (Nat.le_refl g) (by omega : f ≤ g) s (by rw [e]; exact hy)).trans e
  · obtain ⟨f, hf⟩ := (interp_sim hrec (p g)).back g hg
    refine ⟨max f g, ?_⟩
    change Prog.interp _ _ ≠ _
    rw [upT (by omega : f ≤ max f g) (by omega : g ≤ max f g) hf]
    exact hf

omit hm in
theorem interp_map {α β γ : Type} (g : α → γ) (rec : γ → Val → Ctx → Res Unit) (p : Prog α β) : Prog.interp rec (p.map g) = Prog.interp (fun a => rec (g a)) p := by
  induction p with
  | done r => rfl
  | call a v c k ih =>
    simp only [Prog.map, Prog.interp]
    cases rec (g a) v c with
    | timeout => rfl
    | _ => simp only [ih]

omit hm in
/-- `validateN` written with looking programs. -/
theorem validateN_look (w : World) (docs : List Doc) (voc : List Kw) (f : Nat) (n : Node) (v : Val) (ctx : Ctx) :
    validateN w docs voc (f + 1) n v ctx = (view docs f n >>= fun x => match x.sight with
      | .bool b => if b then .ok () else .err (raisePlain ctx.path)
      | .obj items => lookT (view docs f) (loadAllL w id items voc []) >>= fun d => Prog.interp (validateN w docs voc f) (progAll w f v ctx d)
      | y => lookT (view docs f) (loadOtherL y voc)) := by
  rw [validateN]
  cases hv : view docs f n with
  | err e => rfl
  | timeout => rfl
  | ok x =>
    have hx := view_isRef n x hv
    simp only [Res.ok_bind]
    cases x with
    | bool b => rfl
    | obj items =>
      simp only [Node.sight, loadAll_tree items (fun n x => view_isRef n x)]
      rcases loadAll w (view docs f) id items voc [] with ⟨d, r⟩
      cases r with
      | ok u => simp only [Res.ok_bind, interp_progAll]
      | err e => rfl
      | timeout => rfl
    | ref => cases hx
    | null => exact (loadOther_tree .null rfl voc).symm
    | num m => exact (loadOther_tree (.num m) rfl voc).symm
    | str t => exact (loadOther_tree (.str t) rfl voc).symm
    | arr xs => exact (loadOther_tree (.arr xs) rfl voc).symm

end

/-! ## Validation, the depth and the fuel for looking apart -/

def validateOk (E : Env) (voc : List Kw) : Nat → Nat → Nat → Val → Ctx → M Unit
  | 0, _, _, _, _ => lift .timeout
  | k + 1, g, i, v, ctx => do
    match ← sightS E g i with
    | .bool b => if b then pure () else raise (raisePlain ctx.path)
    | .obj items => do
      let d ← lookS E g (loadAllL E.w id items voc [])
      interpS (validateOk E voc k g) (progAll E.w g v ctx d)
    | x => lookS E g (loadOtherL x voc)

def validateNk (w : World) (docs : List Doc) (voc : List Kw) : Nat → Nat → Node → Val → Ctx → Res Unit
  | 0, _, _, _, _ => .timeout
  | k + 1, f, n, v, ctx => view docs f n >>= fun x => match x.sight with
    | .bool b => if b then .ok () else .err (raisePlain ctx.path)
    | .obj items => lookT (view docs f) (loadAllL w id items voc []) >>= fun d => Prog.interp (validateNk w docs voc k f) (progAll w f v ctx d)
    | y => lookT (view docs f) (loadOtherL y voc)

section
variable (E : Env) (voc : List Kw)
open M.Ext

theorem validateO_to {f k g : Nat} (hk : f ≤ k) (hg : f ≤ g) (i : Nat) (v : Val) (ctx : Ctx) : M.Ext (validateO E voc f i v ctx) (validateOk E voc k g i v ctx) := by
  induction f generalizing k i v ctx with
  | zero => exact timeout _
  | succ f ih =>
    obtain ⟨k, rfl⟩ : ∃ j, k = j + 1 := ⟨k - 1, by omega⟩
    have h' : f ≤ g := by omega
    refine (sightS_mono E h' i).bind fun x => ?_
    cases x with
    | bool b => exact refl _
    | obj items => exact (lookS_mono E h' _).bind fun d => interpS_le (fun a v c => ih (by omega) h' a v c) (progAll_fuel E.w h' v ctx d)
    | _ => exact lookS_mono E h' _

theorem validateO_of (k g : Nat) (i : Nat) (v : Val) (ctx : Ctx) : M.Ext (validateOk E voc k g i v ctx) (validateO E voc (k + g) i v ctx) := by
  induction k generalizing i v ctx with
  | zero => exact timeout _
  | succ k ih =>
    rw [show k + 1 + g = (k + g) + 1 by omega]
    have h' : g ≤ k + g := by omega
    refine (sightS_mono E h' i).bind fun x => ?_
    cases x with
    | bool b => exact refl _
    | obj items => exact (lookS_mono E h' _).bind fun d => interpS_le (fun a v c => ih a v c) (progAll_fuel E.w h' v ctx d)
    | _ => exact lookS_mono E h' _

theorem validateN_to (w : World) (docs : List Doc) {f k g : Nat} (hk : f ≤ k) (hg : f ≤ g) (n : Node) (v : Val) (ctx : Ctx) :
    validateN w docs voc f n v ctx ⊑ validateNk w docs voc k g n v ctx := by
  induction f generalizing k n v ctx with
  | zero => exact fun h => absurd rfl h
  | succ f ih =>
    obtain ⟨k, rfl⟩ : ∃ j, k = j + 1 := ⟨k - 1, by omega⟩
    have h' : f ≤ g := by omega
    rw [validateN_look, validateNk]
    refine (view_mono docs h' n).bind fun x => ?_
    cases x.sight with
    | bool b => exact .refl _
    | obj items => exact (lookT_le (view_mono docs h') _).bind fun d => Prog.Le.interp (fun a v c => ih (by omega) h' a v c) (progAll_fuel w h' v ctx d)
    | _ => exact lookT_le (view_mono docs h') _

theorem validateN_of (w : World) (docs : List Doc) (k g : Nat) (n : Node) (v : Val) (ctx : Ctx) :
    validateNk w docs voc k g n v ctx ⊑ validateN w docs voc (k + g) n v ctx := by
  induction k generalizing n v ctx with
  | zero => exact fun h => absurd rfl h
  | succ k ih =>
    rw [show k + 1 + g = (k + g) + 1 by omega]
    have h' : g ≤ k + g := by omega
    rw [validateN_look, validateNk]
    refine (view_mono docs h' n).bind fun x => ?_
    cases x.sight with
    | bool b => exact .refl _
    | obj items => exact (lookT_le (view_mono docs h') _).bind fun d => Prog.Le.interp (fun a v c => ih a v c) (progAll_fuel w h' v ctx d)
    | _ => exact lookT_le (view_mono docs h') _

theorem validateOk_mono (k : Nat) {g h : Nat} (hle : g ≤ h) (i : Nat) (v : Val) (ctx : Ctx) : M.Ext (validateOk E voc k g i v ctx) (validateOk E voc k h i v ctx) := by
  induction k generalizing i v ctx with
  | zero => exact timeout _
  | succ k ih =>
    refine (sightS_mono E hle i).bind fun x => ?_
    cases x with
    | bool b => exact refl _
    | obj items => exact (lookS_mono E hle _).bind fun d => interpS_le (fun a v c => ih a v c) (progAll_fuel E.w hle v ctx d)
    | _ => exact lookS_mono E hle _

theorem validateNk_mono (w : World) (docs : List Doc) (k : Nat) {g h : Nat} (hle : g ≤ h) (n : Node) (v : Val) (ctx : Ctx) :
    validateNk w docs voc k g n v ctx ⊑ validateNk w docs voc k h n v ctx := by
  induction k generalizing n v ctx with
  | zero => exact fun h => absurd rfl h
  | succ k ih =>
    refine (view_mono docs hle n).bind fun x => ?_
    cases x.sight with
    | bool b => exact .refl _
    | obj items => exact (lookT_le (view_mono docs hle) _).bind fun d => Prog.Le.interp (fun a v c => ih a v c) (progAll_fuel w hle v ctx d)
    | _ => exact lookT_le (view_mono docs hle) _
end

section
variable {E : Env} {s : St} {docs : List Doc} (hm : Mirrors s docs)
include hm

theorem validateOk_sim (voc : List Kw) (k : Nat) {n : Node} {i : Nat} (hs : Shows s.mem n i) (v : Val) (ctx : Ctx) :
    Sim s (fun _ _ => True) (fun g => validateOk E voc k g i v ctx) fun f => validateNk E.w docs voc k f n v ctx := by
  induction k generalizing n i v ctx with
  | zero => exact Sim.const (y := .timeout) rfl trivial
  | succ k ih =>
    have up : ∀ {g h : Nat}, g ≤ h → M.Ext (validateOk E voc (k + 1) g i v ctx) (validateOk E voc (k + 1) h i v ctx) := fun hle => validateOk_mono E voc _ hle _ _ _
    refine Sim.bind (sight_sim hm hs) (fun {g h} hle x => ?_) (fun {g h} hle x => ?_) fun b a hba _ => ?_
    · cases x with
      | bool b => exact .refl _
      | obj items => exact (lookS_mono E hle _).bind fun d => interpS_le (fun a v c => validateOk_mono E voc k hle a v c) (progAll_fuel E.w hle v ctx d)
      | _ => exact lookS_mono E hle _
    · cases x.sight with
      | bool b => exact .refl _
      | obj items => exact (lookT_le (view_mono docs hle) _).bind fun d => Prog.Le.interp (fun a v c => validateNk_mono voc E.w docs k hle a v c) (progAll_fuel E.w hle v ctx d)
      | _ => exact lookT_le (view_mono docs hle) _
    · obtain ⟨-, y, e, rfl⟩ := hba
      simp only [e]
      have other : Sim s (fun _ _ => True) (fun g => lookS E g (loadOtherL (y.map Pair.obj) voc)) fun f => lookT (view docs f) (loadOtherL (y.map Pair.node) voc) :=
        (look_sim hm _ _ _ (loadOtherL_like y voc) (loadOtherL_like y voc)).weaken fun _ _ _ => trivial
      cases y with
      | bool b =>
        cases b
        · exact Sim.const (y := .err _) rfl rfl
        · exact Sim.const (y := .ok ()) rfl trivial
      | obj items =>
        refine Sim.bind (look_sim hm _ _ _ (loadAllL_like items E.w voc []) (loadAllL_like items E.w voc []))
          (fun hle d => interpS_le (fun a v c => validateOk_mono E voc k hle a v c) (progAll_fuel E.w hle v ctx d))
          (fun hle d => Prog.Le.interp (fun a v c => validateNk_mono voc E.w docs k hle a v c) (progAll_fuel E.w hle v ctx d)) fun b a hba _ => ?_
        obtain ⟨d, rfl, rfl⟩ := hba
        simp only [progAll_map, interpS_map, interp_map]
        exact (interp_sim_fuel (rec := fun g (a : Pair s) => validateOk E voc k g a.obj) (recT := fun f (a : Pair s) => validateNk E.w docs voc k f a.node)
          (fun a v c => ih a.2 v c) (fun f => progAll E.w f v ctx d) fun hle => progAll_fuel E.w hle v ctx d).weaken fun _ _ _ => trivial
      | null => exact other
      | num m => exact other
      | str t => exact other
      | arr xs => exact other

/-- The validator of an object and that of the tree it makes up. -/
theorem validateO_sim (voc : List Kw) {n : Node} {i : Nat} (hs : Shows s.mem n i) (v : Val) (ctx : Ctx) :
    Sim s (fun _ _ => True) (fun g => validateO E voc g i v ctx) fun f => validateN E.w docs voc f n v ctx := by
  refine ⟨fun hle => validateO_mono E hle voc i v ctx, fun hle => validateN_mono E.w docs voc hle n v ctx, fun f hf => ?_, fun g hg => ?_⟩
  · have e := validateN_to voc E.w docs (Nat.le_refl f) (Nat.le_refl f) n v ctx hf
    obtain ⟨g0, hh⟩ := (validateOk_sim hm voc f hs v ctx).to f (by rw [e]; exact hf)
    refine ⟨f + g0, fun g hg => ?_⟩
    obtain ⟨g, rfl⟩ : ∃ k, g = f + k := ⟨g - f, by omega⟩
    obtain ⟨y, e1, ha⟩ := hh g (by omega)
    rw [e] at ha
    exact ⟨y, (validateO_of E voc f g i v ctx s (by rw [e1]; exact ha.right_ne hf)).trans e1, ha⟩
  · have e := validateO_to E voc (Nat.le_refl g) (Nat.le_refl g) i v ctx s hg
    obtain ⟨f, hf⟩ := (validateOk_sim hm voc g hs v ctx).back g (by rw [e]; exact hg)
    refine ⟨g + f, ?_⟩
    have := validateN_of voc E.w docs g f n v ctx hf
    change validateN _ _ _ _ _ _ _ ≠ _
    rw [this]
    exact hf

/-- `validate` of a schema whose objects make up the document. -/
theorem validateS_sim {d : Nat} {x : Schema} {D : Doc} (hx : s.docs[d]? = some x) (hD : docs[d]? = some D) (v : Val) :
    Sim s (fun _ _ => True) (fun g => validateS E g d v) fun f => schemaValidate E.w docs x.vocabulary f D.root v := by
  obtain ⟨hr, hroot, -⟩ := hm.doc d x D hx hD
  have hmono : ∀ {f h : Nat}, f ≤ h → ∀ y : Node, (match y with | .obj _ => validateN E.w docs x.vocabulary f D.root v [] | _ => .ok ()) ⊑
      (match y with | .obj _ => validateN E.w docs x.vocabulary h D.root v [] | _ => .ok ()) := by
    intro f h hle y
    cases y with
    | obj _ => exact validateN_mono E.w docs _ hle _ _ _
    | _ => exact .refl _
  have h1 : Sim s (fun (_ : Unit) (_ : Unit) => True) (fun g => (ops E g).load d) fun _ => .ok () := by
    refine ⟨fun hle => (ops_mono E hle).load d, fun _ => .refl _, fun _ _ => ⟨1, fun g hg => ⟨.ok (), ?_, trivial⟩⟩, fun _ _ => ⟨0, by simp⟩⟩
    obtain ⟨g, rfl⟩ : ∃ k, g = k + 1 := ⟨g - 1, by omega⟩
    have hsch : schema d s = (.ok x, s) := by simp [schema, hx]
    refine (M.bind_ok hsch).trans ?_
    simp only [hr, if_true]
    rfl
  have h2 : Sim s (fun (_ : Unit) (y : Schema) => y = x) (fun _ => schema d) fun _ => .ok () := Sim.const (y := .ok x) (by simp [schema, hx]) rfl
  have h3 : Sim s (fun (n : Node) (k : Kind) => k = n.kind) (fun g => (ops E g).kind x.value) fun f => view docs f D.root := by
    refine ⟨fun hle => (ops_mono E hle).kind _, fun hle => view_mono docs hle _, fun f hf => ?_, fun g hg => ?_⟩
    · obtain ⟨g0, hr⟩ := reads hm f _ _ hf hroot
      exact ⟨g0, fun g hg => ⟨_, (ropsOf_eq E hm.all_ready g).kind _, hr.kind g hg⟩⟩
    · refine (ends hm g).1 _ _ hroot fun e => hg ?_
      change ((ops E g).kind x.value s).1 = _
      rw [(ropsOf_eq E hm.all_ready g).kind x.value, e]
  have up3 : ∀ {g h : Nat}, g ≤ h → ∀ (y : Schema) (k : Kind), M.Ext (match k with | .object => validateO E y.vocabulary g y.value v [] | _ => pure ())
      (match k with | .object => validateO E y.vocabulary h y.value v [] | _ => pure ()) := by
    intro g h hle y k
    cases k with
    | object => exact validateO_mono E hle _ _ _ _
    | _ => exact .refl _
  refine Sim.bind (T := fun _ => .ok ()) (H := fun f _ => schemaValidate E.w docs x.vocabulary f D.root v) h1
    (fun hle _ => (M.Ext.refl _).bind fun y => ((ops_mono E hle).kind _).bind fun k => up3 hle y k) (fun hle _ => (view_mono docs hle _).bind fun y => hmono hle y) fun _ _ _ _ => ?_
  refine Sim.bind (T := fun _ => .ok ()) (H := fun f _ => schemaValidate E.w docs x.vocabulary f D.root v) h2
    (fun hle y => ((ops_mono E hle).kind _).bind fun k => up3 hle y k) (fun hle _ => (view_mono docs hle _).bind fun y => hmono hle y) fun _ y hy _ => ?_
  subst hy
  refine Sim.bind h3 (fun hle k => up3 hle y k) (fun hle b => hmono hle b) fun b k hk ⟨f, hf⟩ => ?_
  subst hk
  cases b with
  | obj kvs => exact validateO_sim hm _ hroot v []
  | ref own d p => exact absurd rfl (view_not_ref hf own d p)
  | null => exact Sim.const (y := .ok ()) rfl trivial
  | bool b => exact Sim.const (y := .ok ()) rfl trivial
  | num n => exact Sim.const (y := .ok ()) rfl trivial
  | str t => exact Sim.const (y := .ok ()) rfl trivial
  | arr xs => exact Sim.const (y := .ok ()) rfl trivial
end

end Verif.Obj
