import Verif.Proofs.Remembering
import Verif.Proofs.ValidatingNeed
/-! # Validators that remember, with schemas loaded on demand -/

set_option linter.unusedSimpArgs false

namespace Verif.Obj
open Verif Verif.Spec

def Want.attempt {α : Type} : Want α → Want (Res α)
  | .need d => .need d
  | .got .timeout => .got .timeout
  | .got r => .got (.ok r)

def visitW (s : St) (f : Nat) {ρ : Type} : Visit Nat ρ → Want ρ
  | .done a => pure a
  | .stop => .got .timeout
  | .sight n k => (sightW s f n).attempt >>= fun x => visitW s f (k x)
  | .tree n k => (nodeW s f n).attempt >>= fun x => visitW s f (k x)

theorem attempt_of {α : Type} {x : M α} {s s' : St} {r : Res α} (h : x s = (r, s')) (hr : r ≠ .timeout) : attempt x s = (.ok r, s') := by
  unfold attempt
  rw [h]
  cases r with
  | timeout => exact absurd rfl hr
  | _ => rfl

theorem attempt_timeout {α : Type} {x : M α} {s s' : St} (h : x s = (.timeout, s')) : attempt x s = (.timeout, s') := by
  unfold attempt
  rw [h]

theorem attempt_mono {α : Type} {x y : M α} (h : M.Ext x y) : M.Ext (attempt x) (attempt y) := by
  intro s hs
  rcases e : x s with ⟨r, s'⟩
  have hr : r ≠ .timeout := fun er => hs (by subst er; rw [attempt_timeout e])
  rw [attempt_of e hr, attempt_of ((h s (by rw [e]; exact hr)).trans e) hr]

theorem visitS_mono (E : Env) {f g : Nat} (hle : f ≤ g) {ρ : Type} {p q : Visit Nat ρ} (hp : VLe p q) : M.Ext (visitS E f p) (visitS E g q) := by
  induction p generalizing q with
  | done a => rw [VLe] at hp; subst hp; exact .refl _
  | stop => exact .timeout _
  | sight n k ih => obtain ⟨k', rfl, hk⟩ := hp; exact (attempt_mono (sightS_mono E hle n)).bind fun x => ih _ (hk _)
  | tree n k ih => obtain ⟨k', rfl, hk⟩ := hp; exact (attempt_mono ((ops_mono E hle).node n)).bind fun x => ih _ (hk _)

section
variable {α β ρ σ : Type} {E : Env} {s : St} {f : Nat}

theorem Does.attempt {X : Nat → M α} {P : α → Prop} {w : Want α} (h : Does E s f X P w) :
    Does E s f (fun h => Obj.attempt (X h)) (fun r => r ≠ .timeout ∧ ∀ a, r = .ok a → P a) w.attempt := by
  match w, h with
  | .need d, h =>
    refine ⟨h.1, fun s' hs' => ?_⟩
    obtain ⟨h0, hh⟩ := h.2 s' hs'
    refine ⟨h0, fun k hk => ?_⟩
    change Obj.attempt (X k) s = Obj.attempt (X k) s'
    unfold Obj.attempt
    rw [hh k hk]
  | .got .timeout, h => exact ⟨fun t ht => attempt_timeout (h.1 t ht), fun e => absurd rfl e, fun a e => by cases e⟩
  | .got (.ok a), h =>
    refine ⟨fun t ht => attempt_of (h.1 t ht) (by simp), fun _ t ht k hk => attempt_of (h.2.1 (by simp) t ht k hk) (by simp), fun r e => ?_⟩
    cases e
    exact ⟨by simp, h.2.2⟩
  | .got (.err x), h =>
    refine ⟨fun t ht => attempt_of (h.1 t ht) (by simp), fun _ t ht k hk => attempt_of (h.2.1 (by simp) t ht k hk) (by simp), fun r e => ?_⟩
    cases e
    exact ⟨by simp, h.2.2⟩

theorem Does.congr {X Y : Nat → M α} {P : α → Prop} {w : Want α} (h : Does E s f X P w) (e : ∀ h, f ≤ h → Y h = X h) : Does E s f Y P w := by
  match w, h with
  | .need d, h =>
    refine ⟨h.1, fun s' hs' => ?_⟩
    obtain ⟨h0, hh⟩ := h.2 s' hs'
    exact ⟨max f h0, fun k hk => by rw [e k (by omega)]; exact hh k (by omega)⟩
  | .got y, h => exact ⟨fun t ht => by rw [e f (Nat.le_refl f)]; exact h.1 t ht, fun hy t ht k hk => by rw [e k hk]; exact h.2.1 hy t ht k hk, h.2.2⟩

/-- A visiting program does what it reads, if it looks at what is in view. -/
theorem visit_does (hw : Whole s) {hh : ρ → σ} (p : Visit {i // InView s i} ρ) : ∀ (q : Visit Nat σ) (Q : Nat → Visit Nat σ), Q f = q → VLike Subtype.val hh p q → (∀ h, f ≤ h → VLe q (Q h)) →
    Does E s f (fun h => visitS E h (Q h)) (fun a => ∃ b, a = hh b) (visitW s f q) := by
  induction p with
  | done a =>
    intro q Q hQ hl hle
    cases q with
    | done b =>
      simp only [VLike] at hl
      subst hl
      exact Does.congr (.pure ⟨a, rfl⟩) fun h hh => by rw [hle h hh]; rfl
    | _ => exact hl.elim
  | stop =>
    intro q Q hQ hl hle
    cases q with
    | stop => exact ⟨fun t _ => by change visitS E f (Q f) t = _; rw [hQ]; rfl, fun e => absurd rfl e, fun a e => by cases e⟩
    | _ => exact hl.elim
  | sight n k ih =>
    intro q Q hQ hl hle
    cases q with
    | sight n' k' =>
      obtain ⟨rfl, hk⟩ := hl
      let K : Nat → Res (Sight Nat) → Visit Nat σ := fun h => match Q h with
        | .sight _ k => k
        | _ => fun _ => .stop
      have hK : ∀ h, f ≤ h → Q h = .sight n.1 (K h) ∧ ∀ r, VLe (k' r) (K h r) := by
        intro h hh
        obtain ⟨k'', e, hk⟩ := hle h hh
        have : K h = k'' := by simp only [K, e]
        rw [this]
        exact ⟨e, hk⟩
      have hKf : ∀ r, K f r = k' r := by
        intro r
        simp only [K, hQ]
      refine Does.congr (X := fun h => attempt (sightS E h n.1) >>= fun x => visitS E h (K h x)) ?_ fun h hh => by rw [(hK h hh).1]; rfl
      refine ((sight_does hw n.1 n.2).attempt).bind fun x hx _ => ?_
      obtain ⟨y, rfl⟩ : ∃ y : Res (Sight {i // InView s i}), x = y.fmap (Sight.map Subtype.val) := by
        cases x with
        | ok x => obtain ⟨y, rfl⟩ := lift_sight (hx.2 x rfl); exact ⟨.ok y, rfl⟩
        | err e => exact ⟨.err e, rfl⟩
        | timeout => exact absurd rfl hx.1
      exact ih y _ (fun h => K h _) (hKf _) (hk y) fun h hh => (hK h hh).2 _
    | _ => exact hl.elim
  | tree n k ih =>
    intro q Q hQ hl hle
    cases q with
    | tree n' k' =>
      obtain ⟨rfl, hk⟩ := hl
      let K : Nat → Res Node → Visit Nat σ := fun h => match Q h with
        | .tree _ k => k
        | _ => fun _ => .stop
      have hK : ∀ h, f ≤ h → Q h = .tree n.1 (K h) ∧ ∀ r, VLe (k' r) (K h r) := by
        intro h hh
        obtain ⟨k'', e, hk⟩ := hle h hh
        have : K h = k'' := by simp only [K, e]
        rw [this]
        exact ⟨e, hk⟩
      have hKf : ∀ r, K f r = k' r := by
        intro r
        simp only [K, hQ]
      refine Does.congr (X := fun h => attempt ((ops E h).node n.1) >>= fun x => visitS E h (K h x)) ?_ fun h hh => by rw [(hK h hh).1]; rfl
      refine ((node_does n.1 n.2).attempt).bind fun x hx _ => ?_
      exact ih x _ (fun h => K h _) (hKf _) (hk x) fun h hh => (hK h hh).2 _
    | _ => exact hl.elim
end

/-! ## `validate` -/

/-- What is kept are validators for objects in view. -/
def KeptIn (s : St) (m : Kept) : Prop := ∃ H : List (LazyObj {i // InView s i}), m.heap = H.map (LazyObj.map Subtype.val)

theorem KeptIn.keep {s t : St} {m : Kept} (h : KeptIn s m) (hk : Keeps s t) : KeptIn t m := by
  obtain ⟨H, e⟩ := h
  exact ⟨H.map (LazyObj.map fun i => ⟨i.1, i.2.keep hk⟩), by rw [e]; simp [LazyObj.map]⟩

def runW (s : St) (w : World) (voc : List Kw) (f a : Nat) (v : Val) (m : Kept) : Want (Res Unit × Kept) := do
  let p ← visitW s f (validateV w voc f a v [] m.heap)
  pure (p.1, { m with heap := p.2 })

def validateMW (s : St) (w : World) (f d : Nat) (v : Val) (m : Kept) : Want (Res Unit × Kept) := do
  match ← ((wopsOf s f).load d).attempt with
  | .err e => pure (.err e, m)
  | .timeout => .got .timeout
  | .ok _ => do
    let x ← readyW s d
    match m.validator with
    | some none => pure (.ok (), m)
    | some (some a) => runW s w x.vocabulary f a v m
    | none => do
      match ← ((wopsOf s f).kind x.value).attempt with
      | .err e => pure (.err e, m)
      | .timeout => .got .timeout
      | .ok .object =>
        runW s w x.vocabulary f m.heap.length v { validator := some (some m.heap.length), heap := m.heap ++ [{ node := x.value }] }
      | .ok _ => pure (.ok (), { m with validator := some none })

section
variable {E : Env} {s : St} {f : Nat} (hw : Whole s)
include hw

theorem run_does (voc : List Kw) (a : Nat) (v : Val) (m : Kept) (hm : KeptIn s m) :
    Does E s f (fun h => m.run E voc h a v) (fun p => KeptIn s p.2) (runW s E.w voc f a v m) := by
  obtain ⟨H, e⟩ := hm
  refine Does.bind (visit_does hw (validateV E.w voc f a v [] H) _ (fun h => validateV E.w voc h a v [] m.heap) rfl (by rw [e]; exact validateV_like E.w voc f a v [] H)
    fun h hh => validateV_le E.w voc hh a v [] m.heap) fun p hp _ => .pure ?_
  obtain ⟨q, rfl⟩ := hp
  exact ⟨q.2, rfl⟩

theorem validateM_does (d : Nat) (hd : d < s.docs.length) (v : Val) (m : Kept) (hm : KeptIn s m) :
    Does E s f (fun h => validateM E h d v m) (fun p => KeptIn s p.2) (validateMW s E.w f d v m) := by
  have ha := does_all (E := E) hw f
  refine ((ha.load d hd).attempt).bind fun r hr _ => ?_
  cases r with
  | err e => exact .pure hm
  | timeout => exact absurd rfl hr.1
  | ok u =>
    obtain ⟨x, hx, hr⟩ := hr.2 _ rfl
    refine (schema_does hx hr).bind fun y hy _ => ?_
    subst hy
    have hv : InView s y.value := .value hx hr
    cases hval : m.validator with
    | some o =>
      cases o with
      | none => exact .pure hm
      | some a => exact run_does hw _ _ _ _ hm
    | none =>
      refine ((ha.kind _ hv).attempt).bind fun k hk _ => ?_
      cases k with
      | err e => exact .pure hm
      | timeout => exact absurd rfl hk.1
      | ok k =>
        cases k with
        | object =>
          refine run_does hw _ _ _ _ ?_
          obtain ⟨H, e⟩ := hm
          exact ⟨H ++ [{ node := ⟨_, hv⟩ }], by simp [e, LazyObj.map]⟩
        | _ => exact .pure hm
end

theorem validateM_mono (E : Env) {f g : Nat} (hle : f ≤ g) (d : Nat) (v : Val) (m : Kept) : M.Ext (validateM E f d v m) (validateM E g d v m) := by
  have run : ∀ voc a m, M.Ext (Kept.run E voc f a v m) (Kept.run E voc g a v m) := fun voc a m =>
    (visitS_mono E hle (validateV_le E.w voc hle a v [] m.heap)).bind fun _ => .refl _
  refine (attempt_mono ((ops_mono E hle).load d)).bind fun r => ?_
  cases r with
  | err e => exact .refl _
  | timeout => exact .refl _
  | ok u =>
    refine (M.Ext.refl _).bind fun x => ?_
    cases m.validator with
    | some o =>
      cases o with
      | none => exact .refl _
      | some a => exact run _ _ _
    | none =>
      refine (attempt_mono ((ops_mono E hle).kind _)).bind fun k => ?_
      cases k with
      | err e => exact .refl _
      | timeout => exact .refl _
      | ok k =>
        cases k with
        | object => exact run _ _ _
        | _ => exact .refl _

end Verif.Obj
