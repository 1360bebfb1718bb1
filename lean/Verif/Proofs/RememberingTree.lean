import Verif.Proofs.RememberingNeed
import Verif.Proofs.ValidatingTree
/-! # Validators that remember, on the objects and with the trees they make up -/

set_option linter.unusedSimpArgs false

namespace Verif

theorem interpH_le {β : Type} {rec rec' : Nat → Val → Ctx → Heap → Res Unit × Heap} (hrec : ∀ a v c h, packed (rec a v c h) ⊑ packed (rec' a v c h)) {p q : Prog Nat β} (hp : p.Le q)
    (h : Heap) : packed (interpH rec p h) ⊑ packed (interpH rec' q h) := by
  induction p generalizing q h with
  | done r =>
    cases r with
    | timeout => exact fun h => absurd rfl h
    | _ => rw [hp.of_done (by simp)]; exact .refl _
  | call a v c k ih =>
    obtain ⟨k', rfl, hk⟩ := hp
    rw [interpH_packed, interpH_packed]
    exact (hrec a v c h).bind fun x => ih _ (hk _) _

theorem validateH_mono (w : World) (docs : List Doc) (voc : List Kw) {f g : Nat} (hle : f ≤ g) (a : Nat) (v : Val) (ctx : Ctx) (h : Heap) :
    packed (validateH w docs voc f a v ctx h) ⊑ packed (validateH w docs voc g a v ctx h) := by
  induction f generalizing g a v ctx h with
  | zero => exact fun h => absurd rfl h
  | succ f ih =>
    obtain ⟨g, rfl⟩ : ∃ j, g = j + 1 := ⟨g - 1, by omega⟩
    have h' : f ≤ g := by omega
    have hrun : ∀ (c : Cell) (h : Heap), packed (runCell (validateH w docs voc f) w f c v ctx h) ⊑ packed (runCell (validateH w docs voc g) w g c v ctx h) := by
      intro c h
      unfold runCell
      split
      · exact .refl _
      · exact interpH_le (fun a v c h => ih h' a v c h) (progAll_fuel w h' v ctx c.data) h
    cases hc : h[a]? with
    | none => rw [validateH, hc, validateH, hc]; exact .refl _
    | some c =>
      cases hl : c.loaded with
      | true =>
        rw [validateH, hc, validateH, hc]
        simp only [hl, if_true]
        exact hrun c h
      | false =>
        rw [validateH_packed w docs voc f a v ctx h c hc hl, validateH_packed w docs voc g a v ctx h c hc hl, ← loadObj_tree, ← loadObj_tree]
        refine (visitT_le (view_mono docs h') (.refl _)).bind fun p => ?_
        cases p.1 with
        | ok u => exact hrun _ _
        | err e => exact .refl _
        | timeout => exact .refl _

/-- `JsonSchema.validate` of a schema that keeps validators, step by step. -/
theorem memo_packed (w : World) (docs : List Doc) (voc : List Kw) (f : Nat) (root : Node) (v : Val) (m : Memo) :
    packed (m.validate w docs voc f root v) = match m.validator with
      | some none => .ok (.ok (), m)
      | some (some a) => packed (validateH w docs voc f a v [] m.heap) >>= fun p => .ok (p.1, { m with heap := p.2 })
      | none => (view docs f root).attempt >>= fun
        | .err e => .ok (.err e, m)
        | .timeout => .timeout
        | .ok (.obj _) => packed (validateH w docs voc f m.heap.length v [] (m.heap ++ [{ node := root }])) >>= fun p =>
          .ok (p.1, { validator := some (some m.heap.length), heap := p.2 })
        | .ok _ => .ok (.ok (), { m with validator := some none }) := by
  have run : ∀ (m : Memo) a, packed ((validateH w docs voc f a v [] m.heap).1, { m with heap := (validateH w docs voc f a v [] m.heap).2 }) =
      packed (validateH w docs voc f a v [] m.heap) >>= fun p => .ok (p.1, { m with heap := p.2 }) := by
    intro m a
    rcases validateH w docs voc f a v [] m.heap with ⟨r, h⟩
    cases r <;> rfl
  unfold Memo.validate Memo.get
  obtain ⟨val, heap⟩ := m
  rcases val with _ | _ | a
  · simp only
    cases view docs f root with
    | err e => rfl
    | timeout => rfl
    | ok x =>
      cases x with
      | obj items => exact run _ _
      | _ => rfl
  · rfl
  · exact run ⟨_, heap⟩ a

namespace Obj
open Verif.Spec

theorem Sim.attempt {α β : Type} {s : St} {R : β → α → Prop} {X : Nat → M α} {T : Nat → Res β} (h : Sim s R X T) :
    Sim s (Alike R) (fun g => Obj.attempt (X g)) fun f => (T f).attempt := by
  refine ⟨fun hle => attempt_mono (h.up hle), fun hle => (h.upT hle).attempt, fun f hf => ?_, fun g hg => ?_⟩
  · have h1 : T f ≠ .timeout := fun e => hf (by change (T f).attempt = _; rw [e]; rfl)
    obtain ⟨g0, hh⟩ := h.to f h1
    refine ⟨g0, fun g hg => ?_⟩
    obtain ⟨y, e, ha⟩ := hh g hg
    refine ⟨.ok y, attempt_of e (ha.right_ne h1), ?_⟩
    have : (T f).attempt = .ok (T f) := by
      cases e : T f with
      | timeout => exact absurd e h1
      | _ => rfl
    rw [this]
    exact ha
  · obtain ⟨f, hf⟩ := h.back g fun e => hg (by
      rcases e' : X g s with ⟨r, s'⟩
      rw [e'] at e
      simp only at e
      subst e
      change (Obj.attempt (X g) s).1 = _
      rw [attempt_timeout e'])
    refine ⟨f, ?_⟩
    change (T f).attempt ≠ _
    cases e : T f with
    | timeout => exact absurd e hf
    | _ => simp [Res.attempt]

/-- The validators that are kept are those the trees would keep. -/
def KeptLike (s : St) (tm : Memo) (m : Kept) : Prop :=
  m.validator = tm.validator ∧ ∃ H : List (LazyObj (Pair s)), m.heap = H.map (LazyObj.map Pair.obj) ∧ tm.heap = H.map (LazyObj.map Pair.node)

section
variable {E : Env} {s : St} {docs : List Doc} (hm : Mirrors s docs)
include hm

theorem visit_sim {ρ σ τ : Type} {h : ρ → σ} {h' : ρ → τ} (p : Visit (Pair s) ρ) : ∀ (q : Visit Nat σ) (q' : Visit Node τ), VLike Pair.obj h p q → VLike Pair.node h' p q' →
    Sim s (fun b a => ∃ c, b = h' c ∧ a = h c) (fun g => visitS E g q) fun f => visitT (view docs f) q' := by
  induction p with
  | done r =>
    intro q q' hq hq'
    cases q with
    | done a =>
      cases q' with
      | done b =>
        simp only [VLike] at hq hq'
        subst hq hq'
        exact Sim.const (y := .ok (h r)) rfl ⟨r, rfl, rfl⟩
      | _ => exact hq'.elim
    | _ => exact hq.elim
  | stop =>
    intro q q' hq hq'
    cases q with
    | stop =>
      cases q' with
      | stop => exact Sim.const (y := .timeout) rfl trivial
      | _ => exact hq'.elim
    | _ => exact hq.elim
  | sight n k ih =>
    intro q q' hq hq'
    cases q with
    | sight a ka =>
      cases q' with
      | sight b kb =>
        obtain ⟨rfl, hk⟩ := hq
        obtain ⟨rfl, hk'⟩ := hq'
        refine Sim.bind (sight_sim hm n.2).attempt (fun hle x => visitS_mono E hle (.refl _)) (fun hle x => visitT_le (view_mono docs hle) (.refl _)) fun b a hba _ => ?_
        match b, a, hba with
        | .ok b, .ok a, hba =>
          obtain ⟨-, y, e, rfl⟩ := hba
          simp only [Res.fmap_ok]
          rw [e]
          exact ih (.ok y) _ _ (hk (.ok y)) (hk' (.ok y))
        | .err e, .err e', hba =>
          cases (show e = e' from hba)
          exact ih (.err e) _ _ (hk (.err e)) (hk' (.err e))
        | .timeout, .timeout, _ => exact ih .timeout _ _ (hk .timeout) (hk' .timeout)
      | _ => exact hq'.elim
    | _ => exact hq.elim
  | tree n k ih =>
    intro q q' hq hq'
    cases q with
    | tree a ka =>
      cases q' with
      | tree b kb =>
        obtain ⟨rfl, hk⟩ := hq
        obtain ⟨rfl, hk'⟩ := hq'
        have hn : Sim s (fun b a => b = n.node ∧ a = n.node) (fun g => (ops E g).node n.obj) fun _ => .ok n.node := by
          obtain ⟨g0, hh⟩ := node_shows (E := E) n.node n.obj n.2
          exact ⟨fun hle => (ops_mono E hle).node _, fun _ => .refl _, fun f _ => ⟨g0, fun g hg => ⟨.ok n.node, hh g hg, rfl, rfl⟩⟩, fun _ _ => ⟨0, by simp⟩⟩
        refine Sim.bind (T := fun _ => .ok (.ok n.node)) (G := fun g x => visitS E g (ka x)) (H := fun f x => visitT (view docs f) (kb x)) hn.attempt (fun hle x => visitS_mono E hle (.refl _))
          (fun hle x => visitT_le (view_mono docs hle) (.refl _)) fun b a hba ⟨_, hb⟩ => ?_
        cases hb
        match a, hba with
        | .ok a, hba =>
          obtain ⟨-, rfl⟩ := hba
          exact ih _ _ _ (hk _) (hk' _)
      | _ => exact hq'.elim
    | _ => exact hq.elim

/-- Validators of the objects, and those of the trees they make up, both with a heap. -/
theorem validateV_sim (voc : List Kw) (a : Nat) (v : Val) (ctx : Ctx) (H : List (LazyObj (Pair s))) :
    Sim s (fun b a => b.1 = a.1 ∧ ∃ H : List (LazyObj (Pair s)), a.2 = H.map (LazyObj.map Pair.obj) ∧ b.2 = H.map (LazyObj.map Pair.node))
      (fun g => visitS E g (validateV E.w voc g a v ctx (H.map (LazyObj.map Pair.obj)))) fun f => packed (validateH E.w docs voc f a v ctx (H.map (LazyObj.map Pair.node))) := by
  have key : ∀ k, Sim s (fun b a => b.1 = a.1 ∧ ∃ H : List (LazyObj (Pair s)), a.2 = H.map (LazyObj.map Pair.obj) ∧ b.2 = H.map (LazyObj.map Pair.node))
      (fun g => visitS E g (validateV E.w voc k a v ctx (H.map (LazyObj.map Pair.obj)))) fun f => visitT (view docs f) (validateV E.w voc k a v ctx (H.map (LazyObj.map Pair.node))) := fun k =>
    (visit_sim hm (validateV E.w voc k a v ctx H) _ _ (validateV_like E.w voc k a v ctx H) (validateV_like E.w voc k a v ctx H)).weaken fun b a hba => by
      obtain ⟨c, rfl, rfl⟩ := hba
      exact ⟨rfl, c.2, rfl, rfl⟩
  refine ⟨fun hle => visitS_mono E hle (validateV_le E.w voc hle _ _ _ _), fun hle => validateH_mono E.w docs voc hle _ _ _ _, fun f hf => ?_, fun g hg => ?_⟩
  · have e := validateV_to E.w docs voc (Nat.le_refl f) (Nat.le_refl f) a v ctx (H.map (LazyObj.map Pair.node)) hf
    obtain ⟨g0, hh⟩ := (key f).to f (by rw [e]; exact hf)
    refine ⟨max f g0, fun g hg => ?_⟩
    obtain ⟨y, e1, ha⟩ := hh g (by omega)
    rw [e] at ha
    exact ⟨y, (visitS_mono E (Nat.le_refl g) (validateV_le E.w voc (by omega : f ≤ g) a v ctx _) s (by rw [e1]; exact ha.right_ne hf)).trans e1, ha⟩
  · obtain ⟨f, hf⟩ := (key g).back g hg
    refine ⟨g + f, ?_⟩
    change packed _ ≠ _
    rw [validateV_of E.w docs voc g f a v ctx _ hf]
    exact hf

/-- `validate` of a schema whose objects make up the document, with the validators it keeps. -/
theorem validateM_sim {d : Nat} {x : Schema} {D : Doc} (hx : s.docs[d]? = some x) (hD : docs[d]? = some D) (v : Val) {m : Kept} {tm : Memo} (hk : KeptLike s tm m) :
    Sim s (fun b a => b.1 = a.1 ∧ KeptLike s b.2 a.2) (fun g => validateM E g d v m) fun f => packed (tm.validate E.w docs x.vocabulary f D.root v) := by
  obtain ⟨hr, hroot, -⟩ := hm.doc d x D hx hD
  obtain ⟨hval, H, e1, e2⟩ := hk
  have h1 : Sim s (fun (_ : Unit) (_ : Unit) => True) (fun g => (ops E g).load d) fun _ => .ok () := by
    refine ⟨fun hle => (ops_mono E hle).load d, fun _ => .refl _, fun _ _ => ⟨1, fun g hg => ⟨.ok (), ?_, trivial⟩⟩, fun _ _ => ⟨0, by simp⟩⟩
    obtain ⟨g, rfl⟩ : ∃ k, g = k + 1 := ⟨g - 1, by omega⟩
    have hsch : schema d s = (.ok x, s) := by simp [schema, hx]
    refine (M.bind_ok hsch).trans ?_
    simp only [hr, if_true]
    rfl
  have h3 : Sim s (fun (n : Node) (k : Kind) => k = n.kind) (fun g => (ops E g).kind x.value) fun f => view docs f D.root := by
    refine ⟨fun hle => (ops_mono E hle).kind _, fun hle => view_mono docs hle _, fun f hf => ?_, fun g hg => ?_⟩
    · obtain ⟨g0, hr⟩ := reads hm f _ _ hf hroot
      exact ⟨g0, fun g hg => ⟨_, (ropsOf_eq E hm.all_ready g).kind _, hr.kind g hg⟩⟩
    · refine (ends hm g).1 _ _ hroot fun e => hg ?_
      change ((ops E g).kind x.value s).1 = _
      rw [(ropsOf_eq E hm.all_ready g).kind x.value, e]
  have run : ∀ (m : Kept) (tm : Memo) (a : Nat), KeptLike s tm m → Sim s (fun b a => b.1 = a.1 ∧ KeptLike s b.2 a.2) (fun g => m.run E x.vocabulary g a v)
      fun f => packed (validateH E.w docs x.vocabulary f a v [] tm.heap) >>= fun p => .ok (p.1, ({ tm with heap := p.2 } : Memo)) := by
    intro m tm a ⟨hv, H, e1, e2⟩
    have := validateV_sim hm (E := E) x.vocabulary a v [] H
    rw [← e1, ← e2] at this
    refine Sim.bind (G := fun _ p => pure (p.1, { m with heap := p.2 })) (H := fun _ p => .ok (p.1, ({ tm with heap := p.2 } : Memo))) this (fun _ _ => .refl _) (fun _ _ => .refl _) fun b c hbc _ => ?_
    obtain ⟨h1, H', h2, h3⟩ := hbc
    exact Sim.const (y := .ok (c.1, { m with heap := c.2 })) rfl ⟨h1, hv, H', h2, h3⟩
  -- the tree side ends with what was shown about it step by step
  have hT : ∀ {f h : Nat}, f ≤ h → packed (tm.validate E.w docs x.vocabulary f D.root v) ⊑ packed (tm.validate E.w docs x.vocabulary h D.root v) := by
    intro f h hle
    rw [memo_packed, memo_packed]
    rcases tm.validator with _ | _ | a
    · refine ((view_mono docs hle _).attempt).bind fun r => ?_
      cases r with
      | err e => exact .refl _
      | timeout => exact .refl _
      | ok y =>
        cases y with
        | obj items => exact (validateH_mono E.w docs _ hle _ _ _ _).bind fun _ => .refl _
        | _ => exact .refl _
    · exact .refl _
    · exact (validateH_mono E.w docs _ hle _ _ _ _).bind fun _ => .refl _
  have runUp : ∀ {f g : Nat}, f ≤ g → ∀ voc a (m : Kept), M.Ext (Kept.run E voc f a v m) (Kept.run E voc g a v m) := fun hle voc a m =>
    (visitS_mono E hle (validateV_le E.w voc hle a v [] m.heap)).bind fun _ => .refl _
  have kindUp : ∀ {f g : Nat}, f ≤ g → ∀ (y : Schema) (r : Res Kind), M.Ext (match r with
      | .err e => pure (.err e, m)
      | .timeout => lift .timeout
      | .ok .object => Kept.run E y.vocabulary f m.heap.length v { validator := some (some m.heap.length), heap := m.heap ++ [{ node := y.value }] }
      | .ok _ => pure (.ok (), { m with validator := some none }) : M (Res Unit × Kept)) (match r with
      | .err e => pure (.err e, m)
      | .timeout => lift .timeout
      | .ok .object => Kept.run E y.vocabulary g m.heap.length v { validator := some (some m.heap.length), heap := m.heap ++ [{ node := y.value }] }
      | .ok _ => pure (.ok (), { m with validator := some none }) : M (Res Unit × Kept)) := by
    intro f g hle y r
    cases r with
    | err e => exact .refl _
    | timeout => exact .refl _
    | ok k =>
      cases k with
      | object => exact runUp hle _ _ _
      | _ => exact .refl _
  have schemaUp : ∀ {f g : Nat}, f ≤ g → ∀ y : Schema, M.Ext (match m.validator with
      | some none => pure (.ok (), m)
      | some (some a) => m.run E y.vocabulary f a v
      | none => attempt ((ops E f).kind y.value) >>= fun r => match r with
        | .err e => pure (.err e, m)
        | .timeout => lift .timeout
        | .ok .object => Kept.run E y.vocabulary f m.heap.length v { validator := some (some m.heap.length), heap := m.heap ++ [{ node := y.value }] }
        | .ok _ => pure (.ok (), { m with validator := some none }) : M (Res Unit × Kept)) (match m.validator with
      | some none => pure (.ok (), m)
      | some (some a) => m.run E y.vocabulary g a v
      | none => attempt ((ops E g).kind y.value) >>= fun r => match r with
        | .err e => pure (.err e, m)
        | .timeout => lift .timeout
        | .ok .object => Kept.run E y.vocabulary g m.heap.length v { validator := some (some m.heap.length), heap := m.heap ++ [{ node := y.value }] }
        | .ok _ => pure (.ok (), { m with validator := some none }) : M (Res Unit × Kept)) := by
    intro f g hle y
    rcases m.validator with _ | _ | a
    · exact (attempt_mono ((ops_mono E hle).kind _)).bind fun r => kindUp hle y r
    · exact .refl _
    · exact runUp hle _ _ _
  refine Sim.bind (T := fun _ => (Res.ok (Res.ok ()) : Res (Res Unit))) (H := fun f _ => packed (tm.validate E.w docs x.vocabulary f D.root v)) h1.attempt
    (fun hle r => ?_) (fun hle _ => hT hle) fun b a hba ⟨_, hb⟩ => ?_
  · cases r with
    | err e => exact .refl _
    | timeout => exact .refl _
    | ok u => exact (M.Ext.refl _).bind fun y => schemaUp hle y
  cases hb
  match a, hba with
  | .ok a, hba =>
  have h2 : Sim s (fun (_ : Unit) (y : Schema) => y = x) (fun _ => schema d) fun _ => .ok () := Sim.const (y := .ok x) (by simp [schema, hx]) rfl
  refine Sim.bind (T := fun _ => .ok ()) (H := fun f _ => packed (tm.validate E.w docs x.vocabulary f D.root v)) h2 (fun hle y => schemaUp hle y) (fun hle _ => hT hle) fun _ y hy _ => ?_
  subst hy
  obtain ⟨val, theap⟩ := tm
  simp only [memo_packed, hval]
  rcases val with _ | _ | a
  · refine Sim.bind h3.attempt (fun hle r => kindUp hle y r) (fun hle r => ?_) fun b a hba ⟨f, hf⟩ => ?_
    · cases r with
      | err e => exact .refl _
      | timeout => exact .refl _
      | ok n =>
        cases n with
        | obj items => exact (validateH_mono E.w docs _ hle _ _ _ _).bind fun _ => .refl _
        | _ => exact .refl _
    · have same : KeptLike s { validator := some none, heap := theap } { m with validator := some none } := ⟨rfl, H, e1, e2⟩
      match b, a, hba with
      | .err e, .err e', hba =>
        cases (show e = e' from hba)
        exact Sim.const (y := .ok (.err e, m)) rfl ⟨rfl, hval, H, e1, e2⟩
      | .timeout, .timeout, _ => exact Sim.const (y := .timeout) rfl trivial
      | .ok n, .ok k, hba =>
        cases (show k = n.kind from hba)
        cases n with
        | obj items =>
          have el : m.heap.length = theap.length := by rw [e1, show theap = _ from e2, List.length_map, List.length_map]
          have := run { validator := some (some m.heap.length), heap := m.heap ++ [{ node := y.value }] } { validator := some (some m.heap.length), heap := theap ++ [{ node := D.root }] }
            m.heap.length ⟨rfl, H ++ [{ node := ⟨(y.value, D.root), hroot⟩ }], by rw [e1, List.map_append]; rfl, by rw [show theap = _ from e2, List.map_append]; rfl⟩
          simp only [el] at this ⊢
          exact this
        | ref o e ptr =>
          refine absurd rfl (view_not_ref (show view docs f D.root = .ok (.ref o e ptr) from ?_) o e ptr)
          revert hf
          cases view docs f D.root <;> simp [Res.attempt]
        | _ =>
          exact Sim.const (R := fun b a => b.1 = a.1 ∧ KeptLike s b.2 a.2) (x := pure (Res.ok (), { m with validator := some none }))
            (y := Res.ok (Res.ok (), { m with validator := some none })) (z := Res.ok (Res.ok (), ⟨some none, theap⟩)) rfl (show _ ∧ _ from ⟨rfl, same⟩)
  · have rel : KeptLike s ⟨some none, theap⟩ m := ⟨hval, H, e1, e2⟩
    refine Sim.const (R := fun b a => b.1 = a.1 ∧ KeptLike s b.2 a.2) (x := pure (Res.ok (), m)) (y := Res.ok (Res.ok (), m)) (z := Res.ok (Res.ok (), ⟨some none, theap⟩)) rfl ?_
    exact ⟨rfl, rel⟩
  · exact run m ⟨_, theap⟩ a ⟨hval, H, e1, e2⟩
end

end Obj
end Verif
