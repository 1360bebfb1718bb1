import Verif.Proofs.Mono
/-!
# Only validation errors are caught

A computation whose answer is acceptance or a `ValidationError` got only such answers from its calls.
-/

namespace Verif
open Prog

variable {α β γ : Type}

/-- Acceptance or a `ValidationError`. -/
def Res.Dec (x : Res β) : Prop := (∃ b, x = .ok b) ∨ ∃ e, x = .err (.validation e)

namespace Prog

/-- Every other exception ends the computation. -/
def Strict : Prog α β → Prop
  | .done _ => True
  | .call _ _ _ k => (∀ r, Strict (k r)) ∧ ∀ e, (∀ x, e ≠ .validation x) → k (.err e) = .done (.err e)

theorem Strict.ask (a : α) (v : Val) (c : Ctx) : (Prog.ask a v c).Strict := ⟨fun _ => trivial, fun _ _ => rfl⟩

theorem Strict.tryAsk (a : α) (v : Val) (c : Ctx) : (Prog.tryAsk a v c).Strict := by
  refine ⟨fun _ => trivial, fun e he => ?_⟩
  cases e <;> first | rfl | exact absurd rfl (he _)

theorem Strict.bind {p : Prog α β} {g : β → Prog α γ} (hp : p.Strict) (hg : ∀ b, (g b).Strict) : (p.bind g).Strict := by
  induction p with
  | done r => cases r <;> simp [Prog.bind, Strict, hg]
  | call a v c k ih => exact ⟨fun r => ih r (hp.1 r), fun e he => by simp only [hp.2 e he, Prog.bind]⟩

/-- An answer that does not rest on caught errors is given again by oracles that give the same answers, from some point on. -/
theorem Strict.follow {rec : α → Val → Ctx → Res Unit} {rec' : Nat → α → Val → Ctx → Res Unit} {p : Prog α β} (hp : p.Strict)
    (h : ∀ a v c, (rec a v c).Dec → ∃ g, ∀ j, g ≤ j → rec' j a v c = rec a v c) (hd : (interp rec p).Dec) :
    ∃ g, ∀ j, g ≤ j → interp (rec' j) p = interp rec p := by
  induction p with
  | done r => exact ⟨0, fun _ _ => rfl⟩
  | call a v c k ih =>
    by_cases ht : rec a v c = .timeout
    · rw [interp_call_timeout _ _ _ _ _ ht] at hd
      rcases hd with ⟨b, hb⟩ | ⟨e, he⟩ <;> simp_all
    · rw [interp_call _ _ _ _ _ ht] at hd
      have hr : (rec a v c).Dec := by
        cases e : rec a v c with
        | ok u => exact .inl ⟨_, rfl⟩
        | timeout => exact absurd e ht
        | err x =>
          by_cases hx : ∃ y, x = .validation y
          · obtain ⟨y, rfl⟩ := hx; exact .inr ⟨_, rfl⟩
          · rw [e, hp.2 x fun y hy => hx ⟨y, hy⟩] at hd
            rcases hd with ⟨b, hb⟩ | ⟨z, hz⟩
            · cases hb
            · simp only [interp_done, Res.err.injEq] at hz; exact absurd ⟨z, hz⟩ hx
      obtain ⟨g1, h1⟩ := h a v c hr
      obtain ⟨g2, h2⟩ := ih _ (hp.1 _) hd
      refine ⟨max g1 g2, fun j hj => ?_⟩
      have e := h1 j (by omega)
      rw [interp_call _ _ _ _ _ ht, interp_call _ _ _ _ _ (by rw [e]; exact ht), e]
      exact h2 j (by omega)

end Prog

theorem spin_strict (p : α) (ctx : Ctx) (f : Nat) : (spinP p ctx f).Strict := by
  induction f with
  | zero => trivial
  | succ f ih =>
    refine ⟨fun r => ?_, fun _ _ => rfl⟩
    cases r <;> first | exact ih | trivial

theorem items_strict (it : α) (ctx : Ctx) (i : Nat) (xs : List Val) : (itemsP it ctx i xs).Strict := by
  induction xs generalizing i with
  | nil => trivial
  | cons x xs ih => exact (Strict.ask _ _ _).bind fun _ => ih _

theorem array_strict (f : Nat) (items : Option α) (ctx : Ctx) (i : Nat) (ps : List α) (xs : List Val) : (arrayP f items ctx i ps xs).Strict := by
  induction ps generalizing i xs with
  | nil =>
    cases items with
    | none => trivial
    | some it => exact items_strict _ _ _ _
  | cons p ps ih =>
    cases xs with
    | nil => exact spin_strict _ _ _
    | cons x xs => exact (Strict.ask _ _ _).bind fun _ => ih _ _

theorem pattern_strict (w : World) (k : Str) (x : Val) (ctx : Ctx) (ev : Bool) (ps : List (Str × α)) :
    (patternP w k x ctx ev ps).Strict := by
  induction ps generalizing ev with
  | nil => trivial
  | cons q ps ih =>
    obtain ⟨p, a⟩ := q
    simp only [patternP]
    cases w.search p with
    | none => trivial
    | some m =>
      simp only
      split
      · exact (Strict.ask _ _ _).bind fun _ => ih _
      · exact ih _

theorem object_strict (w : World) (o : ObjV α) (ctx : Ctx) (kvs : List (Str × Val)) : (objectP w o ctx kvs).Strict := by
  induction kvs with
  | nil => trivial
  | cons p kvs ih =>
    refine Strict.bind ?_ fun _ => ih
    unfold objectItemP
    refine Strict.bind ?_ fun _ => ?_
    · cases o.names <;> first | trivial | exact Strict.ask _ _ _
    · cases dictGet p.1 o.props with
      | some p => exact Strict.ask _ _ _
      | none =>
        simp only
        refine Strict.bind ?_ fun ev => ?_
        · cases o.patterns <;> first | trivial | exact pattern_strict _ _ _ _ _ _
        · split
          · trivial
          · cases o.additional with
            | none => trivial
            | some s => cases s <;> first | trivial | exact Strict.ask _ _ _

theorem depSchemas_strict (kvs : List (Str × Val)) (ctx : Ctx) (m : List (Str × α)) : (depSchemasP kvs ctx m).Strict := by
  induction m with
  | nil => trivial
  | cons p m ih =>
    refine Strict.bind ?_ fun _ => ih
    split
    · exact Strict.ask _ _ _
    · trivial

theorem allOf_strict (v : Val) (ctx : Ctx) (xs : List α) : (allOfP v ctx xs).Strict := by
  induction xs with
  | nil => trivial
  | cons a as ih => exact (Strict.ask _ _ _).bind fun _ => ih

theorem anyOf_strict (v : Val) (ctx : Ctx) (l : Option VErr) (xs : List α) : (anyOfP v ctx l xs).Strict := by
  induction xs generalizing l with
  | nil => trivial
  | cons a as ih =>
    refine (Strict.tryAsk _ _ _).bind fun r => ?_
    cases r <;> first | trivial | exact ih _

theorem oneOf_strict (v : Val) (ctx : Ctx) (n : Nat) (l : Option VErr) (xs : List α) : (oneOfP v ctx n l xs).Strict := by
  induction xs generalizing n l with
  | nil => trivial
  | cons a as ih =>
    refine (Strict.tryAsk _ _ _).bind fun r => ?_
    cases r <;> exact ih _ _

theorem contains_strict (c : α) (n : Nat) (xs : List Val) : (containsP c n xs).Strict := by
  induction xs generalizing n with
  | nil => trivial
  | cons a as ih =>
    refine (Strict.tryAsk _ _ _).bind fun r => ?_
    cases r <;> exact ih _

theorem prog_strict (w : World) (f : Nat) (x : V α) (v : Val) (ctx : Ctx) : (prog w f x v ctx).Strict := by
  cases x with
  | array pre its => cases v <;> simp only [prog, runArrayP] <;> first | trivial | exact array_strict _ _ _ _ _ _
  | object o => cases v <;> simp only [prog] <;> first | trivial | exact object_strict _ _ _ _
  | dependentSchemas m => cases v <;> simp only [prog] <;> first | trivial | exact depSchemas_strict _ _ _
  | allOf xs => exact allOf_strict _ _ _
  | anyOf xs => exact anyOf_strict _ _ _ _
  | oneOf xs => exact (oneOf_strict _ _ _ _ _).bind fun _ => trivial
  | contains c mn mx =>
    have h : (Prog.done (pyIter v) : Prog α (List Val)).Strict := trivial
    exact h.bind fun _ => (contains_strict _ _ _).bind fun _ => trivial
  | not x => exact (Strict.tryAsk _ _ _).bind fun r => by cases r <;> trivial
  | cond i t e =>
    cases i with
    | none => trivial
    | some i =>
      refine (Strict.tryAsk _ _ _).bind fun r => ?_
      cases r <;> simp only
      · cases t <;> first | trivial | exact Strict.ask _ _ _
      · cases e <;> first | trivial | exact Strict.ask _ _ _
  | _ => trivial

theorem progAll_strict (w : World) (f : Nat) (v : Val) (ctx : Ctx) (d : Data α) : (progAll w f v ctx d).Strict := by
  induction d with
  | nil => trivial
  | cons p d ih => exact (prog_strict w f p.2 v ctx).bind fun _ => ih

end Verif
