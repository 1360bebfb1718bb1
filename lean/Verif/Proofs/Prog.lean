import Verif.Proofs.Load
import Verif.Model.Prog
/-!
# Laws of interaction programs

`interp_prog`: played against an oracle `rec`, the program of a validator is `run rec`.
-/

namespace Verif

namespace Prog
variable {α β γ : Type}

theorem interp_call (rec : α → Val → Ctx → Res Unit) (a : α) (v : Val) (c : Ctx) (k : Res Unit → Prog α β)
    (h : rec a v c ≠ .timeout) : interp rec (.call a v c k) = interp rec (k (rec a v c)) := by
  rw [interp]; split
  · rename_i e; exact absurd e h
  · rfl

theorem interp_call_timeout (rec : α → Val → Ctx → Res Unit) (a : α) (v : Val) (c : Ctx) (k : Res Unit → Prog α β)
    (h : rec a v c = .timeout) : interp rec (.call a v c k) = .timeout := by
  rw [interp, h]

@[simp] theorem interp_done (rec : α → Val → Ctx → Res Unit) (r : Res β) : interp rec (.done r) = r := rfl
@[simp] theorem interp_ask (rec : α → Val → Ctx → Res Unit) (a : α) (v : Val) (c : Ctx) : interp rec (ask a v c) = rec a v c := by
  unfold ask interp
  cases rec a v c <;> simp [interp]
@[simp] theorem interp_tryAsk (rec : α → Val → Ctx → Res Unit) (a : α) (v : Val) (c : Ctx) :
    interp rec (tryAsk a v c) = attempt (rec a v c) := by
  unfold tryAsk interp
  cases rec a v c <;> simp [interp, attempt]

@[simp] theorem interp_bind (rec : α → Val → Ctx → Res Unit) (p : Prog α β) (g : β → Prog α γ) :
    interp rec (p.bind g) = (interp rec p >>= fun b => interp rec (g b)) := by
  induction p with
  | done r => cases r <;> simp [bind]
  | call a v c k ih =>
    simp only [bind, interp]
    cases rec a v c <;> simp [ih]

/-- Every call goes to a subschema satisfying `P`. -/
def Uses (P : α → Prop) : Prog α β → Prop
  | .done _ => True
  | .call a _ _ k => P a ∧ ∀ r, Uses P (k r)

theorem Uses.bind {P : α → Prop} {p : Prog α β} {g : β → Prog α γ} (hp : p.Uses P) (hg : ∀ b, (g b).Uses P) : (p.bind g).Uses P := by
  induction p with
  | done r => cases r <;> simp [Prog.bind, Uses, hg]
  | call a v c k ih => exact ⟨hp.1, fun r => ih r (hp.2 r)⟩

/-- Acceptance needs every call to be answered with acceptance. -/
def Calm : Prog α β → Prop
  | .done _ => True
  | .call _ _ _ k => Calm (k (.ok ())) ∧ ∀ r, r ≠ .ok () → ∃ r', k r = .done r' ∧ ∀ b, r' ≠ .ok b

theorem Calm.ask (a : α) (v : Val) (c : Ctx) : (Prog.ask a v c).Calm := by
  refine ⟨trivial, fun r hr => ⟨r, rfl, ?_⟩⟩
  intro b h; exact hr h

theorem Calm.bind {p : Prog α β} {g : β → Prog α γ} (hp : p.Calm) (hg : ∀ b, (g b).Calm) : (p.bind g).Calm := by
  induction p with
  | done r => cases r <;> simp [Prog.bind, Calm, hg]
  | call a v c k ih =>
    refine ⟨ih _ hp.1, fun r hr => ?_⟩
    obtain ⟨r', e, h⟩ := hp.2 r hr
    simp only [e]
    cases r' with
    | ok b => exact absurd rfl (h b)
    | err x => exact ⟨_, rfl, by simp⟩
    | timeout => exact ⟨_, rfl, by simp⟩

/-- A calm computation keeps its answer when every call that was accepted still is. -/
theorem Calm.mono {rec rec' : α → Val → Ctx → Res Unit} {P : α → Prop} (h : ∀ a v c, P a → rec a v c = .ok () → rec' a v c = .ok ())
    {p : Prog α β} (hp : p.Calm) (hu : p.Uses P) {b : β} (he : interp rec p = .ok b) : interp rec' p = .ok b := by
  induction p with
  | done r => exact he
  | call a v c k ih =>
    by_cases hr : rec a v c = .ok ()
    · rw [interp_call _ _ _ _ _ (by simp [hr]), hr] at he
      rw [interp_call _ _ _ _ _ (by simp [h a v c hu.1 hr]), h a v c hu.1 hr]
      exact ih _ hp.1 (hu.2 _) he
    · rw [interp_call _ _ _ _ _ (by intro ht; rw [interp_call_timeout _ _ _ _ _ ht] at he; cases he)] at he
      obtain ⟨r', e, h'⟩ := hp.2 _ hr
      rw [e] at he
      exact absurd he (h' b)

/-- Two oracles that agree on the subschemas called give the same answer. -/
theorem interp_congr {rec rec' : α → Val → Ctx → Res Unit} {P : α → Prop} (h : ∀ a v c, P a → rec a v c = rec' a v c)
    {p : Prog α β} (hu : p.Uses P) : interp rec p = interp rec' p := by
  induction p with
  | done r => rfl
  | call a v c k ih =>
    simp only [interp]; rw [h a v c hu.1]
    split
    · rfl
    · exact ih _ (hu.2 _)

/-- The calls satisfy `P`, and the computation ends if they do. -/
def Ends (P : α → Val → Prop) : Prog α β → Prop
  | .done r => r ≠ .timeout
  | .call a v _ k => P a v ∧ ∀ r, r ≠ .timeout → Ends P (k r)

theorem Ends.ask {P : α → Val → Prop} {a : α} {v : Val} (h : P a v) (c : Ctx) : (Prog.ask a v c).Ends P := ⟨h, fun _ h => h⟩

theorem Ends.tryAsk {P : α → Val → Prop} {a : α} {v : Val} (h : P a v) (c : Ctx) : (Prog.tryAsk a v c).Ends P := by
  refine ⟨h, fun r h => ?_⟩
  show attempt r ≠ .timeout
  unfold attempt
  split <;> simp_all

theorem Ends.bind {P : α → Val → Prop} {p : Prog α β} {g : β → Prog α γ} (hp : p.Ends P) (hg : ∀ b, (g b).Ends P) : (p.bind g).Ends P := by
  induction p with
  | done r => cases r <;> simp_all [Prog.bind, Ends]
  | call a v c k ih => exact ⟨hp.1, fun r hr => ih r (hp.2 r hr)⟩

theorem Ends.interp {rec : α → Val → Ctx → Res Unit} {P : α → Val → Prop} (h : ∀ a v c, P a v → rec a v c ≠ .timeout)
    {p : Prog α β} (hp : p.Ends P) : interp rec p ≠ .timeout := by
  induction p with
  | done r => exact hp
  | call a v c k ih =>
    rw [interp_call _ _ _ _ _ (h a v c hp.1)]
    exact ih _ (hp.2 _ (h a v c hp.1))

end Prog

open Prog

section
variable {α : Type}

variable (rec : α → Val → Ctx → Res Unit)

theorem interp_allOf (v : Val) (ctx : Ctx) (xs : List α) : interp rec (allOfP v ctx xs) = allOfLoop rec v ctx xs := by
  induction xs with
  | nil => rfl
  | cons a as ih => simp [allOfP, allOfLoop, ih]

theorem interp_anyOf (v : Val) (ctx : Ctx) (last : Option VErr) (xs : List α) :
    interp rec (anyOfP v ctx last xs) = anyOfLoop rec v ctx last xs := by
  induction xs generalizing last with
  | nil => rfl
  | cons a as ih =>
    simp only [anyOfP, anyOfLoop, interp_bind, interp_tryAsk]
    refine Res.bind_congr _ fun r => ?_
    cases r with
    | none => rfl
    | some e => exact ih _

theorem interp_oneOf (v : Val) (ctx : Ctx) (n : Nat) (last : Option VErr) (xs : List α) :
    interp rec (oneOfP v ctx n last xs) = oneOfLoop rec v ctx n last xs := by
  induction xs generalizing n last with
  | nil => rfl
  | cons a as ih =>
    simp only [oneOfP, oneOfLoop, interp_bind, interp_tryAsk]
    refine Res.bind_congr _ fun r => ?_
    cases r with
    | none => exact ih _ _
    | some e => exact ih _ _

theorem interp_contains (c : α) (n : Nat) (xs : List Val) : interp rec (containsP c n xs) = containsLoop rec c n xs := by
  induction xs generalizing n with
  | nil => rfl
  | cons a as ih =>
    simp only [containsP, containsLoop, interp_bind, interp_tryAsk]
    refine Res.bind_congr _ fun r => ?_
    cases r with
    | none => exact ih _
    | some e => exact ih _

theorem interp_spin (p : α) (ctx : Ctx) (f : Nat) : interp rec (spinP p ctx f) = spin f (rec p .null ctx) := by
  induction f with
  | zero => rfl
  | succ f ih =>
    simp only [spinP, spin, interp]
    cases h : rec p .null ctx with
    | ok u => rw [h] at ih; simpa using ih
    | err e => rfl
    | timeout => rfl

theorem interp_items (it : α) (ctx : Ctx) (i : Nat) (xs : List Val) : interp rec (itemsP it ctx i xs) = itemsLoop rec it ctx i xs := by
  induction xs generalizing i with
  | nil => rfl
  | cons a as ih => simp [itemsP, itemsLoop, ih]

theorem interp_array (f : Nat) (items : Option α) (ctx : Ctx) (i : Nat) (ps : List α) (xs : List Val) :
    interp rec (arrayP f items ctx i ps xs) = arrayLoop rec f items ctx i ps xs := by
  induction ps generalizing i xs with
  | nil => cases items <;> simp [arrayP, arrayLoop, interp_items]
  | cons p ps ih =>
    cases xs with
    | nil => simp [arrayP, arrayLoop, interp_spin]
    | cons x xs => simp [arrayP, arrayLoop, ih]

theorem interp_pattern (w : World) (k : Str) (x : Val) (ctx : Ctx) (ev : Bool) (ps : List (Str × α)) :
    interp rec (patternP w k x ctx ev ps) = patternLoop rec w k x ctx ev ps := by
  induction ps generalizing ev with
  | nil => rfl
  | cons q ps ih =>
    obtain ⟨p, a⟩ := q
    simp only [patternP, patternLoop]
    cases w.search p with
    | none => rfl
    | some m =>
      simp only
      split
      · simp [ih]
      · exact ih _

theorem interp_objectItem (w : World) (o : ObjV α) (k : Str) (x : Val) (ctx : Ctx) :
    interp rec (objectItemP w o k x ctx) = objectItem rec w o k x ctx := by
  unfold objectItemP objectItem
  cases o.names <;> cases dictGet k o.props <;> cases o.patterns <;> simp only [interp_bind, interp_done, interp_ask, Res.ok_bind,
    interp_pattern] <;> try rfl
  all_goals
    try refine Res.bind_congr _ fun _ => ?_
  all_goals
    try refine Res.bind_congr _ fun b => ?_
  all_goals
    rcases o.additional with _ | (_ | a)
  all_goals first
    | rfl
    | exact interp_ask ..
    | (rename_i b; cases (b : Bool) <;> first | rfl | exact interp_ask ..)
    | (rename_i b _; cases (b : Bool) <;> first | rfl | exact interp_ask ..)

theorem interp_object (w : World) (o : ObjV α) (ctx : Ctx) (kvs : List (Str × Val)) :
    interp rec (objectP w o ctx kvs) = objectLoop rec w o ctx kvs := by
  induction kvs with
  | nil => rfl
  | cons p kvs ih => obtain ⟨k, x⟩ := p; simp [objectP, objectLoop, ih, interp_objectItem]

theorem interp_depSchemas (kvs : List (Str × Val)) (ctx : Ctx) (m : List (Str × α)) :
    interp rec (depSchemasP kvs ctx m) = depSchemasLoop rec kvs ctx m := by
  induction m with
  | nil => rfl
  | cons p m ih =>
    obtain ⟨k, a⟩ := p
    simp only [depSchemasP, depSchemasLoop, interp_bind]
    split <;> simp [ih]

theorem interp_prog (w : World) (f : Nat) (x : V α) (v : Val) (ctx : Ctx) : interp rec (prog w f x v ctx) = run rec w f x v ctx := by
  cases x with
  | contains c mn mx => simp only [prog, run, runContainsP, runContains, interp_bind, interp_contains]; rfl
  | array pre items => simp only [prog, run, runArrayP, runArray]; cases v <;> simp [interp_array]
  | object o => simp only [prog, run, runObject]; cases v <;> simp [interp_object]
  | dependentSchemas m => simp only [prog, run]; cases v <;> simp [interp_depSchemas]
  | allOf xs => exact interp_allOf rec v ctx xs
  | anyOf xs => exact interp_anyOf rec v ctx none xs
  | oneOf xs => simp only [prog, run, runOneOfP, runOneOf, interp_bind, interp_oneOf]; rfl
  | not x =>
    simp only [prog, run, notP, runNot, interp_bind, interp_tryAsk]
    refine Res.bind_congr _ fun r => ?_
    cases r <;> rfl
  | cond i t e =>
    simp only [prog, run, condP, runCond]
    cases i with
    | none => rfl
    | some i =>
      simp only [interp_bind, interp_tryAsk]
      refine Res.bind_congr _ fun r => ?_
      cases r <;> cases t <;> cases e <;> first | rfl | exact interp_ask ..
  | _ => rfl

theorem interp_progAll (w : World) (f : Nat) (v : Val) (ctx : Ctx) (d : List (Str × V α)) :
    interp rec (progAll w f v ctx d) = runAll rec w f v ctx d := by
  induction d with
  | nil => rfl
  | cons p d ih => obtain ⟨k, x⟩ := p; simp [progAll, runAll, ih, interp_prog]

end

end Verif
