import Verif.Model.Validating
import Verif.Model.Lazy
/-!
# Validators that remember, on the objects

`Model/Lazy.lean` has the validators as objects that keep what they read, and reads trees; `Model/Validating.lean` reads the objects, and makes a new validator
for every use.  Here is what the code has: validators that keep what they read of the objects, from one call of `validate` to the next.

A validator keeps what it read before something raised.  So what it does is written as a program (`Visit`) that is told when a look at a node raises.
-/

namespace Verif

/-- A computation that looks at nodes, and goes on if that raises an exception (not a function of the code). -/
inductive Visit (ν ρ : Type) where
  | done (a : ρ)
  /-- it takes too long -/
  | stop
  | sight (n : ν) (k : Res (Sight ν) → Visit ν ρ)
  | tree (n : ν) (k : Res Node → Visit ν ρ)

namespace Visit
variable {ν ρ σ : Type}

/-- One computation after another (not a function of the code). -/
def bind : Visit ν ρ → (ρ → Visit ν σ) → Visit ν σ
  | .done a, g => g a
  | .stop, _ => .stop
  | .sight n k, g => .sight n fun x => (k x).bind g
  | .tree n k, g => .tree n fun x => (k x).bind g

instance : Monad (Visit ν) where
  pure a := .done a
  bind := Visit.bind

end Visit

/-- Look, and be told whether it raised (not a function of the code). -/
def Look.visit {ν ρ : Type} : Look ν ρ → Visit ν (Res ρ)
  | .done .timeout => .stop
  | .done r => .done r
  | .sight n k => .sight n fun
    | .ok x => (k x).visit
    | .err e => .done (.err e)
    | .timeout => .stop
  | .tree n k => .tree n fun
    | .ok x => (k x).visit
    | .err e => .done (.err e)
    | .timeout => .stop

section
variable {ν : Type} (w : World)

/-- The loop of `LazyValidator._load_validator` over the vocabulary (json_core.py 79-86): the dictionary, also if a keyword raised, and how it ended. -/
def loadKeep (items : List (Str × ν)) : List Kw → Data (ν ⊕ Nat) → Visit ν (Data (ν ⊕ Nat) × Res Unit)
  | [], d => pure (d, .ok ())
  | k :: ks, d =>
    if k.isAssertion && dictHas k.key items then do
      match ← (readL w Sum.inl items k).visit with
      | .ok u =>
        match u.apply k.key d with
        | .ok d' => loadKeep items ks d'
        | .err e => pure (d, .err e)
        | .timeout => .stop
      | .err e => pure (d, .err e)
      | .timeout => .stop
    else loadKeep items ks d

/-- `LazyValidator._load_validator` (json_core.py 71-88), as `loadCell` of `Model/Lazy`: how it ended, the validator and the heap. -/
def loadObj (voc : List Kw) (c : LazyObj ν) (h : List (LazyObj ν)) : Visit ν (Res Unit × LazyObj ν × List (LazyObj ν)) :=
  .sight c.node fun
    | .err e => pure (.err e, c, h)
    | .timeout => .stop
    | .ok (.bool b) => pure (.ok (), { c with fail := c.fail || !b, loaded := true }, h)
    | .ok (.obj items) => do
      let p ← loadKeep w items voc (c.data.map Sum.inr)
      let q := travD (V.trav alloc) p.1 h
      pure (p.2, { c with data := q.1, loaded := match p.2 with
        | .ok _ => true
        | _ => false }, q.2)
    | .ok x => do
      match ← (loadOtherL x voc).visit with
      | .ok _ => pure (.ok (), { c with loaded := true }, h)
      | r => pure (r, c, h)

/-- A validator runs; its calls act on the heap (not a function of the code). -/
def interpV {β : Type} (rec : Nat → Val → Ctx → List (LazyObj ν) → Visit ν (Res Unit × List (LazyObj ν))) :
    Prog Nat β → List (LazyObj ν) → Visit ν (Res β × List (LazyObj ν))
  | .done .timeout, _ => .stop
  | .done r, h => pure (r, h)
  | .call a v c k, h => do
    let p ← rec a v c h
    interpV rec (k p.1) p.2

/-- `CompoundValidator.validate` (core_validators.py 86-88) on a loaded validator, as `runCell` of `Model/Lazy`. -/
def runObj (rec : Nat → Val → Ctx → List (LazyObj ν) → Visit ν (Res Unit × List (LazyObj ν))) (f : Nat) (c : LazyObj ν) (v : Val) (ctx : Ctx)
    (h : List (LazyObj ν)) : Visit ν (Res Unit × List (LazyObj ν)) :=
  if c.fail then pure (.err (raisePlain ctx.path), h) else interpV rec (progAll w f v ctx c.data) h

/-- `LazyValidator.validate` (json_core.py 90-94) of the validator at an address: how it ended, and the heap. -/
def validateV (voc : List Kw) : Nat → Nat → Val → Ctx → List (LazyObj ν) → Visit ν (Res Unit × List (LazyObj ν))
  | 0, _, _, _, _ => .stop
  | f + 1, a, v, ctx, h =>
    match h[a]? with
    | none => pure (.err .unmodelled, h)
    | some c =>
      if c.loaded then runObj w (validateV voc f) f c v ctx h
      else do
        let p ← loadObj w voc c h
        match p.1 with
        | .ok _ => runObj w (validateV voc f) f p.2.1 v ctx (p.2.2.set a p.2.1)
        | r => pure (r, p.2.2.set a p.2.1)

end

namespace Obj

/-- Be told whether it raised (not a function of the code). -/
def attempt {α : Type} (x : M α) : M (Res α) := fun s => match x s with
  | (.timeout, s') => (.timeout, s')
  | (r, s') => (.ok r, s')

/-- What is looked at are the objects (not a function of the code). -/
def visitS (E : Env) (f : Nat) {ρ : Type} : Visit Nat ρ → M ρ
  | .done a => pure a
  | .stop => lift .timeout
  | .sight n k => do
    let x ← attempt (sightS E f n)
    visitS E f (k x)
  | .tree n k => do
    let x ← attempt ((ops E f).node n)
    visitS E f (k x)

/-- What a schema keeps for validation: `_validator` (json_core.py 107, 114-124; `some none` is the empty `CompoundValidator`), and the lazy validators that can be
come to from it. -/
structure Kept where
  validator : Option (Option Nat) := none
  heap : List (LazyObj Nat) := []

/-- `validate` of the validator at an address (json_core.py 90-94). -/
def Kept.run (E : Env) (voc : List Kw) (f : Nat) (a : Nat) (v : Val) (m : Kept) : M (Res Unit × Kept) := do
  let p ← visitS E f (validateV E.w voc f a v [] m.heap)
  pure (p.1, { m with heap := p.2 })

/-- `JsonSchema.validate(value)` (json_core.py 114-127) of a schema that keeps `m`: how it ended, and what it keeps then. -/
def validateM (E : Env) (f d : Nat) (v : Val) (m : Kept) : M (Res Unit × Kept) := do
  match ← attempt ((ops E f).load d) with
  | .err e => pure (.err e, m)
  | .timeout => lift .timeout
  | .ok _ => do
    let x ← schema d
    match m.validator with
    | some none => pure (.ok (), m)
    | some (some a) => m.run E x.vocabulary f a v
    | none => do
      match ← attempt ((ops E f).kind x.value) with
      | .err e => pure (.err e, m)
      | .timeout => lift .timeout
      | .ok .object =>
        Kept.run E x.vocabulary f m.heap.length v { validator := some (some m.heap.length), heap := m.heap ++ [{ node := x.value }] }
      | .ok _ => pure (.ok (), { m with validator := some none })

end Obj

end Verif
