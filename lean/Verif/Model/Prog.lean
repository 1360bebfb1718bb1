import Verif.Model.Schema
/-!
# Validators as interaction programs

`prog w f x v ctx` is the sequence of calls to subschemas that the `validate` method of `x` makes, each call depending on the
answers so far.  Played against an oracle it is `run` (`interp_prog` in `Verif.Proofs.Prog`), so the loops below are the loops
of `Verif.Model.Validators`; other interpreters keep state (`Verif.Model.Lazy`).
-/

namespace Verif

/-- A computation that may call subschemas (not a function of the code). -/
inductive Prog (α β : Type) where
  | done (r : Res β)
  | call (a : α) (v : Val) (ctx : Ctx) (k : Res Unit → Prog α β)

namespace Prog
variable {α β γ : Type}

/-- One computation after another (not a function of the code). -/
def bind : Prog α β → (β → Prog α γ) → Prog α γ
  | .done (.ok b), g => g b
  | .done (.err e), _ => .done (.err e)
  | .done .timeout, _ => .done .timeout
  | .call a v c k, g => .call a v c fun r => bind (k r) g

/-- Answer every call by `rec`; a call that does not return is the end (not a function of the code). -/
def interp (rec : α → Val → Ctx → Res Unit) : Prog α β → Res β
  | .done r => r
  | .call a v c k => match rec a v c with
    | .timeout => .timeout
    | r => interp rec (k r)

/-- A call whose failure ends the computation (not a function of the code). -/
def ask (a : α) (v : Val) (ctx : Ctx) : Prog α Unit := .call a v ctx .done

/-- A call inside `try: ... except ValidationError` (validators/composition_validators.py 22-26, 39-43, 60-63, 72-77). -/
def tryAsk (a : α) (v : Val) (ctx : Ctx) : Prog α (Option VErr) := .call a v ctx fun r => .done (attempt r)

end Prog

open Prog

section
variable {α : Type}

/-- The loop of `AllOfValidator.validate` (composition_validators.py 10-12). -/
def allOfP (v : Val) (ctx : Ctx) : List α → Prog α Unit
  | [] => .done (.ok ())
  | a :: as => (ask a v ctx).bind fun _ => allOfP v ctx as

/-- The loop of `AnyOfValidator.validate` (composition_validators.py 19-28). -/
def anyOfP (v : Val) (ctx : Ctx) : Option VErr → List α → Prog α Unit
  | last, [] => .done (match last with
    | some e => .err (.validation e)
    | none => .err .typeError)
  | _, a :: as => (tryAsk a v ctx).bind fun r => match r with
    | none => .done (.ok ())
    | some e => anyOfP v ctx (some e) as

/-- The loop of `OneOfValidator.validate` (composition_validators.py 36-43). -/
def oneOfP (v : Val) (ctx : Ctx) : Nat → Option VErr → List α → Prog α (Nat × Option VErr)
  | n, last, [] => .done (.ok (n, last))
  | n, last, a :: as => (tryAsk a v ctx).bind fun r => match r with
    | none => oneOfP v ctx (n + 1) last as
    | some e => oneOfP v ctx n (some e) as

/-- `OneOfValidator.validate` (composition_validators.py 35-52). -/
def runOneOfP (xs : List α) (v : Val) (ctx : Ctx) : Prog α Unit :=
  (oneOfP v ctx 0 none xs).bind fun q => .done
    (if q.1 < 1 then
      match q.2 with
      | some e => .err (.validation e)
      | none => .err .typeError
    else if q.1 > 1 then .err (raiseErr .tooMany ctx.path)
    else .ok ())

/-- `NotValidator.validate` (composition_validators.py 59-64). -/
def notP (x : α) (v : Val) (ctx : Ctx) : Prog α Unit := (tryAsk x v ctx).bind fun r => match r with
  | some _ => .done (.ok ())
  | none => .done (.err (raisePlain ctx.path))

/-- `ConditionalValidator.validate` (composition_validators.py 68-80). -/
def condP (i t e : Option α) (v : Val) (ctx : Ctx) : Prog α Unit :=
  match i with
  | none => .done (.ok ())
  | some i => (tryAsk i v ctx).bind fun r => match r with
    | some _ => match e with
      | none => .done (.err .keyError)
      | some e => ask e v ctx
    | none => match t with
      | none => .done (.ok ())
      | some t => ask t v ctx

/-- The loop of `ArrayContainsValidator.validate` (array_validators.py 46-51). -/
def containsP (c : α) : Nat → List Val → Prog α Nat
  | n, [] => .done (.ok n)
  | n, x :: xs => (tryAsk c x []).bind fun r => match r with
    | none => containsP c (n + 1) xs
    | some _ => containsP c n xs

/-- `ArrayContainsValidator.validate` (array_validators.py 44-57). -/
def runContainsP (c : α) (mn : Int) (mx : Option Int) (v : Val) (ctx : Ctx) : Prog α Unit :=
  (Prog.done (pyIter v)).bind fun xs => (containsP c 0 xs).bind fun n => .done
    (if (n : Int) < mn then .err (raiseErr .minContains ctx.path)
    else match mx with
      | none => .ok ()
      | some m => if m ≠ 0 ∧ (n : Int) > m then .err (raiseErr .maxContains ctx.path) else .ok ())

/-- The `continue` without increment in `ArrayValidator.validate` (array_validators.py 22-24). -/
def spinP (p : α) (ctx : Ctx) : Nat → Prog α Unit
  | 0 => .done .timeout
  | f + 1 => .call p .null ctx fun r => match r with
    | .ok _ => spinP p ctx f
    | r => .done r

/-- The second loop of `ArrayValidator.validate` (array_validators.py 32-34). -/
def itemsP (it : α) (ctx : Ctx) : Nat → List Val → Prog α Unit
  | _, [] => .done (.ok ())
  | i, x :: xs => (ask it x (ctx ++ [natStr i])).bind fun _ => itemsP it ctx (i + 1) xs

/-- The loops of `ArrayValidator.validate` (array_validators.py 19-34). -/
def arrayP (f : Nat) (items : Option α) (ctx : Ctx) : Nat → List α → List Val → Prog α Unit
  | i, [], xs => match items with
    | none => .done (.ok ())
    | some it => itemsP it ctx i xs
  | i, p :: _, [] => spinP p (ctx ++ [natStr i]) f
  | i, p :: ps, x :: xs => (ask p x (ctx ++ [natStr i])).bind fun _ => arrayP f items ctx (i + 1) ps xs

/-- `ArrayValidator.validate` (array_validators.py 15-34). -/
def runArrayP (f : Nat) (pre : Option (List α)) (items : Option α) (v : Val) (ctx : Ctx) : Prog α Unit :=
  match v with
  | .list xs => arrayP f items ctx 0 (pre.getD []) xs
  | _ => .done (.err raiseTypeNoPath)

/-- The loop over `pattern_properties` (object_validators.py 66-69). -/
def patternP (w : World) (k : Str) (x : Val) (ctx : Ctx) : Bool → List (Str × α) → Prog α Bool
  | ev, [] => .done (.ok ev)
  | ev, (p, a) :: ps =>
    match w.search p with
    | none => .done (.err .reError)
    | some m =>
      if m k then (ask a x ctx).bind fun _ => patternP w k x ctx true ps
      else patternP w k x ctx ev ps

/-- One round of the loop of `ObjectValidator.validate` (object_validators.py 57-79). -/
def objectItemP (w : World) (o : ObjV α) (k : Str) (x : Val) (ctx : Ctx) : Prog α Unit :=
  (match o.names with
  | some n => ask n (.str k) (ctx ++ [k])
  | none => .done (.ok ())).bind fun _ =>
  match dictGet k o.props with
  | some p => ask p x (ctx ++ [k])
  | none =>
    (match o.patterns with
      | some ps => patternP w k x (ctx ++ [k]) false ps
      | none => .done (.ok false)).bind fun evaluated =>
    if evaluated then .done (.ok ())
    else match o.additional with
      | some .fail => .done (.err (raisePlain (Ctx.path (ctx ++ [k]))))
      | some (.lazy a) => ask a x (ctx ++ [k])
      | none => .done (if o.unevaluated then .err (raisePlain (Ctx.path (ctx ++ [k]))) else .ok ())

/-- The loop of `ObjectValidator.validate` (object_validators.py 56-79). -/
def objectP (w : World) (o : ObjV α) (ctx : Ctx) : List (Str × Val) → Prog α Unit
  | [] => .done (.ok ())
  | (k, x) :: r => (objectItemP w o k x ctx).bind fun _ => objectP w o ctx r

/-- The loop of `DependentSchemasValidator.validate` (object_validators.py 107-111). -/
def depSchemasP (kvs : List (Str × Val)) (ctx : Ctx) : List (Str × α) → Prog α Unit
  | [] => .done (.ok ())
  | (k, a) :: r => (if dictHas k kvs then ask a (.dict kvs) ctx else .done (.ok ())).bind fun _ => depSchemasP kvs ctx r

/-- `validator.validate(value, context)` by class; validators without subschemas make no calls (validators/*.py, the lines of `run`). -/
def prog (w : World) (f : Nat) (x : V α) (v : Val) (ctx : Ctx) : Prog α Unit :=
  match x with
  | .contains c mn mx => runContainsP c mn mx v ctx
  | .array pre items => runArrayP f pre items v ctx
  | .object o => match v with
    | .dict kvs => objectP w o ctx kvs
    | _ => .done (.ok ())
  | .dependentSchemas m => match v with
    | .dict kvs => depSchemasP kvs ctx m
    | _ => .done (.ok ())
  | .allOf xs => allOfP v ctx xs
  | .anyOf xs => anyOfP v ctx none xs
  | .oneOf xs => runOneOfP xs v ctx
  | .not x => notP x v ctx
  | .cond i t e => condP i t e v ctx
  | x => .done (run (fun _ _ _ => .ok ()) w f x v ctx)

/-- `CompoundValidator.validate` (core_validators.py 86-88). -/
def progAll (w : World) (f : Nat) (v : Val) (ctx : Ctx) : List (Str × V α) → Prog α Unit
  | [] => .done (.ok ())
  | (_, x) :: d => (prog w f x v ctx).bind fun _ => progAll w f v ctx d

end

end Verif
