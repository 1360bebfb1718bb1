import Verif.Proofs.Ends
import Verif.Proofs.Satisfies
import Verif.Proofs.Bridge
import Verif.Proofs.Group
import Verif.Spec.Malformed
/-!
# Where `SchemaParseError` comes from: lemmas for C88

`NoParse r`: the computation `r` does not raise `SchemaParseError`.  Validators raise none of their own, and reading a keyword raises it only if the schema object
is malformed.
-/

namespace Verif
open Prog Spec

def NoParse {α : Type} (r : Res α) : Prop := r ≠ .err .schemaParse

theorem NoParse.ok {α : Type} (a : α) : NoParse (Res.ok a) := by simp [NoParse]
theorem NoParse.timeout {α : Type} : NoParse (Res.timeout : Res α) := by simp [NoParse]
theorem NoParse.err {α : Type} {e : PyErr} (h : e ≠ .schemaParse) : NoParse (Res.err e : Res α) := by simpa [NoParse] using h

theorem NoParse.bind {α β : Type} {x : Res α} {f : α → Res β} (h : NoParse x) (hf : ∀ a, NoParse (f a)) : NoParse (x >>= f) := by
  cases x with
  | ok a => exact hf a
  | err e => exact NoParse.err fun he => h (by rw [he])
  | timeout => exact .timeout

theorem fmtField_sound (known : List Str) (name : Str) : fmtField known name ≠ some .schemaParse := by
  unfold fmtField
  split
  · rename_i e he
    rcases fmtInt_errs he with rfl | rfl | rfl <;> simp
  · split <;> simp

theorem fmtGo_sound (known : List Str) : ∀ (n : Nat) (s : Str) (o : Option Str), s.length ≤ n → fmtGo known o s ≠ some .schemaParse
  | n, s, o, h => by
    induction n generalizing s o with
    | zero =>
      cases s with
      | nil => cases o <;> simp [fmtGo]
      | cons _ _ => simp at h
    | succ n ih =>
      rw [fmtGo.eq_def]
      split
      all_goals repeat' first
        | (simp; done)
        | exact fmtField_sound _ _
        | (rcases fmtOdd_errs known _ _ with h | h | h | h <;> rw [h] <;> simp; done)
        | (refine ih _ _ ?_; simp at h ⊢; omega)
        | split
      rename_i he; rw [← he]; exact fmtField_sound _ _

theorem raiseErr_sound (c : ErrClass) (path detail : Str) : raiseErr c path detail ≠ .schemaParse := by
  unfold raiseErr
  split
  · rename_i e he
    intro h
    exact fmtGo_sound _ _ _ _ (Nat.le_refl _) (h ▸ he)
  · simp

theorem raiseTypeNoPath_sound : raiseTypeNoPath ≠ .schemaParse := by
  unfold raiseTypeNoPath
  split
  · rename_i e he
    intro h
    exact fmtGo_sound _ _ _ _ (Nat.le_refl _) (h ▸ he)
  · simp

macro "snd" : tactic => `(tactic| repeat' first | exact NoParse.ok _ | exact NoParse.timeout | (refine NoParse.err ?_; simp; done) | exact NoParse.err (raiseErr_sound _ _ _) | assumption | (refine NoParse.bind ?_ fun _ => ?_) | split)

mutual
theorem nodeEqVal_sound : ∀ (n : Node) (v : Val), NoParse (nodeEqVal n v)
  | .null, v | .bool _, v | .num _, v | .str _, v | .ref .., v => by
    unfold nodeEqVal
    snd
  | .arr xs, v => by
    unfold nodeEqVal
    split
    · split
      · exact listEqVal_sound _ _
      · exact .ok _
    · exact .ok _
  | .obj kvs, v => by
    unfold nodeEqVal
    split
    · split
      · exact dictEqVal_sound _ _
      · exact .ok _
    · exact .ok _

theorem listEqVal_sound : ∀ (xs : List Node) (ys : List Val), NoParse (listEqVal xs ys)
  | [], _ => .ok _
  | _ :: _, [] => .ok _
  | x :: xs, y :: ys => by
    unfold listEqVal
    refine NoParse.bind (nodeEqVal_sound x y) fun a => ?_
    split
    · exact listEqVal_sound xs ys
    · exact .ok _

theorem dictEqVal_sound : ∀ (xs : List (Str × Node)) (ys : List (Str × Val)), NoParse (dictEqVal xs ys)
  | [], _ => .ok _
  | (k, x) :: xs, ys => by
    unfold dictEqVal
    split
    · exact .ok _
    · refine NoParse.bind (nodeEqVal_sound x _) fun a => ?_
      split
      · exact dictEqVal_sound xs ys
      · exact .ok _
end

theorem rawEqVal_sound (n : Node) (v : Val) : NoParse (rawEqVal n v) := by
  unfold rawEqVal
  split <;> (try split) <;> first | exact NoParse.ok _ | exact nodeEqVal_sound _ _

theorem lt_sound (a b : Num) : NoParse (a.lt b) := by unfold Num.lt; snd
theorem le_sound (a b : Num) : NoParse (a.le b) := by unfold Num.le; snd
theorem fix_sound (q : Rat) : NoParse (Num.fix q) := by unfold Num.fix; simp only; snd
theorem rem_sound (a b : Num) : NoParse (a.rem b) := by
  unfold Num.rem; simp only
  repeat' (first | exact NoParse.ok _ | (refine NoParse.err ?_; simp; done) | exact (fix_sound _).bind fun _ => NoParse.ok _ | split)
theorem toInt_sound (a : Num) : NoParse a.toInt := by unfold Num.toInt; snd
theorem pyLen_sound (v : Val) : NoParse (pyLen v) := by unfold pyLen; snd
theorem pyIter_sound (v : Val) : NoParse (pyIter v) := by unfold pyIter; snd
theorem pyIn_sound (k : Str) (v : Val) : NoParse (pyIn k v) := by unfold pyIn; snd
theorem toDecimal_sound (w : World) (v : Val) : NoParse (toDecimal w v) := by unfold toDecimal; snd

theorem enumLoop_sound (v : Val) (ctx : Ctx) (xs : List Node) : NoParse (enumLoop v ctx xs) := by
  induction xs with
  | nil => exact .err (raiseErr_sound _ _ _)
  | cons x xs ih => unfold enumLoop; have := rawEqVal_sound x v; snd

theorem enumIn_sound (v : Val) (xs : List Node) : NoParse (enumIn v xs) := by
  induction xs with
  | nil => exact .ok _
  | cons x xs ih => unfold enumIn; have := rawEqVal_sound x v; snd

theorem uniqueLoop_sound (ctx : Ctx) (seen : List Val) (i : Nat) (xs : List Val) : NoParse (uniqueLoop ctx seen i xs) := by
  induction xs generalizing seen i with
  | nil => exact .ok _
  | cons x xs ih =>
    unfold uniqueLoop
    split
    · exact .err (by simp)
    · split
      · exact .err (raiseErr_sound _ _ _)
      · exact ih _ _

theorem runRequired_sound (v : Val) (ctx : Ctx) (ks : List Str) : NoParse (runRequired v ctx ks) := by
  induction ks with
  | nil => exact .ok _
  | cons x xs ih => unfold runRequired; have := pyIn_sound x v; snd

theorem depRequiredItems_sound (kvs : List (Str × Val)) (ctx : Ctx) (ks : List Str) : NoParse (depRequiredItems kvs ctx ks) := by
  induction ks with
  | nil => exact .ok _
  | cons x xs ih => unfold depRequiredItems; snd

theorem depRequiredLoop_sound (kvs : List (Str × Val)) (ctx : Ctx) (m : List (Str × List Str)) : NoParse (depRequiredLoop kvs ctx m) := by
  induction m with
  | nil => exact .ok _
  | cons x xs ih =>
    obtain ⟨k, is⟩ := x
    unfold depRequiredLoop
    have := depRequiredItems_sound kvs ctx is
    snd

/-- No format check raises `SchemaParseError`. -/
def FormatsSound (w : World) : Prop := ∀ s check v, w.formats s = some check → NoParse (check v)

/-- A program that raises no `SchemaParseError` unless a call does. -/
def Prog.Pure {α β : Type} : Prog α β → Prop
  | .done r => NoParse r
  | .call _ _ _ k => ∀ r, NoParse r → Pure (k r)

section
variable {α β γ : Type}

theorem Prog.Pure.bind {p : Prog α β} {g : β → Prog α γ} (hp : p.Pure) (hg : ∀ b, (g b).Pure) : (p.bind g).Pure := by
  induction p with
  | done r =>
    cases r with
    | ok b => exact hg b
    | err e => exact NoParse.err fun he => hp (by rw [he])
    | timeout => exact NoParse.timeout
  | call a v c k ih => exact fun r hr => ih r (hp r hr)

theorem Prog.Pure.ask (a : α) (v : Val) (c : Ctx) : (Prog.ask a v c).Pure := fun _ h => h

theorem Prog.Pure.tryAsk (a : α) (v : Val) (c : Ctx) : (Prog.tryAsk a v c).Pure := by
  intro r h
  show NoParse (attempt r)
  unfold attempt
  split
  · exact .ok _
  · exact .ok _
  · exact .err fun he => h (by rw [he])
  · exact .timeout

/-- A pure program whose calls do not raise `SchemaParseError` does not either. -/
theorem interp_sound {rec : α → Val → Ctx → Res Unit} {P : α → Prop} (h : ∀ a v c, P a → NoParse (rec a v c)) {p : Prog α β} (hp : p.Pure)
    (hu : p.Uses P) : NoParse (interp rec p) := by
  induction p with
  | done r => exact hp
  | call a v c k ih =>
    have hs := h a v c hu.1
    by_cases ht : rec a v c = .timeout
    · rw [interp_call_timeout _ _ _ _ _ ht]; exact .timeout
    · rw [interp_call _ _ _ _ _ ht]; exact ih _ (hp _ hs) (hu.2 _)

theorem done_pure {r : Res β} (h : NoParse r) : (Prog.done r : Prog α β).Pure := h

theorem allOf_pure (v : Val) (ctx : Ctx) (xs : List α) : (allOfP v ctx xs).Pure := by
  induction xs with
  | nil => exact done_pure (.ok _)
  | cons a as ih => exact (Prog.Pure.ask _ _ _).bind fun _ => ih

theorem anyOf_pure (v : Val) (ctx : Ctx) (l : Option VErr) (xs : List α) : (anyOfP v ctx l xs).Pure := by
  induction xs generalizing l with
  | nil => cases l <;> exact done_pure (.err (by simp))
  | cons a as ih =>
    refine (Prog.Pure.tryAsk _ _ _).bind fun r => ?_
    cases r with
    | none => exact done_pure (.ok _)
    | some e => exact ih _

theorem oneOf_pure (v : Val) (ctx : Ctx) (n : Nat) (l : Option VErr) (xs : List α) : (oneOfP v ctx n l xs).Pure := by
  induction xs generalizing n l with
  | nil => exact done_pure (.ok _)
  | cons a as ih =>
    refine (Prog.Pure.tryAsk _ _ _).bind fun r => ?_
    cases r <;> exact ih _ _

theorem contains_pure (c : α) (n : Nat) (xs : List Val) : (containsP c n xs).Pure := by
  induction xs generalizing n with
  | nil => exact done_pure (.ok _)
  | cons x xs ih =>
    refine (Prog.Pure.tryAsk _ _ _).bind fun r => ?_
    cases r <;> exact ih _

theorem spin_pure (p : α) (ctx : Ctx) (f : Nat) : (spinP p ctx f).Pure := by
  induction f with
  | zero => exact done_pure .timeout
  | succ f ih =>
    intro r hr
    cases r with
    | ok _ => exact ih
    | err e => exact hr
    | timeout => exact hr

theorem items_pure (it : α) (ctx : Ctx) (i : Nat) (xs : List Val) : (itemsP it ctx i xs).Pure := by
  induction xs generalizing i with
  | nil => exact done_pure (.ok _)
  | cons x xs ih => exact (Prog.Pure.ask _ _ _).bind fun _ => ih _

theorem array_pure (f : Nat) (items : Option α) (ctx : Ctx) (i : Nat) (ps : List α) (xs : List Val) : (arrayP f items ctx i ps xs).Pure := by
  induction ps generalizing i xs with
  | nil =>
    cases items with
    | none => exact done_pure (.ok _)
    | some it => exact items_pure _ _ _ _
  | cons p ps ih =>
    cases xs with
    | nil => exact spin_pure _ _ _
    | cons x xs => exact (Prog.Pure.ask _ _ _).bind fun _ => ih _ _

theorem pattern_pure (w : World) (k : Str) (x : Val) (ctx : Ctx) (ev : Bool) (ps : List (Str × α)) : (patternP w k x ctx ev ps).Pure := by
  induction ps generalizing ev with
  | nil => exact done_pure (.ok _)
  | cons q ps ih =>
    obtain ⟨p, a⟩ := q
    simp only [patternP]
    cases w.search p with
    | none => exact done_pure (.err (by simp))
    | some m =>
      simp only
      split
      · exact (Prog.Pure.ask _ _ _).bind fun _ => ih _
      · exact ih _

theorem object_pure (w : World) (o : ObjV α) (ctx : Ctx) (kvs : List (Str × Val)) : (objectP w o ctx kvs).Pure := by
  induction kvs with
  | nil => exact done_pure (.ok _)
  | cons p kvs ih =>
    refine Prog.Pure.bind ?_ fun _ => ih
    unfold objectItemP
    refine Prog.Pure.bind ?_ fun _ => ?_
    · cases o.names <;> first | exact done_pure (.ok _) | exact Prog.Pure.ask _ _ _
    · cases dictGet p.1 o.props with
      | some p => exact Prog.Pure.ask _ _ _
      | none =>
        simp only
        refine Prog.Pure.bind ?_ fun ev => ?_
        · cases o.patterns <;> first | exact done_pure (.ok _) | exact pattern_pure _ _ _ _ _ _
        · split
          · exact done_pure (.ok _)
          · cases o.additional with
            | none => refine done_pure ?_; split <;> first | exact .ok _ | exact .err (by simp [raisePlain])
            | some s => cases s <;> first | exact done_pure (.err (by simp [raisePlain])) | exact Prog.Pure.ask _ _ _

theorem depSchemas_pure (kvs : List (Str × Val)) (ctx : Ctx) (m : List (Str × α)) : (depSchemasP kvs ctx m).Pure := by
  induction m with
  | nil => exact done_pure (.ok _)
  | cons p m ih =>
    refine Prog.Pure.bind ?_ fun _ => ih
    split
    · exact Prog.Pure.ask _ _ _
    · exact done_pure (.ok _)

theorem prog_pure {w : World} (hw : FormatsSound w) (f : Nat) (x : V α) (v : Val) (ctx : Ctx) : (prog w f x v ctx).Pure := by
  cases x with
  | contains c mn mx =>
    refine Prog.Pure.bind (done_pure (pyIter_sound v)) fun xs => (contains_pure _ _ _).bind fun n => done_pure ?_
    snd
  | array p its =>
    cases v <;> simp only [prog, runArrayP] <;> first | exact done_pure (.err raiseTypeNoPath_sound) | exact array_pure _ _ _ _ _ _
  | object o => cases v <;> simp only [prog] <;> first | exact done_pure (.ok _) | exact object_pure _ _ _ _
  | dependentSchemas m => cases v <;> simp only [prog] <;> first | exact done_pure (.ok _) | exact depSchemas_pure _ _ _
  | allOf xs => exact allOf_pure _ _ _
  | anyOf xs => exact anyOf_pure _ _ _ _
  | oneOf xs => refine (oneOf_pure _ _ _ _ _).bind fun _ => done_pure ?_; snd
  | not x =>
    refine (Prog.Pure.tryAsk _ _ _).bind fun r => ?_
    cases r <;> first | exact done_pure (.ok _) | exact done_pure (.err (by simp [raisePlain]))
  | cond i t e =>
    simp only [prog, condP]
    cases i with
    | none => exact done_pure (.ok _)
    | some i =>
      refine (Prog.Pure.tryAsk _ _ _).bind fun r => ?_
      cases r with
      | none => cases t <;> first | exact done_pure (.ok _) | exact Prog.Pure.ask _ _ _
      | some _ => cases e <;> first | exact done_pure (.err (by simp)) | exact Prog.Pure.ask _ _ _
  | type ts => refine done_pure (?_ : NoParse (run _ w f _ v ctx)); simp only [run, runType]; snd
  | enum vals => refine done_pure (?_ : NoParse (run _ w f _ v ctx)); simp only [run, runEnum]; have := enumLoop_sound v ctx vals; have := enumIn_sound v vals; snd
  | const n => refine done_pure (?_ : NoParse (run _ w f _ v ctx)); simp only [run, runConst]; have := rawEqVal_sound n v; snd
  | maximum m e =>
    refine done_pure (?_ : NoParse (run _ w f _ v ctx)); simp only [run, runMaximum]
    repeat' first | exact lt_sound _ _ | exact le_sound _ _ | exact NoParse.ok _ | exact NoParse.err (raiseErr_sound _ _ _) | (refine NoParse.err ?_; simp; done) | (refine NoParse.bind ?_ fun _ => ?_) | split
  | minimum m e =>
    refine done_pure (?_ : NoParse (run _ w f _ v ctx)); simp only [run, runMinimum]
    repeat' first | exact lt_sound _ _ | exact le_sound _ _ | exact NoParse.ok _ | exact NoParse.err (raiseErr_sound _ _ _) | (refine NoParse.err ?_; simp; done) | (refine NoParse.bind ?_ fun _ => ?_) | split
  | multipleOf m =>
    refine done_pure (?_ : NoParse (run _ w f _ v ctx)); simp only [run, runMultipleOf]
    refine NoParse.bind (toDecimal_sound w v) fun d => NoParse.bind (rem_sound d m) fun _ => ?_
    snd
  | held h =>
    refine done_pure (?_ : NoParse (run _ w f _ v ctx))
    have ho : NoParse (Operand.val v).num := by cases v <;> simp [Operand.num, NoParse]
    cases h with
    | maximum m e =>
      refine NoParse.bind ?_ fun _ => by snd
      split <;> exact ho.bind fun _ => by first | exact le_sound _ _ | exact lt_sound _ _
    | minimum m e =>
      refine NoParse.bind ?_ fun _ => by snd
      split <;> exact ho.bind fun _ => by first | exact le_sound _ _ | exact lt_sound _ _
    | multipleOf => exact (toDecimal_sound w v).bind fun _ => .err (by simp)
    | const n => simp only [run, runHeld]; have := nodeEqVal_sound n v; snd
  | minLength n => refine done_pure (?_ : NoParse (run _ w f _ v ctx)); simp only [run, runMinLen]; have := pyLen_sound v; snd
  | maxLength n => refine done_pure (?_ : NoParse (run _ w f _ v ctx)); simp only [run, runMaxLen]; have := pyLen_sound v; snd
  | minItems n => refine done_pure (?_ : NoParse (run _ w f _ v ctx)); simp only [run, runMinLen]; have := pyLen_sound v; snd
  | maxItems n => refine done_pure (?_ : NoParse (run _ w f _ v ctx)); simp only [run, runMaxLen]; have := pyLen_sound v; snd
  | minProperties n => refine done_pure (?_ : NoParse (run _ w f _ v ctx)); simp only [run, runMinProps]; have := pyLen_sound v; snd
  | maxProperties n => refine done_pure (?_ : NoParse (run _ w f _ v ctx)); simp only [run, runMaxProps]; have := pyLen_sound v; snd
  | uniqueItems => refine done_pure (?_ : NoParse (run _ w f _ v ctx)); simp only [run]; exact NoParse.bind (pyIter_sound v) fun xs => uniqueLoop_sound _ _ _ _
  | required ks => exact done_pure <| runRequired_sound _ _ _
  | dependentRequired m => refine done_pure (?_ : NoParse (run _ w f _ v ctx)); simp only [run]; split; exact depRequiredLoop_sound _ _ _; exact .ok _
  | format n =>
    refine done_pure (?_ : NoParse (run _ w f _ v ctx)); simp only [run, runFormat]
    split
    · exact .err (by simp)
    · rename_i c hc
      exact NoParse.bind (hw n c v hc) fun _ => by snd
  | pattern p => refine done_pure (?_ : NoParse (run _ w f _ v ctx)); simp only [run, runPattern]; snd

theorem progAll_pure {w : World} (hw : FormatsSound w) (f : Nat) (v : Val) (ctx : Ctx) (d : List (Str × V α)) : (progAll w f v ctx d).Pure := by
  induction d with
  | nil => exact done_pure (.ok _)
  | cons p d ih => exact (prog_pure hw f p.2 v ctx).bind fun _ => ih

end

/-! ## Reading a schema object -/

theorem intInArr_sound (i : Int) (xs : List Node) : NoParse (intInArr i xs) := by
  induction xs with
  | nil => exact .ok _
  | cons x xs ih =>
    cases x <;> simp only [intInArr] <;> first | exact ih | (split <;> first | exact ih | exact .ok _) | exact .err (by simp)

theorem pyIndex_sound {β : Type} (xs : List β) (i : Int) : NoParse (pyIndex xs i) := by
  simp only [pyIndex]
  generalize (if i < 0 then i + (xs.length : Int) else i) = j
  snd

theorem queryStep_sound (n v : Node) (k : Str) : NoParse (queryStep n v k) := by
  unfold queryStep
  repeat' first
    | exact NoParse.ok _
    | (refine NoParse.err ?_; simp; done)
    | exact pyIndex_sound _ _
    | exact intInArr_sound _ _
    | (refine NoParse.bind ?_ fun _ => ?_)
    | split

theorem queryLoop_sound (vw : Node → Res Node) (hv : ∀ n, NoParse (vw n)) (ks : List Str) (n : Node) : NoParse (queryLoop vw n ks) := by
  induction ks generalizing n with
  | nil => exact .ok _
  | cons k ks ih => exact (hv n).bind fun a => (queryStep_sound _ _ _).bind fun b => ih b

theorem queryDoc_sound (vw : Node → Res Node) (hv : ∀ n, NoParse (vw n)) (d : Doc) (ks : List Str) : NoParse (queryDoc vw d ks) := by
  unfold queryDoc
  repeat' first | exact NoParse.ok _ | exact queryLoop_sound vw hv _ _ | split

theorem view_sound (docs : List Doc) (f : Nat) (n : Node) : NoParse (view docs f n) := by
  induction f generalizing n with
  | zero => exact .timeout
  | succ f ih =>
    rw [view.eq_def]
    split
    · exact .timeout
    · rename_i f' _ heq
      cases heq
      split
      · split
        · exact .err (by simp)
        · refine (queryDoc_sound _ (fun n => ih n) _ _).bind fun a => (ih a).bind fun b => ?_
          split <;> exact .ok _
      · exact .ok _

theorem iterRef_sound (xs rest : List Node) (i : Nat) : NoParse (iterRef xs i rest) := by
  induction rest generalizing i with
  | nil =>
    unfold iterRef
    refine (intInArr_sound _ _).bind fun b => ?_
    snd
  | cons x rest ih =>
    unfold iterRef
    refine (intInArr_sound _ _).bind fun b => ?_
    split
    · exact (ih _).bind fun _ => .ok _
    · exact .err (by simp)

theorem seqOf_sound (n : Node) (xs : List Node) : NoParse (seqOf n xs) := by
  unfold seqOf
  split
  · exact iterRef_sound _ _ _
  · exact .ok _

theorem strItems_sound (w : World) (n : Node) : NoParse (strItems w n) := by
  cases n <;> simp [strItems, NoParse]

theorem strItemsMap_sound (w : World) (m : List (Str × Node)) : NoParse (strItemsMap w m) := by
  induction m with
  | nil => exact .ok _
  | cons p m ih => exact (strItems_sound _ _).bind fun _ => ih.bind fun _ => .ok _

theorem getKey_sound (items : List (Str × Node)) (k : Str) : NoParse (getKey items k) := by
  unfold getKey; snd

theorem eqTrue_sound {vw : Node → Res Node} (hv : ∀ n, NoParse (vw n)) (n : Node) : NoParse (eqTrue vw n) := by
  refine (hv n).bind fun a => ?_
  cases a <;> exact .ok _

theorem view_plain_eq {docs : List Doc} {f : Nat} {n m : Node} (hr : ∀ o d p, n ≠ .ref o d p) (h : view docs f n = .ok m) : m = n := by
  cases f with
  | zero => cases h
  | succ f => rw [view_of_not_ref docs f n hr] at h; cases h; rfl

/-- If the computation raises `SchemaParseError`, then `P`. -/
def Blames {β : Type} (P : Prop) (x : Res β) : Prop := x = .err .schemaParse → P

theorem Blames.of {β : Type} {P : Prop} {x : Res β} (h : NoParse x) : Blames P x := fun e => absurd e h
theorem Blames.yes {β : Type} {P : Prop} {x : Res β} (h : P) : Blames P x := fun _ => h

theorem Blames.bindEq {β γ : Type} {P : Prop} {x : Res β} {f : β → Res γ} (h : Blames P x) (hf : ∀ a, x = .ok a → Blames P (f a)) :
    Blames P (x >>= f) := by
  cases x with
  | ok a => exact hf a rfl
  | err e => exact fun he => h (by simpa using he)
  | timeout => exact .of .timeout

section
variable (w : World) (docs : List Doc) (f : Nat) {α : Type} (mk : Node → α) (items : List (Str × Node))

theorem assertion_of_kinds {k : Kw} (h : valueKinds k ≠ []) : k.isAssertion = true := by
  cases k <;> simp [valueKinds] at h <;> rfl

/-- A value of the wrong kind. -/
theorem blame_kind {β : Type} (k : Kw) {n x : Node} {r : Res β} (ha : valueKinds k ≠ []) (hn : getKey items k.key = .ok n) (hx : view docs f n = .ok x)
    (hk : (∀ o d p, x ≠ .ref o d p) → x.kind ∉ valueKinds k) : Blames (Malformed w docs items k) r :=
  .yes (.kind (assertion_of_kinds ha) (getKey_some hn) ⟨f, hx⟩ (hk (Obj.view_not_ref hx)))

theorem subKey_blames (k : Kw) (hk : valueKinds k = [.object]) : Blames (Malformed w docs items k) (subKey (view docs f) mk items k.key) := by
  unfold subKey
  refine Blames.bindEq (.of (getKey_sound _ _)) fun n hn => Blames.bindEq (.of (view_sound _ _ _)) fun x hx => ?_
  split
  · exact .of (.ok _)
  · refine blame_kind w docs f items k (by rw [hk]; simp) hn hx fun hr => ?_
    rw [hk]
    cases x <;> simp_all [Node.kind]

theorem subMapKey_blames (k : Kw) (hk : valueKinds k = [.object]) : Blames (Malformed w docs items k) (subMapKey (view docs f) mk items k.key) := by
  unfold subMapKey
  refine Blames.bindEq (.of (getKey_sound _ _)) fun n hn => Blames.bindEq (.of (view_sound _ _ _)) fun x hx => ?_
  split
  · exact .of (.ok _)
  · refine blame_kind w docs f items k (by rw [hk]; simp) hn hx fun hr => ?_
    rw [hk]
    cases x <;> simp_all [Node.kind]

theorem subsKey_blames (k : Kw) (hk : valueKinds k = [.array]) : Blames (Malformed w docs items k) (subsKey (view docs f) mk items k.key) := by
  unfold subsKey
  refine Blames.bindEq (.of (getKey_sound _ _)) fun n hn => Blames.bindEq (.of (view_sound _ _ _)) fun x hx => ?_
  split
  · exact .of ((seqOf_sound _ _).bind fun _ => .ok _)
  · refine blame_kind w docs f items k (by rw [hk]; simp) hn hx fun hr => ?_
    rw [hk]
    cases x <;> simp_all [Node.kind]

theorem intKey_blames (k : Kw) (hk : valueKinds k = [.number]) : Blames (Malformed w docs items k) (intKey (view docs f) items k.key) := by
  unfold intKey
  refine Blames.bindEq (.of (getKey_sound _ _)) fun n hn => Blames.bindEq (.of (view_sound _ _ _)) fun x hx => ?_
  split
  · split
    · exact .of (.err (by simp))
    · exact .of (toInt_sound _)
  · refine blame_kind w docs f items k (by rw [hk]; simp) hn hx fun hr => ?_
    rw [hk]
    cases x <;> simp_all [Node.kind]

theorem numKey_blames (k : Kw) (hk : valueKinds k = [.number]) : Blames (Malformed w docs items k) (numKey (view docs f) items k.key) := by
  unfold numKey
  refine Blames.bindEq (.of (getKey_sound _ _)) fun n hn => Blames.bindEq (.of (view_sound _ _ _)) fun x hx => ?_
  split
  · exact .of (.ok _)
  · refine blame_kind w docs f items k (by rw [hk]; simp) hn hx fun hr => ?_
    rw [hk]
    cases x <;> simp_all [Node.kind]

theorem intValueKey_blames {s : Str} (hc : dictHas c!"contains" items = true) (hs : s ∈ [c!"minContains", c!"maxContains"]) :
    Blames (Malformed w docs items .contains) (intValueKey (view docs f) items s) := by
  unfold intValueKey
  refine Blames.bindEq (.of (getKey_sound _ _)) fun n hn => Blames.bindEq (.of (view_sound _ _ _)) fun x hx => ?_
  split
  · split
    · exact .of (.err (by simp))
    · exact .of (toInt_sound _)
  · refine .yes (.count (dictHas_iff.1 hc) hs (getKey_some hn) ⟨f, hx⟩ ?_)
    cases x <;> simp_all [Node.kind]

/-- Reading a keyword raises `SchemaParseError` only if the object is malformed in it. -/
theorem readKw_blames (k : Kw) : Blames (Malformed w docs items k) (readKw w (view docs f) mk items k) := by
  have vs := fun n => view_sound docs f n
  have ok : ∀ {P : Prop} {β γ : Type} {x : Res β} {g : β → γ}, Blames P x → Blames P (x >>= fun a => .ok (g a)) :=
    fun h => h.bindEq fun _ _ => .of (.ok _)
  cases k with
  | type =>
    simp only [readKw]
    refine Blames.bindEq (.of (getKey_sound _ _)) fun n hn => Blames.bindEq (.of (vs _)) fun x hx => ?_
    have hg := getKey_some hn
    by_cases hr : n.isRef = true
    · split
      · rename_i s
        exact .yes (.named (.inl rfl) hg hr ⟨f, hx⟩)
      · rename_i xs
        rcases seqOf_cases n xs with ⟨_, hn⟩ | ⟨_, hn, _⟩
        · rw [hr] at hn; cases hn
        · refine .of ?_
          have := seqOf_sound n xs
          cases hs : seqOf n xs with
          | ok ys => cases n <;> simp_all [seqOf]
          | err e => rw [hs] at this; exact .err fun he => this (by rw [he])
          | timeout => exact .timeout
      · refine blame_kind w docs f items .type (by simp [valueKinds]) hn hx fun hr => ?_
        cases x <;> simp_all [Node.kind, valueKinds]
    have hx' : x = n := view_plain_eq (by intro o d p e; subst e; simp [Node.isRef] at hr) hx
    subst hx'
    cases x with
    | str s =>
      simp only [Res.ok_bind]
      split
      · exact .of (.ok _)
      · rename_i hall
        exact .yes (.typeName hg (by simpa [nodeStr] using hall))
    | arr xs =>
      simp only [seqOf, Res.ok_bind]
      split
      · exact .of (.ok _)
      · rename_i hall
        refine .yes ?_
        simp only [List.all_map, Bool.not_eq_true, List.all_eq_false] at hall
        obtain ⟨y, hy, hyt⟩ := hall
        refine .typeNames hg hy fun s hs e => ?_
        subst e
        simp [nodeStr, hs] at hyt
    | ref o d p => exact absurd rfl hr
    | _ => exact blame_kind w docs f items .type (by simp [valueKinds]) hn hx fun _ => by simp [Node.kind, valueKinds]
  | enum =>
    simp only [readKw]
    refine Blames.bindEq (.of (getKey_sound _ _)) fun n hn => Blames.bindEq (.of (vs _)) fun x hx => ?_
    split
    · split
      · exact .of (.err (by simp))
      · exact .of (.ok _)
    · refine blame_kind w docs f items .enum (by simp [valueKinds]) hn hx fun hr => ?_
      cases x <;> simp_all [Node.kind, valueKinds]
  | exclusiveMaximum =>
    simp only [readKw]
    refine Blames.bindEq (.of (getKey_sound _ _)) fun n hn => Blames.bindEq (.of (vs _)) fun x hx => ?_
    split
    · split
      · exact .of (.ok _)
      · rename_i hm
        exact .yes (.maximum (getKey_some hn) ⟨f, hx⟩ (by simpa [dictHas] using hm))
    · exact .of (.ok _)
    · refine blame_kind w docs f items .exclusiveMaximum (by simp [valueKinds]) hn hx fun hr => ?_
      cases x <;> simp_all [Node.kind, valueKinds]
  | exclusiveMinimum =>
    simp only [readKw]
    refine Blames.bindEq (.of (getKey_sound _ _)) fun n hn => Blames.bindEq (.of (vs _)) fun x hx => ?_
    split
    · split
      · exact .of (.ok _)
      · rename_i hm
        exact .yes (.minimum (getKey_some hn) ⟨f, hx⟩ (by simpa [dictHas] using hm))
    · exact .of (.ok _)
    · refine blame_kind w docs f items .exclusiveMinimum (by simp [valueKinds]) hn hx fun hr => ?_
      cases x <;> simp_all [Node.kind, valueKinds]
  | maximum =>
    refine (numKey_blames w docs f items .maximum rfl).bindEq fun p _ => .of ?_
    obtain ⟨n, m⟩ := p
    simp only
    split
    · exact (eqTrue_sound vs _).bind fun _ => .ok _
    · exact .ok _
  | minimum =>
    refine (numKey_blames w docs f items .minimum rfl).bindEq fun p _ => .of ?_
    obtain ⟨n, m⟩ := p
    simp only
    split
    · exact (eqTrue_sound vs _).bind fun _ => .ok _
    · exact .ok _
  | multipleOf => exact (numKey_blames w docs f items .multipleOf rfl).bindEq fun p _ => .of (.ok _)
  | minLength => exact ok (intKey_blames w docs f items .minLength rfl)
  | maxLength => exact ok (intKey_blames w docs f items .maxLength rfl)
  | minItems => exact ok (intKey_blames w docs f items .minItems rfl)
  | maxItems => exact ok (intKey_blames w docs f items .maxItems rfl)
  | minProperties => exact ok (intKey_blames w docs f items .minProperties rfl)
  | maxProperties => exact ok (intKey_blames w docs f items .maxProperties rfl)
  | prefixItems => exact ok (subsKey_blames w docs f mk items .prefixItems rfl)
  | allOf => exact ok (subsKey_blames w docs f mk items .allOf rfl)
  | anyOf => exact ok (subsKey_blames w docs f mk items .anyOf rfl)
  | oneOf => exact ok (subsKey_blames w docs f mk items .oneOf rfl)
  | properties => exact ok (subMapKey_blames w docs f mk items .properties rfl)
  | patternProperties => exact ok (subMapKey_blames w docs f mk items .patternProperties rfl)
  | dependentSchemas => exact ok (subMapKey_blames w docs f mk items .dependentSchemas rfl)
  | propertyNames => exact ok (subKey_blames w docs f mk items .propertyNames rfl)
  | not => exact ok (subKey_blames w docs f mk items .not rfl)
  | «if» => exact ok (subKey_blames w docs f mk items .if rfl)
  | «then» => exact ok (subKey_blames w docs f mk items .then rfl)
  | «else» => exact ok (subKey_blames w docs f mk items .else rfl)
  | contains =>
    have hc' : ∀ {c : α}, subKey (view docs f) mk items c!"contains" = .ok c → dictHas c!"contains" items = true := fun h => by
      unfold subKey getKey at h
      cases hg : dictGet c!"contains" items with
      | none => rw [hg] at h; simp at h
      | some n => simp [dictHas, hg]
    have last : ∀ (c : α) (mn : Int), dictHas c!"contains" items = true → Blames (Malformed w docs items .contains) (if dictHas c!"maxContains" items then do
        let m ← intValueKey (view docs f) items c!"maxContains"
        let mx ← Res.ok (some m)
        Res.ok (Upd.set (V.contains c mn mx))
      else do
        let mx ← Res.ok none
        Res.ok (Upd.set (V.contains c mn mx))) := by
      intro c mn hc
      split
      · exact (intValueKey_blames w docs f items hc (by simp)).bindEq fun _ _ => .of (.ok _)
      · exact .of (.ok _)
    refine (subKey_blames w docs f mk items .contains rfl).bindEq fun c hsub => ?_
    simp only
    split
    · exact (intValueKey_blames w docs f items (hc' hsub) (by simp)).bindEq fun mn _ => last c mn (hc' hsub)
    · exact last c 1 (hc' hsub)
  | format =>
    simp only [readKw]
    refine Blames.bindEq (.of (getKey_sound _ _)) fun n hn => Blames.bindEq (.of (vs _)) fun x hx => ?_
    split
    · rename_i s
      split
      · rename_i hs
        refine .yes ?_
        by_cases hr : n.isRef = true
        · exact .named (.inr rfl) (getKey_some hn) hr ⟨f, hx⟩
        · have hx' := view_plain_eq (by intro o d p e; subst e; simp [Node.isRef] at hr) hx
          subst hx'
          exact .format (getKey_some hn) hs
      · exact .of (.ok _)
    · refine blame_kind w docs f items .format (by simp [valueKinds]) hn hx fun hr => ?_
      cases x <;> simp_all [Node.kind, valueKinds]
  | const =>
    simp only [readKw]
    refine Blames.bindEq (.of (getKey_sound _ _)) fun n hn => Blames.bindEq (.of (vs _)) fun x hx => ?_
    split
    · exact blame_kind w docs f items .const (by simp [valueKinds]) hn hx fun _ => by simp [Node.kind, valueKinds]
    · exact blame_kind w docs f items .const (by simp [valueKinds]) hn hx fun _ => by simp [Node.kind, valueKinds]
    · exact .of (.ok _)
  | dependentRequired =>
    simp only [readKw]
    refine Blames.bindEq (.of (getKey_sound _ _)) fun n hn => Blames.bindEq (.of (vs _)) fun x hx => ?_
    split
    · exact .of ((strItemsMap_sound _ _).bind fun _ => .ok _)
    · refine blame_kind w docs f items .dependentRequired (by simp [valueKinds]) hn hx fun hr => ?_
      cases x <;> simp_all [Node.kind, valueKinds]
  | required =>
    simp only [readKw]
    refine Blames.bindEq (.of (getKey_sound _ _)) fun n hn => Blames.bindEq (.of (vs _)) fun x hx => ?_
    split
    · exact .of ((seqOf_sound _ _).bind fun _ => .ok _)
    · refine blame_kind w docs f items .required (by simp [valueKinds]) hn hx fun hr => ?_
      cases x <;> simp_all [Node.kind, valueKinds]
  | items =>
    simp only [readKw]
    refine Blames.bindEq (.of (getKey_sound _ _)) fun n hn => Blames.bindEq (.of (vs _)) fun x hx => ?_
    split
    · refine .of ((seqOf_sound _ _).bind fun _ => ?_)
      split
      · exact .ok _
      · refine (vs _).bind fun _ => ?_
        split <;> exact .ok _
    · exact .of (.ok _)
    · exact .of (.ok _)
    · refine blame_kind w docs f items .items (by simp [valueKinds]) hn hx fun hr => ?_
      cases x <;> simp_all [Node.kind, valueKinds]
  | uniqueItems =>
    simp only [readKw]
    refine Blames.bindEq (.of (getKey_sound _ _)) fun n hn => Blames.bindEq (.of (vs _)) fun x hx => ?_
    split
    · split <;> exact .of (.ok _)
    · refine blame_kind w docs f items .uniqueItems (by simp [valueKinds]) hn hx fun hr => ?_
      cases x <;> simp_all [Node.kind, valueKinds]
  | additionalProperties =>
    simp only [readKw]
    refine Blames.bindEq (.of (getKey_sound _ _)) fun n hn => Blames.bindEq (.of (vs _)) fun x hx => ?_
    split
    · exact .of (.ok _)
    · exact .of (.ok _)
    · exact .of (.ok _)
    · refine blame_kind w docs f items .additionalProperties (by simp [valueKinds]) hn hx fun hr => ?_
      cases x with
      | bool b => cases b <;> simp_all
      | _ => simp_all [Node.kind, valueKinds]
  | unevaluatedProperties =>
    simp only [readKw]
    refine Blames.bindEq (.of (getKey_sound _ _)) fun n hn => Blames.bindEq (.of (vs _)) fun x hx => ?_
    split
    · exact .of (.ok _)
    · exact .of (.ok _)
    · refine blame_kind w docs f items .unevaluatedProperties (by simp [valueKinds]) hn hx fun hr => ?_
      cases x with
      | bool b => cases b <;> simp_all
      | _ => simp_all [Node.kind, valueKinds]
  | pattern =>
    simp only [readKw]
    refine Blames.bindEq (.of (getKey_sound _ _)) fun n hn => Blames.bindEq (.of (vs _)) fun x hx => ?_
    split
    · split
      · exact .of (.err (by simp))
      · exact .of (.ok _)
    · refine blame_kind w docs f items .pattern (by simp [valueKinds]) hn hx fun hr => ?_
      cases x <;> simp_all [Node.kind, valueKinds]
  | ref => exact .of (.ok _)
  | anchor => exact .of (.ok _)
  | id => exact .of (.ok _)

theorem Upd.apply_sound (key : Str) (d : Data α) (u : Upd α) : NoParse (u.apply key d) := by
  cases u <;> simp only [Upd.apply] <;> snd

theorem loadAll_blames (voc : List Kw) (d : Data α) :
    Blames (∃ k ∈ voc, Malformed w docs items k) (loadAll w (view docs f) mk items voc d).2 := by
  induction voc generalizing d with
  | nil => exact .of (.ok _)
  | cons k ks ih =>
    rw [loadAll]
    have rest : ∀ d', Blames (∃ k' ∈ k :: ks, Malformed w docs items k') (loadAll w (view docs f) mk items ks d').2 := fun d' he => by
      obtain ⟨k', hk', h⟩ := ih d' he
      exact ⟨k', by simp [hk'], h⟩
    split
    · have hb : Blames (Malformed w docs items k) (applyKw w (view docs f) mk items k d) := by
        rw [applyKw_eq]
        exact (readKw_blames w docs f mk items k).bindEq fun u _ => .of (u.apply_sound _ _)
      cases hr : applyKw w (view docs f) mk items k d with
      | ok d' => exact rest d'
      | err e => exact fun he => ⟨k, by simp, hb (by rw [hr]; simpa using he)⟩
      | timeout => exact .of .timeout
    · exact rest d

end

theorem keyInArr_sound (k : Str) (xs : List Node) : NoParse (keyInArr k xs) := by
  induction xs with
  | nil => exact .ok _
  | cons x xs ih =>
    cases x <;> simp only [keyInArr] <;> first | exact ih | (split <;> first | exact ih | exact .ok _) | exact .err (by simp)

theorem loadNonObject_sound (n : Node) (voc : List Kw) : NoParse (loadNonObject n voc) := by
  induction voc with
  | nil => exact .ok _
  | cons k ks ih =>
    unfold loadNonObject
    split
    · split
      · split
        · exact .err (by simp)
        · exact ih
      · refine (keyInArr_sound _ _).bind fun _ => ?_
        split
        · exact .err (by simp)
        · exact ih
      · exact .err (by simp)
    · exact ih

theorem belongs_trans {docs : List Doc} {a b c : Node} (h : Belongs docs a b) (h' : Belongs docs b c) : Belongs docs a c := by
  induction h' with
  | self => exact h
  | sub _ hm hs ih => exact .sub ih hm hs

/-- Validation raises `SchemaParseError` only if a schema that belongs to this one is malformed. -/
theorem validateN_blames {w : World} (hw : FormatsSound w) (docs : List Doc) (voc : List Kw) (f : Nat) (n : Node) (v : Val) (ctx : Ctx) :
    Blames (HasFault w docs voc n) (validateN w docs voc f n v ctx) := by
  by_cases hf : HasFault w docs voc n
  · exact .yes hf
  refine .of ?_
  induction f generalizing n v ctx with
  | zero => exact .timeout
  | succ f ih =>
    rw [validateN]
    cases hv : view docs f n with
    | err e => exact NoParse.err fun he => view_sound docs f n (by rw [hv, he])
    | timeout => exact .timeout
    | ok x =>
      simp only [Res.ok_bind]
      split
      · split
        · exact .ok _
        · exact .err (by simp [raisePlain])
      · rename_i items
        have hb := loadAll_blames w docs f (id : Node → Node) items voc []
        have ha := loadAll_all w (view docs f) (id : Node → Node) items (P := fun m => ¬ HasFault w docs voc m) (by
          rintro m ⟨k, hk⟩ ⟨m', its, k', h1, h2, h3, h4⟩
          exact hf ⟨m', its, k', belongs_trans (.sub .self hv hk) h1, h2, h3, h4⟩) voc [] (by intro p hp; simp at hp)
        cases hl : loadAll w (view docs f) (id : Node → Node) items voc [] with
        | mk d r =>
          rw [hl] at hb ha
          cases r with
          | ok u =>
            simp only
            rw [← interp_progAll]
            exact interp_sound (P := fun m => ¬ HasFault w docs voc m) (fun a v c h => ih a v c h) (progAll_pure hw f v ctx d) (progAll_uses w f v ctx d ha)
          | err e =>
            refine .err fun he => hf ?_
            obtain ⟨k, hk, hm⟩ := hb (by rw [he])
            exact ⟨n, items, k, .self, ⟨f, hv⟩, hk, hm⟩
          | timeout => exact .timeout
      · exact loadNonObject_sound _ _

end Verif
