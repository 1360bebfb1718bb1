import Verif.Proofs.Parse
import Verif.Spec.BadRegex
/-!
# Where `re.error` comes from: lemmas for C91

`NoRe r`: the computation `r` does not raise `re.error`.  A validator raises it only if it holds an expression that does not compile, and so does reading a keyword.
-/

namespace Verif
open Prog Spec

def NoRe {α : Type} (r : Res α) : Prop := r ≠ .err .reError

theorem NoRe.ok {α : Type} (a : α) : NoRe (Res.ok a) := by simp [NoRe]
theorem NoRe.timeout {α : Type} : NoRe (Res.timeout : Res α) := by simp [NoRe]
theorem NoRe.err {α : Type} {e : PyErr} (h : e ≠ .reError) : NoRe (Res.err e : Res α) := by simpa [NoRe] using h

theorem NoRe.bind {α β : Type} {x : Res α} {f : α → Res β} (h : NoRe x) (hf : ∀ a, NoRe (f a)) : NoRe (x >>= f) := by
  cases x with
  | ok a => exact hf a
  | err e => exact NoRe.err fun he => h (by rw [he])
  | timeout => exact .timeout

theorem fmtField_noRe (known : List Str) (name : Str) : fmtField known name ≠ some .reError := by
  unfold fmtField
  split
  · rename_i e he
    rcases fmtInt_errs he with rfl | rfl | rfl <;> simp
  · split <;> simp

theorem fmtGo_noRe (known : List Str) : ∀ (n : Nat) (s : Str) (o : Option Str), s.length ≤ n → fmtGo known o s ≠ some .reError
  | n, s, o, h => by
    induction n generalizing s o with
    | zero =>
      cases s with
      | nil => cases o <;> simp [fmtGo]
      | cons _ _ => simp at h
    | succ n ih =>
      rw [fmtGo.eq_def]
      split
      all_goals repeat' first
        | (simp; done)
        | exact fmtField_noRe _ _
        | (rcases fmtOdd_errs known _ _ with h | h | h | h <;> rw [h] <;> simp; done)
        | (refine ih _ _ ?_; simp at h ⊢; omega)
        | split
      rename_i he; rw [← he]; exact fmtField_noRe _ _

theorem raiseErr_noRe (c : ErrClass) (path detail : Str) : raiseErr c path detail ≠ .reError := by
  unfold raiseErr
  split
  · rename_i e he
    intro h
    exact fmtGo_noRe _ _ _ _ (Nat.le_refl _) (h ▸ he)
  · simp

theorem raiseTypeNoPath_noRe : raiseTypeNoPath ≠ .reError := by
  unfold raiseTypeNoPath
  split
  · rename_i e he
    intro h
    exact fmtGo_noRe _ _ _ _ (Nat.le_refl _) (h ▸ he)
  · simp

macro "nre" : tactic => `(tactic| repeat' first | exact NoRe.ok _ | exact NoRe.timeout | (refine NoRe.err ?_; simp; done) | exact NoRe.err (raiseErr_noRe _ _ _) | assumption | (refine NoRe.bind ?_ fun _ => ?_) | split)

mutual
theorem nodeEqVal_noRe : ∀ (n : Node) (v : Val), NoRe (nodeEqVal n v)
  | .null, v | .bool _, v | .num _, v | .str _, v | .ref .., v => by
    unfold nodeEqVal
    nre
  | .arr xs, v => by
    unfold nodeEqVal
    split
    · split
      · exact listEqVal_noRe _ _
      · exact .ok _
    · exact .ok _
  | .obj kvs, v => by
    unfold nodeEqVal
    split
    · split
      · exact dictEqVal_noRe _ _
      · exact .ok _
    · exact .ok _

theorem listEqVal_noRe : ∀ (xs : List Node) (ys : List Val), NoRe (listEqVal xs ys)
  | [], _ => .ok _
  | _ :: _, [] => .ok _
  | x :: xs, y :: ys => by
    unfold listEqVal
    refine NoRe.bind (nodeEqVal_noRe x y) fun a => ?_
    split
    · exact listEqVal_noRe xs ys
    · exact .ok _

theorem dictEqVal_noRe : ∀ (xs : List (Str × Node)) (ys : List (Str × Val)), NoRe (dictEqVal xs ys)
  | [], _ => .ok _
  | (k, x) :: xs, ys => by
    unfold dictEqVal
    split
    · exact .ok _
    · refine NoRe.bind (nodeEqVal_noRe x _) fun a => ?_
      split
      · exact dictEqVal_noRe xs ys
      · exact .ok _
end

theorem rawEqVal_noRe (n : Node) (v : Val) : NoRe (rawEqVal n v) := by
  unfold rawEqVal
  split <;> (try split) <;> first | exact NoRe.ok _ | exact nodeEqVal_noRe _ _

theorem lt_noRe (a b : Num) : NoRe (a.lt b) := by unfold Num.lt; nre
theorem le_noRe (a b : Num) : NoRe (a.le b) := by unfold Num.le; nre
theorem fix_noRe (q : Rat) : NoRe (Num.fix q) := by unfold Num.fix; simp only; nre
theorem rem_noRe (a b : Num) : NoRe (a.rem b) := by
  unfold Num.rem; simp only
  repeat' (first | exact NoRe.ok _ | (refine NoRe.err ?_; simp; done) | exact (fix_noRe _).bind fun _ => NoRe.ok _ | split)
theorem toInt_noRe (a : Num) : NoRe a.toInt := by unfold Num.toInt; nre
theorem pyLen_noRe (v : Val) : NoRe (pyLen v) := by unfold pyLen; nre
theorem pyIter_noRe (v : Val) : NoRe (pyIter v) := by unfold pyIter; nre
theorem pyIn_noRe (k : Str) (v : Val) : NoRe (pyIn k v) := by unfold pyIn; nre
theorem toDecimal_noRe (w : World) (v : Val) : NoRe (toDecimal w v) := by unfold toDecimal; nre

theorem enumLoop_noRe (v : Val) (ctx : Ctx) (xs : List Node) : NoRe (enumLoop v ctx xs) := by
  induction xs with
  | nil => exact .err (raiseErr_noRe _ _ _)
  | cons x xs ih => unfold enumLoop; have := rawEqVal_noRe x v; nre

theorem enumIn_noRe (v : Val) (xs : List Node) : NoRe (enumIn v xs) := by
  induction xs with
  | nil => exact .ok _
  | cons x xs ih => unfold enumIn; have := rawEqVal_noRe x v; nre

theorem uniqueLoop_noRe (ctx : Ctx) (seen : List Val) (i : Nat) (xs : List Val) : NoRe (uniqueLoop ctx seen i xs) := by
  induction xs generalizing seen i with
  | nil => exact .ok _
  | cons x xs ih =>
    unfold uniqueLoop
    split
    · exact .err (by simp)
    · split
      · exact .err (raiseErr_noRe _ _ _)
      · exact ih _ _

theorem runRequired_noRe (v : Val) (ctx : Ctx) (ks : List Str) : NoRe (runRequired v ctx ks) := by
  induction ks with
  | nil => exact .ok _
  | cons x xs ih => unfold runRequired; have := pyIn_noRe x v; nre

theorem depRequiredItems_noRe (kvs : List (Str × Val)) (ctx : Ctx) (ks : List Str) : NoRe (depRequiredItems kvs ctx ks) := by
  induction ks with
  | nil => exact .ok _
  | cons x xs ih => unfold depRequiredItems; nre

theorem depRequiredLoop_noRe (kvs : List (Str × Val)) (ctx : Ctx) (m : List (Str × List Str)) : NoRe (depRequiredLoop kvs ctx m) := by
  induction m with
  | nil => exact .ok _
  | cons x xs ih =>
    obtain ⟨k, is⟩ := x
    unfold depRequiredLoop
    have := depRequiredItems_noRe kvs ctx is
    nre

/-- No format check raises `re.error`. -/
def FormatsNoRe (w : World) : Prop := ∀ s check v, w.formats s = some check → NoRe (check v)

/-- A program that raises no `re.error` unless a call does. -/
def Prog.Quiet {α β : Type} : Prog α β → Prop
  | .done r => NoRe r
  | .call _ _ _ k => ∀ r, NoRe r → Quiet (k r)

section
variable {α β γ : Type}

theorem Prog.Quiet.bind {p : Prog α β} {g : β → Prog α γ} (hp : p.Quiet) (hg : ∀ b, (g b).Quiet) : (p.bind g).Quiet := by
  induction p with
  | done r =>
    cases r with
    | ok b => exact hg b
    | err e => exact NoRe.err fun he => hp (by rw [he])
    | timeout => exact NoRe.timeout
  | call a v c k ih => exact fun r hr => ih r (hp r hr)

theorem Prog.Quiet.ask (a : α) (v : Val) (c : Ctx) : (Prog.ask a v c).Quiet := fun _ h => h

theorem Prog.Quiet.tryAsk (a : α) (v : Val) (c : Ctx) : (Prog.tryAsk a v c).Quiet := by
  intro r h
  show NoRe (attempt r)
  unfold attempt
  split
  · exact .ok _
  · exact .ok _
  · exact .err fun he => h (by rw [he])
  · exact .timeout

/-- A pure program whose calls do not raise `re.error` does not either. -/
theorem interp_noRe {rec : α → Val → Ctx → Res Unit} {P : α → Prop} (h : ∀ a v c, P a → NoRe (rec a v c)) {p : Prog α β} (hp : p.Quiet)
    (hu : p.Uses P) : NoRe (interp rec p) := by
  induction p with
  | done r => exact hp
  | call a v c k ih =>
    have hs := h a v c hu.1
    by_cases ht : rec a v c = .timeout
    · rw [interp_call_timeout _ _ _ _ _ ht]; exact .timeout
    · rw [interp_call _ _ _ _ _ ht]; exact ih _ (hp _ hs) (hu.2 _)

theorem done_quiet {r : Res β} (h : NoRe r) : (Prog.done r : Prog α β).Quiet := h

theorem allOf_quiet (v : Val) (ctx : Ctx) (xs : List α) : (allOfP v ctx xs).Quiet := by
  induction xs with
  | nil => exact done_quiet (.ok _)
  | cons a as ih => exact (Prog.Quiet.ask _ _ _).bind fun _ => ih

theorem anyOf_quiet (v : Val) (ctx : Ctx) (l : Option VErr) (xs : List α) : (anyOfP v ctx l xs).Quiet := by
  induction xs generalizing l with
  | nil => cases l <;> exact done_quiet (.err (by simp))
  | cons a as ih =>
    refine (Prog.Quiet.tryAsk _ _ _).bind fun r => ?_
    cases r with
    | none => exact done_quiet (.ok _)
    | some e => exact ih _

theorem oneOf_quiet (v : Val) (ctx : Ctx) (n : Nat) (l : Option VErr) (xs : List α) : (oneOfP v ctx n l xs).Quiet := by
  induction xs generalizing n l with
  | nil => exact done_quiet (.ok _)
  | cons a as ih =>
    refine (Prog.Quiet.tryAsk _ _ _).bind fun r => ?_
    cases r <;> exact ih _ _

theorem contains_quiet (c : α) (n : Nat) (xs : List Val) : (containsP c n xs).Quiet := by
  induction xs generalizing n with
  | nil => exact done_quiet (.ok _)
  | cons x xs ih =>
    refine (Prog.Quiet.tryAsk _ _ _).bind fun r => ?_
    cases r <;> exact ih _

theorem spin_quiet (p : α) (ctx : Ctx) (f : Nat) : (spinP p ctx f).Quiet := by
  induction f with
  | zero => exact done_quiet .timeout
  | succ f ih =>
    intro r hr
    cases r with
    | ok _ => exact ih
    | err e => exact hr
    | timeout => exact hr

theorem items_quiet (it : α) (ctx : Ctx) (i : Nat) (xs : List Val) : (itemsP it ctx i xs).Quiet := by
  induction xs generalizing i with
  | nil => exact done_quiet (.ok _)
  | cons x xs ih => exact (Prog.Quiet.ask _ _ _).bind fun _ => ih _

theorem array_quiet (f : Nat) (items : Option α) (ctx : Ctx) (i : Nat) (ps : List α) (xs : List Val) : (arrayP f items ctx i ps xs).Quiet := by
  induction ps generalizing i xs with
  | nil =>
    cases items with
    | none => exact done_quiet (.ok _)
    | some it => exact items_quiet _ _ _ _
  | cons p ps ih =>
    cases xs with
    | nil => exact spin_quiet _ _ _
    | cons x xs => exact (Prog.Quiet.ask _ _ _).bind fun _ => ih _ _

/-- The validator holds no expression that does not compile. -/
def V.Compiles (w : World) : V α → Prop
  | .pattern p => w.search p ≠ none
  | .object o => ∀ ps, o.patterns = some ps → ∀ q ∈ ps, w.search q.1 ≠ none
  | _ => True

theorem pattern_quiet (w : World) (k : Str) (x : Val) (ctx : Ctx) (ev : Bool) (ps : List (Str × α)) (h : ∀ q ∈ ps, w.search q.1 ≠ none) :
    (patternP w k x ctx ev ps).Quiet := by
  induction ps generalizing ev with
  | nil => exact done_quiet (.ok _)
  | cons q ps ih =>
    obtain ⟨p, a⟩ := q
    simp only [patternP]
    have ih := fun ev => ih ev fun q hq => h q (by simp [hq])
    cases hs : w.search p with
    | none => exact absurd hs (h (p, a) (by simp))
    | some m =>
      simp only
      split
      · exact (Prog.Quiet.ask _ _ _).bind fun _ => ih _
      · exact ih _

theorem object_quiet (w : World) (o : ObjV α) (ho : (V.object o).Compiles w) (ctx : Ctx) (kvs : List (Str × Val)) : (objectP w o ctx kvs).Quiet := by
  induction kvs with
  | nil => exact done_quiet (.ok _)
  | cons p kvs ih =>
    refine Prog.Quiet.bind ?_ fun _ => ih
    unfold objectItemP
    refine Prog.Quiet.bind ?_ fun _ => ?_
    · cases o.names <;> first | exact done_quiet (.ok _) | exact Prog.Quiet.ask _ _ _
    · cases dictGet p.1 o.props with
      | some p => exact Prog.Quiet.ask _ _ _
      | none =>
        simp only
        refine Prog.Quiet.bind ?_ fun ev => ?_
        · cases hp : o.patterns with
          | none => exact done_quiet (.ok _)
          | some ps => exact pattern_quiet _ _ _ _ _ _ (ho ps hp)
        · split
          · exact done_quiet (.ok _)
          · cases o.additional with
            | none => refine done_quiet ?_; split <;> first | exact .ok _ | exact .err (by simp [raisePlain])
            | some s => cases s <;> first | exact done_quiet (.err (by simp [raisePlain])) | exact Prog.Quiet.ask _ _ _

theorem depSchemas_quiet (kvs : List (Str × Val)) (ctx : Ctx) (m : List (Str × α)) : (depSchemasP kvs ctx m).Quiet := by
  induction m with
  | nil => exact done_quiet (.ok _)
  | cons p m ih =>
    refine Prog.Quiet.bind ?_ fun _ => ih
    split
    · exact Prog.Quiet.ask _ _ _
    · exact done_quiet (.ok _)

theorem prog_quiet {w : World} (hw : FormatsNoRe w) (f : Nat) (x : V α) (hx : x.Compiles w) (v : Val) (ctx : Ctx) : (prog w f x v ctx).Quiet := by
  cases x with
  | contains c mn mx =>
    refine Prog.Quiet.bind (done_quiet (pyIter_noRe v)) fun xs => (contains_quiet _ _ _).bind fun n => done_quiet ?_
    nre
  | array p its =>
    cases v <;> simp only [prog, runArrayP] <;> first | exact done_quiet (.err raiseTypeNoPath_noRe) | exact array_quiet _ _ _ _ _ _
  | object o => cases v <;> simp only [prog] <;> first | exact done_quiet (.ok _) | exact object_quiet _ _ hx _ _
  | dependentSchemas m => cases v <;> simp only [prog] <;> first | exact done_quiet (.ok _) | exact depSchemas_quiet _ _ _
  | allOf xs => exact allOf_quiet _ _ _
  | anyOf xs => exact anyOf_quiet _ _ _ _
  | oneOf xs => refine (oneOf_quiet _ _ _ _ _).bind fun _ => done_quiet ?_; nre
  | not x =>
    refine (Prog.Quiet.tryAsk _ _ _).bind fun r => ?_
    cases r <;> first | exact done_quiet (.ok _) | exact done_quiet (.err (by simp [raisePlain]))
  | cond i t e =>
    simp only [prog, condP]
    cases i with
    | none => exact done_quiet (.ok _)
    | some i =>
      refine (Prog.Quiet.tryAsk _ _ _).bind fun r => ?_
      cases r with
      | none => cases t <;> first | exact done_quiet (.ok _) | exact Prog.Quiet.ask _ _ _
      | some _ => cases e <;> first | exact done_quiet (.err (by simp)) | exact Prog.Quiet.ask _ _ _
  | type ts => refine done_quiet (?_ : NoRe (run _ w f _ v ctx)); simp only [run, runType]; nre
  | enum vals => refine done_quiet (?_ : NoRe (run _ w f _ v ctx)); simp only [run, runEnum]; have := enumLoop_noRe v ctx vals; have := enumIn_noRe v vals; nre
  | const n => refine done_quiet (?_ : NoRe (run _ w f _ v ctx)); simp only [run, runConst]; have := rawEqVal_noRe n v; nre
  | maximum m e =>
    refine done_quiet (?_ : NoRe (run _ w f _ v ctx)); simp only [run, runMaximum]
    repeat' first | exact lt_noRe _ _ | exact le_noRe _ _ | exact NoRe.ok _ | exact NoRe.err (raiseErr_noRe _ _ _) | (refine NoRe.err ?_; simp; done) | (refine NoRe.bind ?_ fun _ => ?_) | split
  | minimum m e =>
    refine done_quiet (?_ : NoRe (run _ w f _ v ctx)); simp only [run, runMinimum]
    repeat' first | exact lt_noRe _ _ | exact le_noRe _ _ | exact NoRe.ok _ | exact NoRe.err (raiseErr_noRe _ _ _) | (refine NoRe.err ?_; simp; done) | (refine NoRe.bind ?_ fun _ => ?_) | split
  | multipleOf m =>
    refine done_quiet (?_ : NoRe (run _ w f _ v ctx)); simp only [run, runMultipleOf]
    refine NoRe.bind (toDecimal_noRe w v) fun d => NoRe.bind (rem_noRe d m) fun _ => ?_
    nre
  | held h =>
    refine done_quiet (?_ : NoRe (run _ w f _ v ctx))
    have ho : NoRe (Operand.val v).num := by cases v <;> simp [Operand.num, NoRe]
    cases h with
    | maximum m e =>
      refine NoRe.bind ?_ fun _ => by nre
      split <;> exact ho.bind fun _ => by first | exact le_noRe _ _ | exact lt_noRe _ _
    | minimum m e =>
      refine NoRe.bind ?_ fun _ => by nre
      split <;> exact ho.bind fun _ => by first | exact le_noRe _ _ | exact lt_noRe _ _
    | multipleOf => exact (toDecimal_noRe w v).bind fun _ => .err (by simp)
    | const n => simp only [run, runHeld]; have := nodeEqVal_noRe n v; nre
  | minLength n => refine done_quiet (?_ : NoRe (run _ w f _ v ctx)); simp only [run, runMinLen]; have := pyLen_noRe v; nre
  | maxLength n => refine done_quiet (?_ : NoRe (run _ w f _ v ctx)); simp only [run, runMaxLen]; have := pyLen_noRe v; nre
  | minItems n => refine done_quiet (?_ : NoRe (run _ w f _ v ctx)); simp only [run, runMinLen]; have := pyLen_noRe v; nre
  | maxItems n => refine done_quiet (?_ : NoRe (run _ w f _ v ctx)); simp only [run, runMaxLen]; have := pyLen_noRe v; nre
  | minProperties n => refine done_quiet (?_ : NoRe (run _ w f _ v ctx)); simp only [run, runMinProps]; have := pyLen_noRe v; nre
  | maxProperties n => refine done_quiet (?_ : NoRe (run _ w f _ v ctx)); simp only [run, runMaxProps]; have := pyLen_noRe v; nre
  | uniqueItems => refine done_quiet (?_ : NoRe (run _ w f _ v ctx)); simp only [run]; exact NoRe.bind (pyIter_noRe v) fun xs => uniqueLoop_noRe _ _ _ _
  | required ks => exact done_quiet <| runRequired_noRe _ _ _
  | dependentRequired m => refine done_quiet (?_ : NoRe (run _ w f _ v ctx)); simp only [run]; split; exact depRequiredLoop_noRe _ _ _; exact .ok _
  | format n =>
    refine done_quiet (?_ : NoRe (run _ w f _ v ctx)); simp only [run, runFormat]
    split
    · exact .err (by simp)
    · rename_i c hc
      exact NoRe.bind (hw n c v hc) fun _ => by nre
  | pattern p =>
    refine done_quiet (?_ : NoRe (run _ w f _ v ctx)); simp only [run, runPattern]
    split
    · split
      · rename_i hp; exact absurd hp hx
      · nre
    · exact .err (by simp)

theorem progAll_quiet {w : World} (hw : FormatsNoRe w) (f : Nat) (v : Val) (ctx : Ctx) (d : List (Str × V α))
    (hd : ∀ p ∈ d, p.2.Compiles w) : (progAll w f v ctx d).Quiet := by
  induction d with
  | nil => exact done_quiet (.ok _)
  | cons p d ih => exact (prog_quiet hw f p.2 (hd p (by simp)) v ctx).bind fun _ => ih fun q hq => hd q (by simp [hq])

end

/-! ## Reading a schema object -/

theorem intInArr_noRe (i : Int) (xs : List Node) : NoRe (intInArr i xs) := by
  induction xs with
  | nil => exact .ok _
  | cons x xs ih =>
    cases x <;> simp only [intInArr] <;> first | exact ih | (split <;> first | exact ih | exact .ok _) | exact .err (by simp)

theorem pyIndex_noRe {β : Type} (xs : List β) (i : Int) : NoRe (pyIndex xs i) := by
  simp only [pyIndex]
  generalize (if i < 0 then i + (xs.length : Int) else i) = j
  nre

theorem queryStep_noRe (n v : Node) (k : Str) : NoRe (queryStep n v k) := by
  unfold queryStep
  repeat' first
    | exact NoRe.ok _
    | (refine NoRe.err ?_; simp; done)
    | exact pyIndex_noRe _ _
    | exact intInArr_noRe _ _
    | (refine NoRe.bind ?_ fun _ => ?_)
    | split

theorem queryLoop_noRe (vw : Node → Res Node) (hv : ∀ n, NoRe (vw n)) (ks : List Str) (n : Node) : NoRe (queryLoop vw n ks) := by
  induction ks generalizing n with
  | nil => exact .ok _
  | cons k ks ih => exact (hv n).bind fun a => (queryStep_noRe _ _ _).bind fun b => ih b

theorem queryDoc_noRe (vw : Node → Res Node) (hv : ∀ n, NoRe (vw n)) (d : Doc) (ks : List Str) : NoRe (queryDoc vw d ks) := by
  unfold queryDoc
  repeat' first | exact NoRe.ok _ | exact queryLoop_noRe vw hv _ _ | split

theorem view_noRe (docs : List Doc) (f : Nat) (n : Node) : NoRe (view docs f n) := by
  induction f generalizing n with
  | zero => exact .timeout
  | succ f ih =>
    rw [view.eq_def]
    split
    · exact .timeout
    · rename_i f' _ heq
      cases heq
      split
      · split
        · exact .err (by simp)
        · refine (queryDoc_noRe _ (fun n => ih n) _ _).bind fun a => (ih a).bind fun b => ?_
          split <;> exact .ok _
      · exact .ok _

theorem iterRef_noRe (xs rest : List Node) (i : Nat) : NoRe (iterRef xs i rest) := by
  induction rest generalizing i with
  | nil =>
    unfold iterRef
    refine (intInArr_noRe _ _).bind fun b => ?_
    nre
  | cons x rest ih =>
    unfold iterRef
    refine (intInArr_noRe _ _).bind fun b => ?_
    split
    · exact (ih _).bind fun _ => .ok _
    · exact .err (by simp)

theorem seqOf_noRe (n : Node) (xs : List Node) : NoRe (seqOf n xs) := by
  unfold seqOf
  split
  · exact iterRef_noRe _ _ _
  · exact .ok _

theorem strItems_noRe (w : World) (n : Node) : NoRe (strItems w n) := by
  cases n <;> simp [strItems, NoRe]

theorem strItemsMap_noRe (w : World) (m : List (Str × Node)) : NoRe (strItemsMap w m) := by
  induction m with
  | nil => exact .ok _
  | cons p m ih => exact (strItems_noRe _ _).bind fun _ => ih.bind fun _ => .ok _

theorem getKey_noRe (items : List (Str × Node)) (k : Str) : NoRe (getKey items k) := by
  unfold getKey; nre

theorem eqTrue_noRe {vw : Node → Res Node} (hv : ∀ n, NoRe (vw n)) (n : Node) : NoRe (eqTrue vw n) := by
  refine (hv n).bind fun a => ?_
  cases a <;> exact .ok _


section
variable (w : World) (docs : List Doc) (f : Nat) {α : Type} (mk : Node → α) (items : List (Str × Node))

theorem subKey_noRe (k : Str) : NoRe (subKey (view docs f) mk items k) := by
  unfold subKey
  refine (getKey_noRe _ _).bind fun n => (view_noRe _ _ _).bind fun x => ?_
  nre

theorem subMapKey_noRe (k : Str) : NoRe (subMapKey (view docs f) mk items k) := by
  unfold subMapKey
  refine (getKey_noRe _ _).bind fun n => (view_noRe _ _ _).bind fun x => ?_
  nre

theorem subsKey_noRe (k : Str) : NoRe (subsKey (view docs f) mk items k) := by
  unfold subsKey
  refine (getKey_noRe _ _).bind fun n => (view_noRe _ _ _).bind fun x => ?_
  split
  · exact (seqOf_noRe _ _).bind fun _ => .ok _
  · exact .err (by simp)

theorem intKey_noRe (k : Str) : NoRe (intKey (view docs f) items k) := by
  unfold intKey
  refine (getKey_noRe _ _).bind fun n => (view_noRe _ _ _).bind fun x => ?_
  split
  · split
    · exact .err (by simp)
    · exact toInt_noRe _
  · exact .err (by simp)

theorem numKey_noRe (k : Str) : NoRe (numKey (view docs f) items k) := by
  unfold numKey
  refine (getKey_noRe _ _).bind fun n => (view_noRe _ _ _).bind fun x => ?_
  nre

theorem intValueKey_noRe (k : Str) : NoRe (intValueKey (view docs f) items k) := by
  unfold intValueKey
  refine (getKey_noRe _ _).bind fun n => (view_noRe _ _ _).bind fun x => ?_
  split
  · split
    · exact .err (by simp)
    · exact toInt_noRe _
  · exact .err (by simp)

/-- Reading a keyword other than `pattern` never raises `re.error`. -/
theorem readKw_noRe (k : Kw) (hk : k ≠ .pattern) : NoRe (readKw w (view docs f) mk items k) := by
  have vs := fun n => view_noRe docs f n
  cases k with
  | pattern => exact absurd rfl hk
  | _ =>
    simp only [readKw]
    repeat' first
      | exact NoRe.ok _
      | exact subKey_noRe _ _ _ _ _
      | exact subMapKey_noRe _ _ _ _ _
      | exact subsKey_noRe _ _ _ _ _
      | exact intKey_noRe _ _ _ _
      | exact numKey_noRe _ _ _ _
      | exact intValueKey_noRe _ _ _ _
      | exact getKey_noRe _ _
      | exact vs _
      | exact seqOf_noRe _ _
      | exact strItemsMap_noRe _ _
      | exact eqTrue_noRe vs _
      | (refine NoRe.err ?_; simp; done)
      | (refine NoRe.bind ?_ fun _ => ?_)
      | split

/-- Reading a keyword raises `re.error` only if the object holds a bad expression. -/
theorem readKw_blamesRe (k : Kw) (h : readKw w (view docs f) mk items k = .err .reError) : BadRegex w docs items k := by
  by_cases hk : k = .pattern
  · subst hk
    simp only [readKw] at h
    cases hn : getKey items c!"pattern" with
    | err e => rw [hn] at h; exact absurd (by rw [hn]; simpa using h) (getKey_noRe items c!"pattern")
    | timeout => rw [hn] at h; simp at h
    | ok n =>
      rw [hn, Res.ok_bind] at h
      cases hv : view docs f n with
      | err e => rw [hv] at h; exact absurd (by rw [hv]; simpa using h) (view_noRe docs f n)
      | timeout => rw [hv] at h; simp at h
      | ok x =>
        rw [hv, Res.ok_bind] at h
        cases x with
        | str s =>
          refine .pattern (getKey_some hn) ⟨f, hv⟩ ?_
          by_cases hr : n.isRef = true
          · exact .inr hr
          · have hx := view_plain_eq (by intro o d p e; subst e; simp [Node.isRef] at hr) hv
            subst hx
            refine .inl ?_
            simp only [nodeStr] at h
            split at h
            · assumption
            · cases h
        | _ => cases h
  · exact absurd h (readKw_noRe w docs f mk items k hk)

/-- The change brings in no expression that does not compile. -/
def Upd.Compiles : Upd α → Prop
  | .set x => x.Compiles w
  | .patterns ps => ∀ q ∈ ps, w.search q.1 ≠ none
  | _ => True

/-- All validators of the dictionary. -/
def CompilesAll (d : Data α) : Prop := ∀ p ∈ d, p.2.Compiles w

theorem CompilesAll.set {d : Data α} (hd : CompilesAll w d) {k : Str} {x : V α} (hx : x.Compiles w) : CompilesAll w (dictSet k x d) := by
  intro p hp
  rcases mem_dictSet hp with rfl | hp
  · exact hx
  · exact hd p hp

theorem objOf_compiles {d : Data α} (hd : CompilesAll w d) : (V.object (objOf d)).Compiles w := by
  unfold objOf
  split
  · rename_i o h; exact hd _ (dictGet_mem h)
  · simp [V.Compiles]

theorem Upd.apply_compiles {d d' : Data α} (hd : CompilesAll w d) {u : Upd α} (hu : u.Compiles w) {k : Str} (h : u.apply k d = .ok d') :
    CompilesAll w d' := by
  have ho := objOf_compiles w hd
  cases u with
  | pre xs =>
    simp only [Upd.apply] at h
    split at h
    · split at h
      · cases h; exact hd.set w trivial
      · cases h
    · cases h; exact hd.set w trivial
  | nop => cases h; exact hd
  | set x => cases h; exact hd.set w hu
  | patterns kvs =>
    cases h
    refine hd.set w ?_
    intro ps hp
    cases hp
    exact hu
  | props _ | additional _ | unevaluated _ | names _ => cases h; exact hd.set w ho
  | _ => cases h; exact hd.set w trivial

theorem Upd.apply_noRe (key : Str) (d : Data α) (u : Upd α) : NoRe (u.apply key d) := by
  cases u <;> simp only [Upd.apply] <;> nre

/-- What the computation answers has the property. -/
def Gives {β : Type} (P : β → Prop) (x : Res β) : Prop := ∀ a, x = .ok a → P a

theorem Gives.ok {β : Type} {P : β → Prop} {a : β} (h : P a) : Gives P (.ok a) := fun _ e => by cases e; exact h
theorem Gives.err {β : Type} {P : β → Prop} {e : PyErr} : Gives P (.err e) := fun _ h => by cases h
theorem Gives.bind {β γ : Type} {P : γ → Prop} {x : Res β} {g : β → Res γ} (h : ∀ a, x = .ok a → Gives P (g a)) : Gives P (x >>= g) := by
  cases x with
  | ok a => exact h a rfl
  | err e => exact Gives.err
  | timeout => exact fun _ h => by cases h

theorem readKw_compiles (k : Kw) (hb : ¬ BadRegex w docs items k) : Gives (·.Compiles w) (readKw w (view docs f) mk items k) := by
  have held : ∀ (c : Bool) (a b : V α), a.Compiles w → b.Compiles w → (if c = true then a else b).Compiles w := fun c a b ha hb => by cases c <;> simp [ha, hb]
  cases k with
  | pattern =>
    simp only [readKw]
    refine Gives.bind fun n hn => Gives.bind fun x hv => ?_
    split
    · split
      · exact Gives.err
      · rename_i hs
        refine Gives.ok ?_
        simp [Upd.Compiles, V.Compiles, hs]
    · exact Gives.err
  | patternProperties =>
    simp only [readKw]
    refine Gives.bind fun kvs hk => Gives.ok fun q hq hs => hb ?_
    unfold subMapKey at hk
    cases hn : getKey items c!"patternProperties" with
    | err e => rw [hn] at hk; cases hk
    | timeout => rw [hn] at hk; cases hk
    | ok n =>
      rw [hn, Res.ok_bind] at hk
      cases hv : view docs f n with
      | err e => rw [hv] at hk; cases hk
      | timeout => rw [hv] at hk; cases hk
      | ok x =>
        rw [hv, Res.ok_bind] at hk
        cases x with
        | obj m =>
          cases hk
          obtain ⟨r, hr, rfl⟩ := List.mem_map.1 hq
          exact .key (getKey_some hn) ⟨f, hv⟩ (List.mem_map.2 ⟨r, hr, rfl⟩) hs
        | _ => cases hk
  | _ =>
    simp only [readKw]
    repeat' first
      | exact Gives.ok trivial
      | exact Gives.err
      | (refine Gives.ok (held _ _ _ ?_ ?_) <;> trivial)
      | (refine Gives.bind fun _ _ => ?_)
      | (unfold maxV minV; exact Gives.ok (held _ _ _ trivial trivial))
      | split

theorem loadAll_blamesRe (voc : List Kw) (d : Data α) (h : (loadAll w (view docs f) mk items voc d).2 = .err .reError) :
    ∃ k ∈ voc, BadRegex w docs items k := by
  induction voc generalizing d with
  | nil => cases h
  | cons k ks ih =>
    rw [loadAll] at h
    have rest : ∀ d', (loadAll w (view docs f) mk items ks d').2 = .err .reError → ∃ k' ∈ k :: ks, BadRegex w docs items k' := fun d' he => by
      obtain ⟨k', hk', h⟩ := ih d' he
      exact ⟨k', by simp [hk'], h⟩
    split at h
    · cases hr : applyKw w (view docs f) mk items k d with
      | ok d' => rw [hr] at h; exact rest d' h
      | err e =>
        rw [hr] at h
        refine ⟨k, by simp, ?_⟩
        rw [applyKw_eq] at hr
        cases hk : readKw w (view docs f) mk items k with
        | ok u => rw [hk, Res.ok_bind] at hr; exact absurd (by rw [hr]; simpa using h) (u.apply_noRe k.key d)
        | err e' => rw [hk] at hr; exact readKw_blamesRe w docs f mk items k (by rw [hk]; simp at hr h ⊢; rw [hr, h])
        | timeout => rw [hk] at hr; simp at hr
      | timeout => rw [hr] at h; cases h
    · exact rest d h

theorem loadAll_compiles (voc : List Kw) (hb : ∀ k ∈ voc, ¬ BadRegex w docs items k) (d : Data α) (hd : CompilesAll w d) :
    CompilesAll w (loadAll w (view docs f) mk items voc d).1 := by
  induction voc generalizing d with
  | nil => exact hd
  | cons k ks ih =>
    have ih := ih fun k hk => hb k (by simp [hk])
    rw [loadAll]
    split
    · rw [applyKw_eq]
      cases hr : readKw w (view docs f) mk items k with
      | ok u =>
        simp only [Res.ok_bind]
        cases ha : u.apply k.key d with
        | ok d' => exact ih d' (Upd.apply_compiles w hd (readKw_compiles w docs f mk items k (hb k (by simp)) u hr) ha)
        | err e => exact hd
        | timeout => exact hd
      | err e => exact hd
      | timeout => exact hd
    · exact ih d hd

end

theorem keyInArr_noRe (k : Str) (xs : List Node) : NoRe (keyInArr k xs) := by
  induction xs with
  | nil => exact .ok _
  | cons x xs ih =>
    cases x <;> simp only [keyInArr] <;> first | exact ih | (split <;> first | exact ih | exact .ok _) | exact .err (by simp)

theorem loadNonObject_noRe (n : Node) (voc : List Kw) : NoRe (loadNonObject n voc) := by
  induction voc with
  | nil => exact .ok _
  | cons k ks ih =>
    unfold loadNonObject
    split
    · split
      · split
        · exact .err (by simp)
        · exact ih
      · refine (keyInArr_noRe _ _).bind fun _ => ?_
        split
        · exact .err (by simp)
        · exact ih
      · exact .err (by simp)
    · exact ih

/-- Validation raises `re.error` only if a schema that belongs to this one holds a bad expression. -/
theorem validateN_noRe {w : World} (hw : FormatsNoRe w) (docs : List Doc) (voc : List Kw) (f : Nat) (n : Node) (v : Val) (ctx : Ctx)
    (hf : ¬ HasBadRegex w docs voc n) : NoRe (validateN w docs voc f n v ctx) := by
  induction f generalizing n v ctx with
  | zero => exact .timeout
  | succ f ih =>
    rw [validateN]
    cases hv : view docs f n with
    | err e => exact NoRe.err fun he => view_noRe docs f n (by rw [hv, he])
    | timeout => exact .timeout
    | ok x =>
      simp only [Res.ok_bind]
      split
      · split
        · exact .ok _
        · exact .err (by simp [raisePlain])
      · rename_i items
        have hb := loadAll_blamesRe w docs f (id : Node → Node) items voc []
        have hg : ∀ k ∈ voc, ¬ BadRegex w docs items k := fun k hk h => hf ⟨n, items, k, .self, ⟨f, hv⟩, hk, h⟩
        have hc := loadAll_compiles w docs f (id : Node → Node) items voc hg [] (by intro p hp; simp at hp)
        have ha := loadAll_all w (view docs f) (id : Node → Node) items (P := fun m => ¬ HasBadRegex w docs voc m) (by
          rintro m ⟨k, hk⟩ ⟨m', its, k', h1, h2, h3, h4⟩
          exact hf ⟨m', its, k', belongs_trans (.sub .self hv hk) h1, h2, h3, h4⟩) voc [] (by intro p hp; simp at hp)
        cases hl : loadAll w (view docs f) (id : Node → Node) items voc [] with
        | mk d r =>
          rw [hl] at hb ha hc
          cases r with
          | ok u =>
            simp only
            rw [← interp_progAll]
            exact interp_noRe (P := fun m => ¬ HasBadRegex w docs voc m) (fun a v c h => ih a v c h) (progAll_quiet hw f v ctx d hc) (progAll_uses w f v ctx d ha)
          | err e =>
            refine .err fun he => ?_
            obtain ⟨k, hk, hm⟩ := hb (by rw [he])
            exact hg k hk hm
          | timeout => exact .timeout
      · exact loadNonObject_noRe _ _

end Verif
