import Verif.Proofs.Subs
import Verif.Proofs.Layer4
/-!
# Computations that end

`Finishes r`: the computation `r` does not run out of fuel.
-/

namespace Verif
open Prog

def Finishes {α : Type} (r : Res α) : Prop := r ≠ .timeout

theorem Finishes.ok {α : Type} (a : α) : Finishes (Res.ok a) := by simp [Finishes]
theorem Finishes.err {α : Type} (e : PyErr) : Finishes (Res.err e : Res α) := by simp [Finishes]

theorem Finishes.bindEq {α β : Type} {x : Res α} {f : α → Res β} (h : Finishes x) (hf : ∀ a, x = .ok a → Finishes (f a)) : Finishes (x >>= f) := by
  cases x with
  | ok a => exact hf a rfl
  | err e => exact Finishes.err e
  | timeout => exact absurd rfl h

theorem Finishes.bind {α β : Type} {x : Res α} {f : α → Res β} (h : Finishes x) (hf : ∀ a, Finishes (f a)) : Finishes (x >>= f) :=
  h.bindEq fun a _ => hf a

macro "fin" : tactic => `(tactic| repeat' first | exact Finishes.ok _ | exact Finishes.err _ | assumption | (refine Finishes.bind ?_ fun _ => ?_) | split)

mutual
theorem nodeEqVal_fin : ∀ (n : Node) (v : Val), Finishes (nodeEqVal n v)
  | .null, v | .bool _, v | .num _, v | .str _, v | .ref .., v => by
    unfold nodeEqVal
    fin
  | .arr xs, v => by
    unfold nodeEqVal
    split
    · split
      · exact listEqVal_fin _ _
      · exact .ok _
    · exact .ok _
  | .obj kvs, v => by
    unfold nodeEqVal
    split
    · split
      · exact dictEqVal_fin _ _
      · exact .ok _
    · exact .ok _

theorem listEqVal_fin : ∀ (xs : List Node) (ys : List Val), Finishes (listEqVal xs ys)
  | [], _ => .ok _
  | _ :: _, [] => .ok _
  | x :: xs, y :: ys => by
    unfold listEqVal
    refine Finishes.bind (nodeEqVal_fin x y) fun a => ?_
    split
    · exact listEqVal_fin xs ys
    · exact .ok _

theorem dictEqVal_fin : ∀ (xs : List (Str × Node)) (ys : List (Str × Val)), Finishes (dictEqVal xs ys)
  | [], _ => .ok _
  | (k, x) :: xs, ys => by
    unfold dictEqVal
    split
    · exact .ok _
    · refine Finishes.bind (nodeEqVal_fin x _) fun a => ?_
      split
      · exact dictEqVal_fin xs ys
      · exact .ok _
end

theorem rawEqVal_fin (n : Node) (v : Val) : Finishes (rawEqVal n v) := by
  unfold rawEqVal
  split <;> (try split) <;> first | exact Finishes.ok _ | exact nodeEqVal_fin _ _

theorem lt_fin (a b : Num) : Finishes (a.lt b) := by unfold Num.lt; fin
theorem le_fin (a b : Num) : Finishes (a.le b) := by unfold Num.le; fin
theorem fix_fin (q : Rat) : Finishes (Num.fix q) := by unfold Num.fix; simp only; fin
theorem rem_fin (a b : Num) : Finishes (a.rem b) := by
  unfold Num.rem; simp only
  repeat' (first | exact Finishes.ok _ | exact Finishes.err _ | exact (fix_fin _).bind fun _ => Finishes.ok _ | split)
theorem toInt_fin (a : Num) : Finishes a.toInt := by unfold Num.toInt; fin
theorem pyLen_fin (v : Val) : Finishes (pyLen v) := by unfold pyLen; fin
theorem pyIter_fin (v : Val) : Finishes (pyIter v) := by unfold pyIter; fin
theorem pyIn_fin (k : Str) (v : Val) : Finishes (pyIn k v) := by unfold pyIn; fin
theorem toDecimal_fin (w : World) (v : Val) : Finishes (toDecimal w v) := by unfold toDecimal; fin

theorem enumLoop_fin (v : Val) (ctx : Ctx) (xs : List Node) : Finishes (enumLoop v ctx xs) := by
  induction xs with
  | nil => exact .err _
  | cons x xs ih => unfold enumLoop; have := rawEqVal_fin x v; fin

theorem enumIn_fin (v : Val) (xs : List Node) : Finishes (enumIn v xs) := by
  induction xs with
  | nil => exact .ok _
  | cons x xs ih => unfold enumIn; have := rawEqVal_fin x v; fin

theorem uniqueLoop_fin (ctx : Ctx) (seen : List Val) (i : Nat) (xs : List Val) : Finishes (uniqueLoop ctx seen i xs) := by
  induction xs generalizing seen i with
  | nil => exact .ok _
  | cons x xs ih =>
    unfold uniqueLoop
    split
    · exact .err _
    · split
      · exact .err _
      · exact ih _ _

theorem runRequired_fin (v : Val) (ctx : Ctx) (ks : List Str) : Finishes (runRequired v ctx ks) := by
  induction ks with
  | nil => exact .ok _
  | cons x xs ih => unfold runRequired; have := pyIn_fin x v; fin

theorem depRequiredItems_fin (kvs : List (Str × Val)) (ctx : Ctx) (ks : List Str) : Finishes (depRequiredItems kvs ctx ks) := by
  induction ks with
  | nil => exact .ok _
  | cons x xs ih => unfold depRequiredItems; fin

theorem depRequiredLoop_fin (kvs : List (Str × Val)) (ctx : Ctx) (m : List (Str × List Str)) : Finishes (depRequiredLoop kvs ctx m) := by
  induction m with
  | nil => exact .ok _
  | cons x xs ih =>
    obtain ⟨k, is⟩ := x
    unfold depRequiredLoop
    have := depRequiredItems_fin kvs ctx is
    fin

/-- The format checks end. -/
def FormatsEnd (w : World) : Prop := ∀ s check v, w.formats s = some check → check v ≠ .timeout

variable {α : Type}

/-- A set of values closed under parts. -/
structure Parts (Q : Val → Prop) : Prop where
  str : ∀ s, Q (.str s)
  list : ∀ xs, Q (.list xs) → ∀ x ∈ xs, Q x
  dict : ∀ kvs, Q (.dict kvs) → ∀ p ∈ kvs, Q p.2

section
variable {P : α → Val → Prop}

theorem done_ends {β : Type} {r : Res β} (h : Finishes r) : (Prog.done r : Prog α β).Ends P := h

theorem allOf_ends (v : Val) (ctx : Ctx) (xs : List α) (h : ∀ a ∈ xs, P a v) : (allOfP v ctx xs).Ends P := by
  induction xs with
  | nil => exact done_ends (.ok _)
  | cons a as ih => exact (Ends.ask (h a (by simp)) _).bind fun _ => ih fun b hb => h b (by simp [hb])

theorem anyOf_ends (v : Val) (ctx : Ctx) (l : Option VErr) (xs : List α) (h : ∀ a ∈ xs, P a v) : (anyOfP v ctx l xs).Ends P := by
  induction xs generalizing l with
  | nil => cases l <;> exact done_ends (.err _)
  | cons a as ih =>
    refine (Ends.tryAsk (h a (by simp)) _).bind fun r => ?_
    cases r with
    | none => exact done_ends (.ok _)
    | some e => exact ih _ fun b hb => h b (by simp [hb])

theorem oneOf_ends (v : Val) (ctx : Ctx) (n : Nat) (l : Option VErr) (xs : List α) (h : ∀ a ∈ xs, P a v) : (oneOfP v ctx n l xs).Ends P := by
  induction xs generalizing n l with
  | nil => exact done_ends (.ok _)
  | cons a as ih =>
    refine (Ends.tryAsk (h a (by simp)) _).bind fun r => ?_
    cases r with
    | none => exact ih _ _ fun b hb => h b (by simp [hb])
    | some e => exact ih _ _ fun b hb => h b (by simp [hb])

theorem contains_ends (c : α) (n : Nat) (xs : List Val) (h : ∀ x ∈ xs, P c x) : (containsP c n xs).Ends P := by
  induction xs generalizing n with
  | nil => exact done_ends (.ok _)
  | cons x xs ih =>
    refine (Ends.tryAsk (h x (by simp)) _).bind fun r => ?_
    cases r with
    | none => exact ih _ fun y hy => h y (by simp [hy])
    | some e => exact ih _ fun y hy => h y (by simp [hy])

theorem items_ends (it : α) (ctx : Ctx) (i : Nat) (xs : List Val) (h : ∀ x ∈ xs, P it x) : (itemsP it ctx i xs).Ends P := by
  induction xs generalizing i with
  | nil => exact done_ends (.ok _)
  | cons x xs ih => exact (Ends.ask (h x (by simp)) _).bind fun _ => ih _ fun y hy => h y (by simp [hy])

theorem array_ends (f : Nat) (items : Option α) (ctx : Ctx) (i : Nat) (ps : List α) (xs : List Val) (h : ∀ a ∈ ps, ∀ x ∈ xs, P a x)
    (hi : ∀ a ∈ items, ∀ x ∈ xs, P a x) (hl : ps.length ≤ xs.length) : (arrayP f items ctx i ps xs).Ends P := by
  induction ps generalizing i xs with
  | nil =>
    cases items with
    | none => exact done_ends (.ok _)
    | some it => exact items_ends _ _ _ _ (hi it rfl)
  | cons p ps ih =>
    cases xs with
    | nil => simp at hl
    | cons x xs =>
      exact (Ends.ask (h p (by simp) x (by simp)) _).bind fun _ => ih _ _ (fun b hb y hy => h b (by simp [hb]) y (by simp [hy]))
        (fun b hb y hy => hi b hb y (by simp [hy])) (by simpa using hl)

theorem pattern_ends (w : World) (k : Str) (x : Val) (ctx : Ctx) (ev : Bool) (ps : List (Str × α)) (h : ∀ p ∈ ps, P p.2 x) :
    (patternP w k x ctx ev ps).Ends P := by
  induction ps generalizing ev with
  | nil => exact done_ends (.ok _)
  | cons q ps ih =>
    obtain ⟨p, a⟩ := q
    simp only [patternP]
    cases w.search p with
    | none => exact done_ends (.err _)
    | some m =>
      simp only
      split
      · exact (Ends.ask (h (p, a) (by simp)) _).bind fun _ => ih _ fun b hb => h b (by simp [hb])
      · exact ih _ fun b hb => h b (by simp [hb])

theorem objectItem_ends (w : World) (o : ObjV α) (k : Str) (x : Val) (ctx : Ctx) (h : ∀ a ∈ (V.object o).subs, P a x ∧ P a (.str k)) :
    (objectItemP w o k x ctx).Ends P := by
  unfold objectItemP
  refine Ends.bind ?_ fun _ => ?_
  · cases hn : o.names with
    | none => exact done_ends (.ok _)
    | some n => exact Ends.ask (h n (by simp [V.subs, hn])).2 _
  · cases hp : dictGet k o.props with
    | some p =>
      exact Ends.ask (h p (by simp only [V.subs, List.mem_append, List.mem_map]; exact .inl (.inl (.inl ⟨_, dictGet_mem hp, rfl⟩)))).1 _
    | none =>
      simp only
      refine Ends.bind ?_ fun ev => ?_
      · cases hs : o.patterns with
        | none => exact done_ends (.ok _)
        | some ps =>
          refine pattern_ends _ _ _ _ _ _ fun p hp => (h p.2 ?_).1
          simp only [V.subs, hs, Option.getD_some, List.mem_append, List.mem_map]
          exact .inl (.inl (.inr ⟨p, hp, rfl⟩))
      · split
        · exact done_ends (.ok _)
        · cases ha : o.additional with
          | none => exact done_ends (by fin)
          | some s =>
            cases s with
            | fail => exact done_ends (.err _)
            | lazy a => exact Ends.ask (h a (by simp [V.subs, ha])).1 _

theorem object_ends (w : World) (o : ObjV α) (ctx : Ctx) (kvs : List (Str × Val))
    (h : ∀ a ∈ (V.object o).subs, ∀ p ∈ kvs, P a p.2 ∧ P a (.str p.1)) : (objectP w o ctx kvs).Ends P := by
  induction kvs with
  | nil => exact done_ends (.ok _)
  | cons p kvs ih =>
    exact (objectItem_ends w o p.1 p.2 ctx fun a ha => h a ha p (by simp)).bind fun _ => ih fun a ha q hq => h a ha q (by simp [hq])

theorem depSchemas_ends (kvs : List (Str × Val)) (ctx : Ctx) (m : List (Str × α)) (h : ∀ p ∈ m, P p.2 (.dict kvs)) :
    (depSchemasP kvs ctx m).Ends P := by
  induction m with
  | nil => exact done_ends (.ok _)
  | cons p m ih =>
    refine Ends.bind ?_ fun _ => ih fun q hq => h q (by simp [hq])
    split
    · exact Ends.ask (h p (by simp)) _
    · exact done_ends (.ok _)

theorem pyIter_parts {Q : Val → Prop} (hQ : Parts Q) {v : Val} (hv : Q v) {xs : List Val} (h : pyIter v = .ok xs) : ∀ x ∈ xs, Q x := by
  cases v <;> simp only [pyIter] at h <;> cases h <;> intro x hx
  · obtain ⟨c, _, rfl⟩ := List.mem_map.1 hx; exact hQ.str _
  · exact hQ.list _ hv x hx
  · obtain ⟨c, _, rfl⟩ := List.mem_map.1 hx; exact hQ.str _

/-- How many elements a validator wants a list to have. -/
def V.wants : V α → Nat
  | .array p _ => (p.getD []).length
  | _ => 0

/-- A validator ends if its subschemas do on parts of the value, and a list is long enough for its prefix. -/
theorem prog_ends {w : World} (hw : FormatsEnd w) {Q : Val → Prop} (hQ : Parts Q) (f : Nat) (x : V α) (v : Val) (ctx : Ctx) (hv : Q v)
    (hs : ∀ a ∈ x.subs, ∀ u, Q u → P a u) (hl : ∀ xs, v = .list xs → x.wants ≤ xs.length) : (prog w f x v ctx).Ends P := by
  cases x with
  | contains c mn mx =>
    simp only [prog, runContainsP]
    cases e : pyIter v with
    | ok xs =>
      exact (contains_ends _ _ _ fun x hx => hs c (by simp [V.subs]) x (pyIter_parts hQ hv e x hx)).bind fun _ => done_ends (by fin)
    | err e => exact done_ends (.err _)
    | timeout => exact absurd e (pyIter_fin v)
  | array p its =>
    simp only [V.subs, List.mem_append, Option.mem_toList] at hs
    cases v <;> simp only [prog, runArrayP] <;> try exact done_ends (.err _)
    exact array_ends _ _ _ _ _ _ (fun a ha x hx => hs a (.inl ha) x (hQ.list _ hv x hx))
      (fun a ha x hx => hs a (.inr ha) x (hQ.list _ hv x hx)) (hl _ rfl)
  | object o =>
    cases v <;> simp only [prog] <;> try exact done_ends (.ok _)
    exact object_ends w o ctx _ fun a ha p hp => ⟨hs a ha _ (hQ.dict _ hv p hp), hs a ha _ (hQ.str _)⟩
  | dependentSchemas m =>
    cases v <;> simp only [prog] <;> try exact done_ends (.ok _)
    exact depSchemas_ends _ _ _ fun p hp => hs p.2 (by simp only [V.subs, List.mem_map]; exact ⟨p, hp, rfl⟩) _ hv
  | allOf xs => exact allOf_ends _ _ _ fun a ha => hs a ha _ hv
  | anyOf xs => exact anyOf_ends _ _ _ _ fun a ha => hs a ha _ hv
  | oneOf xs => exact (oneOf_ends _ _ _ _ _ fun a ha => hs a ha _ hv).bind fun _ => done_ends (by fin)
  | not x =>
    refine (Ends.tryAsk (hs x (by simp [V.subs]) _ hv) _).bind fun r => ?_
    cases r <;> exact done_ends (by fin)
  | cond i t e =>
    simp only [prog, condP]
    cases i with
    | none => exact done_ends (.ok _)
    | some i =>
      refine (Ends.tryAsk (hs i (by simp [V.subs]) _ hv) _).bind fun r => ?_
      cases r with
      | none =>
        cases t with
        | none => exact done_ends (.ok _)
        | some t => exact Ends.ask (hs t (by simp [V.subs]) _ hv) _
      | some _ =>
        cases e with
        | none => exact done_ends (.err _)
        | some e => exact Ends.ask (hs e (by simp [V.subs]) _ hv) _
  | type ts => refine done_ends (?_ : Finishes (run _ w f _ v ctx)); simp only [run, runType]; fin
  | enum vals => refine done_ends (?_ : Finishes (run _ w f _ v ctx)); simp only [run, runEnum]; have := enumLoop_fin v ctx vals; have := enumIn_fin v vals; fin
  | const n => refine done_ends (?_ : Finishes (run _ w f _ v ctx)); simp only [run, runConst]; have := rawEqVal_fin n v; fin
  | maximum m e =>
    refine done_ends (?_ : Finishes (run _ w f _ v ctx)); simp only [run, runMaximum]
    repeat' first | exact lt_fin _ _ | exact le_fin _ _ | exact Finishes.ok _ | exact Finishes.err _ | (refine Finishes.bind ?_ fun _ => ?_) | split
  | minimum m e =>
    refine done_ends (?_ : Finishes (run _ w f _ v ctx)); simp only [run, runMinimum]
    repeat' first | exact lt_fin _ _ | exact le_fin _ _ | exact Finishes.ok _ | exact Finishes.err _ | (refine Finishes.bind ?_ fun _ => ?_) | split
  | multipleOf m =>
    refine done_ends (?_ : Finishes (run _ w f _ v ctx)); simp only [run, runMultipleOf]
    refine Finishes.bind (toDecimal_fin w v) fun d => Finishes.bind (rem_fin d m) fun _ => ?_
    fin
  | held h =>
    refine done_ends (?_ : Finishes (run _ w f _ v ctx))
    have ho : Finishes (Operand.val v).num := by cases v <;> simp [Operand.num, Finishes]
    cases h with
    | maximum m e =>
      refine Finishes.bind ?_ fun _ => by fin
      split <;> exact ho.bind fun _ => by first | exact le_fin _ _ | exact lt_fin _ _
    | minimum m e =>
      refine Finishes.bind ?_ fun _ => by fin
      split <;> exact ho.bind fun _ => by first | exact le_fin _ _ | exact lt_fin _ _
    | multipleOf => exact (toDecimal_fin w v).bind fun _ => .err _
    | const n => simp only [run, runHeld]; have := nodeEqVal_fin n v; fin
  | minLength n => refine done_ends (?_ : Finishes (run _ w f _ v ctx)); simp only [run, runMinLen]; have := pyLen_fin v; fin
  | maxLength n => refine done_ends (?_ : Finishes (run _ w f _ v ctx)); simp only [run, runMaxLen]; have := pyLen_fin v; fin
  | minItems n => refine done_ends (?_ : Finishes (run _ w f _ v ctx)); simp only [run, runMinLen]; have := pyLen_fin v; fin
  | maxItems n => refine done_ends (?_ : Finishes (run _ w f _ v ctx)); simp only [run, runMaxLen]; have := pyLen_fin v; fin
  | minProperties n => refine done_ends (?_ : Finishes (run _ w f _ v ctx)); simp only [run, runMinProps]; have := pyLen_fin v; fin
  | maxProperties n => refine done_ends (?_ : Finishes (run _ w f _ v ctx)); simp only [run, runMaxProps]; have := pyLen_fin v; fin
  | uniqueItems => refine done_ends (?_ : Finishes (run _ w f _ v ctx)); simp only [run]; exact Finishes.bind (pyIter_fin v) fun xs => uniqueLoop_fin _ _ _ _
  | required ks => exact done_ends <| runRequired_fin _ _ _
  | dependentRequired m => refine done_ends (?_ : Finishes (run _ w f _ v ctx)); simp only [run]; split; exact depRequiredLoop_fin _ _ _; exact .ok _
  | format n =>
    refine done_ends (?_ : Finishes (run _ w f _ v ctx)); simp only [run, runFormat]
    split
    · exact .err _
    · rename_i c hc
      exact Finishes.bind (hw n c v hc) fun _ => by fin
  | pattern p => refine done_ends (?_ : Finishes (run _ w f _ v ctx)); simp only [run, runPattern]; fin

end

section
variable (w : World) {view : Node → Res Node} (mk : Node → α) {items : List (Str × Node)}
  (hv : ∀ k n, dictGet k items = some n → Finishes (view n))

theorem getKey_some {k : Str} {n : Node} (h : getKey items k = .ok n) : dictGet k items = some n := by
  unfold getKey at h
  split at h <;> simp_all

theorem getKey_fin (k : Str) : Finishes (getKey items k) := by unfold getKey; fin

theorem strItems_fin (n : Node) : Finishes (strItems w n) := by unfold strItems; fin

theorem strItemsMap_fin (m : List (Str × Node)) : Finishes (strItemsMap w m) := by
  induction m with
  | nil => exact .ok _
  | cons p m ih => exact (strItems_fin w _).bind fun _ => ih.bind fun _ => .ok _

theorem eqTrue_fin {n : Node} (h : Finishes (view n)) : Finishes (eqTrue view n) := by
  refine h.bind fun m => ?_
  cases m <;> exact .ok _

theorem seqOf_fin (n : Node) (xs : List Node) : Finishes (seqOf n xs) := by
  rcases seqOf_cases n xs with ⟨e, -⟩ | ⟨-, _, e, -⟩ <;> rw [e]
  · exact .ok _
  · exact .err _

include hv in
theorem readKw_fin (k : Kw) : Finishes (readKw w view mk items k) := by
  cases k <;> simp only [readKw, numKey, intKey, intValueKey, subKey, subsKey, subMapKey, Res.bind_assoc] <;>
    repeat' first
      | exact Finishes.ok _
      | exact Finishes.err _
      | exact toInt_fin _
      | exact strItemsMap_fin w _
      | exact eqTrue_fin (hv _ _ (by assumption))
      | exact seqOf_fin _ _
      | exact hv _ _ (getKey_some (by assumption))
      | exact hv _ _ (by assumption)
      | (refine Finishes.bindEq (getKey_fin _) fun _ _ => ?_)
      | (refine Finishes.bind ?_ fun _ => ?_)
      | split

theorem Upd.apply_fin (key : Str) (d : Data α) (u : Upd α) : Finishes (u.apply key d) := by
  unfold Upd.apply; fin

include hv in
theorem loadAll_fin (voc : List Kw) (d : Data α) : Finishes (loadAll w view mk items voc d).2 := by
  induction voc generalizing d with
  | nil => exact .ok _
  | cons k ks ih =>
    rw [loadAll]
    split
    · have := (readKw_fin w mk hv k).bind fun u => u.apply_fin k.key d
      rw [← applyKw_eq] at this
      split
      · exact ih _
      · exact .err _
      · rename_i h; exact absurd h this
    · exact ih _

/-- How long a prefix an update asks for. -/
def Upd.wants : Upd α → Nat
  | .set x => x.wants
  | .itemsArr ps _ => ps.length
  | .pre xs => xs.length
  | _ => 0

theorem readKw_wants {B : Nat} (k : Kw) (hB : k = .items ∨ k = .prefixItems → ∀ n, dictGet k.key items = some n →
    ∀ xs, view n = .ok (.arr xs) → xs.length ≤ B) : Res.All (fun u : Upd α => u.wants ≤ B) (readKw w view mk items k) := by
  cases k with
  | items =>
    simp only [readKw]
    refine Res.All.bindEq fun n hn => Res.All.bindEq fun m hm => ?_
    have hg := getKey_some hn
    split
    · rename_i xs
      have := hB (by simp) n hg xs hm
      rcases seqOf_cases n xs with ⟨e, -⟩ | ⟨-, _, e, -⟩ <;> rw [e]
      · simp only [Res.ok_bind]
        split
        · exact Res.All.ok (by simpa [Upd.wants] using this)
        · refine Res.All.bind fun m => ?_
          split
          · exact Res.All.ok (by simpa [Upd.wants] using this)
          · exact Res.All.ok (by simpa [Upd.wants] using this)
      · exact Res.All.err
    · exact Res.All.ok (by simp [Upd.wants])
    · exact Res.All.ok (by simp [Upd.wants])
    · exact Res.All.err
  | prefixItems =>
    simp only [readKw, subsKey, Res.bind_assoc]
    refine Res.All.bindEq fun n hn => Res.All.bindEq fun m hm => ?_
    have hg := getKey_some hn
    split
    · rename_i xs
      have := hB (by simp) n hg xs hm
      rcases seqOf_cases n xs with ⟨e, -⟩ | ⟨-, _, e, -⟩ <;> rw [e]
      · exact Res.All.ok (by simpa [Upd.wants] using this)
      · exact Res.All.err
    · exact Res.All.err
  | _ =>
    simp only [readKw] <;>
    repeat' first
      | exact Res.All.err
      | (refine Res.All.ok ?_; simp [Upd.wants, V.wants]; done)
      | (refine Res.All.ok ?_; simp only [Upd.wants, maxV, minV]; split <;> simp [V.wants]; done)
      | (refine Res.All.bind fun _ => ?_)
      | split

theorem arrayOf_wants {B : Nat} {d : Data α} (hd : ∀ p ∈ d, p.2.wants ≤ B) (k : Str) : ((arrayOf k d).1.getD []).length ≤ B := by
  unfold arrayOf
  split
  · rename_i h; exact hd _ (dictGet_mem h)
  · simp

theorem Upd.apply_wants {B : Nat} {d d' : Data α} (hd : ∀ p ∈ d, p.2.wants ≤ B) {u : Upd α} (hu : u.wants ≤ B) {k : Str}
    (h : u.apply k d = .ok d') : ∀ p ∈ d', p.2.wants ≤ B := by
  have ha := arrayOf_wants hd
  cases u <;> simp only [Upd.apply, setObj] at h <;> repeat' split at h
  all_goals
    cases h
    try exact hd
    try
      intro p hp
      rcases mem_dictSet hp with rfl | hp
      · first
          | exact hu
          | exact ha _
          | exact Nat.zero_le _
      · exact hd p hp

theorem loadAll_wants {B : Nat} (voc : List Kw) (hB : ∀ k ∈ voc, k = .items ∨ k = .prefixItems → ∀ n, dictGet k.key items = some n →
    ∀ xs, view n = .ok (.arr xs) → xs.length ≤ B) (d : Data α) (hd : ∀ p ∈ d, p.2.wants ≤ B) :
    ∀ p ∈ (loadAll w view mk items voc d).1, p.2.wants ≤ B := by
  induction voc generalizing d with
  | nil => exact hd
  | cons k ks ih =>
    rw [loadAll]
    split
    · split
      · rename_i d' h
        rw [applyKw_eq] at h
        obtain ⟨u, hu, h⟩ := Res.bind_eq_ok.1 h
        exact ih (fun k' hk' => hB k' (by simp [hk'])) _ (u.apply_wants hd (readKw_wants w mk k (hB k (by simp)) u hu) h)
      · exact hd
      · exact hd
    · exact ih (fun k' hk' => hB k' (by simp [hk'])) _ hd

end

theorem keyInArr_fin (k : Str) (xs : List Node) : Finishes (keyInArr k xs) := by
  induction xs with
  | nil => exact .ok _
  | cons x xs ih => unfold keyInArr; fin

theorem loadNonObject_fin (n : Node) (voc : List Kw) : Finishes (loadNonObject n voc) := by
  induction voc with
  | nil => exact .ok _
  | cons k ks ih =>
    unfold loadNonObject
    repeat' first | exact Finishes.ok _ | exact Finishes.err _ | assumption | exact keyInArr_fin _ _ | (refine Finishes.bind ?_ fun _ => ?_) | split

end Verif
