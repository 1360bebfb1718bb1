import Verif.Proofs.Prog
import Verif.Spec.Refs
/-!
# The subschemas of validators

Which subschemas a validator calls, where loading takes them from, and when a validator catches errors or may not end.
-/

namespace Verif
open Prog

variable {α : Type}

/-- The subschemas of a validator. -/
def V.subs : V α → List α
  | .contains c _ _ => [c]
  | .array pre its => pre.getD [] ++ its.toList
  | .object o => o.props.map Prod.snd ++ (o.patterns.getD []).map Prod.snd ++ (match o.additional with
    | some (.lazy a) => [a]
    | _ => []) ++ o.names.toList
  | .dependentSchemas m => m.map Prod.snd
  | .allOf xs => xs
  | .anyOf xs => xs
  | .oneOf xs => xs
  | .not x => [x]
  | .cond i t e => i.toList ++ t.toList ++ e.toList
  | _ => []

/-- A validator that looks at the errors of its subschemas. -/
def V.catches : V α → Bool
  | .contains .. => true
  | .anyOf _ => true
  | .oneOf _ => true
  | .not _ => true
  | .cond (some _) _ _ => true
  | _ => false

theorem Uses.mono {β : Type} {P Q : α → Prop} (h : ∀ a, P a → Q a) {p : Prog α β} (hp : p.Uses P) : p.Uses Q := by
  induction p with
  | done r => trivial
  | call a v c k ih => exact ⟨h a hp.1, fun r => ih r (hp.2 r)⟩

theorem Uses.ask {P : α → Prop} {a : α} (h : P a) (v : Val) (c : Ctx) : (Prog.ask a v c).Uses P := ⟨h, fun _ => trivial⟩
theorem Uses.tryAsk {P : α → Prop} {a : α} (h : P a) (v : Val) (c : Ctx) : (Prog.tryAsk a v c).Uses P := ⟨h, fun _ => trivial⟩

section uses
variable {P : α → Prop}

theorem allOf_uses (v : Val) (ctx : Ctx) (xs : List α) (h : ∀ a ∈ xs, P a) : (allOfP v ctx xs).Uses P := by
  induction xs with
  | nil => trivial
  | cons a as ih => exact (Uses.ask (h a (by simp)) _ _).bind fun _ => ih fun b hb => h b (by simp [hb])

theorem anyOf_uses (v : Val) (ctx : Ctx) (l : Option VErr) (xs : List α) (h : ∀ a ∈ xs, P a) : (anyOfP v ctx l xs).Uses P := by
  induction xs generalizing l with
  | nil => trivial
  | cons a as ih =>
    refine (Uses.tryAsk (h a (by simp)) _ _).bind fun r => ?_
    cases r with
    | none => trivial
    | some e => exact ih _ fun b hb => h b (by simp [hb])

theorem oneOf_uses (v : Val) (ctx : Ctx) (n : Nat) (l : Option VErr) (xs : List α) (h : ∀ a ∈ xs, P a) : (oneOfP v ctx n l xs).Uses P := by
  induction xs generalizing n l with
  | nil => trivial
  | cons a as ih =>
    refine (Uses.tryAsk (h a (by simp)) _ _).bind fun r => ?_
    cases r with
    | none => exact ih _ _ fun b hb => h b (by simp [hb])
    | some e => exact ih _ _ fun b hb => h b (by simp [hb])

theorem contains_uses (c : α) (n : Nat) (xs : List Val) (h : P c) : (containsP c n xs).Uses P := by
  induction xs generalizing n with
  | nil => trivial
  | cons x xs ih =>
    refine (Uses.tryAsk h _ _).bind fun r => ?_
    cases r with
    | none => exact ih _
    | some e => exact ih _

theorem spin_uses (p : α) (ctx : Ctx) (f : Nat) (h : P p) : (spinP p ctx f).Uses P := by
  induction f with
  | zero => trivial
  | succ f ih =>
    refine ⟨h, fun r => ?_⟩
    cases r with
    | ok _ => exact ih
    | err e => trivial
    | timeout => trivial

theorem items_uses (it : α) (ctx : Ctx) (i : Nat) (xs : List Val) (h : P it) : (itemsP it ctx i xs).Uses P := by
  induction xs generalizing i with
  | nil => trivial
  | cons x xs ih => exact (Uses.ask h _ _).bind fun _ => ih _

theorem array_uses (f : Nat) (items : Option α) (ctx : Ctx) (i : Nat) (ps : List α) (xs : List Val) (h : ∀ a ∈ ps, P a)
    (hi : ∀ a ∈ items, P a) : (arrayP f items ctx i ps xs).Uses P := by
  induction ps generalizing i xs with
  | nil =>
    cases items with
    | none => trivial
    | some it => exact items_uses _ _ _ _ (hi it rfl)
  | cons p ps ih =>
    cases xs with
    | nil => exact spin_uses _ _ _ (h p (by simp))
    | cons x xs => exact (Uses.ask (h p (by simp)) _ _).bind fun _ => ih _ _ fun b hb => h b (by simp [hb])

theorem pattern_uses (w : World) (k : Str) (x : Val) (ctx : Ctx) (ev : Bool) (ps : List (Str × α)) (h : ∀ p ∈ ps, P p.2) :
    (patternP w k x ctx ev ps).Uses P := by
  induction ps generalizing ev with
  | nil => trivial
  | cons q ps ih =>
    obtain ⟨p, a⟩ := q
    simp only [patternP]
    cases w.search p with
    | none => trivial
    | some m =>
      simp only
      split
      · exact (Uses.ask (h (p, a) (by simp)) _ _).bind fun _ => ih _ fun b hb => h b (by simp [hb])
      · exact ih _ fun b hb => h b (by simp [hb])

theorem objectItem_uses (w : World) (o : ObjV α) (k : Str) (x : Val) (ctx : Ctx) (h : ∀ a ∈ (V.object o).subs, P a) :
    (objectItemP w o k x ctx).Uses P := by
  unfold objectItemP
  refine Uses.bind ?_ fun _ => ?_
  · cases hn : o.names with
    | none => trivial
    | some n => exact Uses.ask (h n (by simp [V.subs, hn])) _ _
  · cases hp : dictGet k o.props with
    | some p =>
      exact Uses.ask (h p (by simp only [V.subs, List.mem_append, List.mem_map]; exact .inl (.inl (.inl ⟨_, dictGet_mem hp, rfl⟩)))) _ _
    | none =>
      simp only
      refine Uses.bind ?_ fun ev => ?_
      · cases hs : o.patterns with
        | none => trivial
        | some ps =>
          refine pattern_uses _ _ _ _ _ _ fun p hp => h p.2 ?_
          simp only [V.subs, hs, Option.getD_some, List.mem_append, List.mem_map]
          exact .inl (.inl (.inr ⟨p, hp, rfl⟩))
      · split
        · trivial
        · cases ha : o.additional with
          | none => trivial
          | some s =>
            cases s with
            | fail => trivial
            | lazy a => exact Uses.ask (h a (by simp [V.subs, ha])) _ _

theorem object_uses (w : World) (o : ObjV α) (ctx : Ctx) (kvs : List (Str × Val)) (h : ∀ a ∈ (V.object o).subs, P a) :
    (objectP w o ctx kvs).Uses P := by
  induction kvs with
  | nil => trivial
  | cons p kvs ih => exact (objectItem_uses w o p.1 p.2 ctx h).bind fun _ => ih

theorem depSchemas_uses (kvs : List (Str × Val)) (ctx : Ctx) (m : List (Str × α)) (h : ∀ p ∈ m, P p.2) :
    (depSchemasP kvs ctx m).Uses P := by
  induction m with
  | nil => trivial
  | cons p m ih =>
    refine Uses.bind ?_ fun _ => ih fun q hq => h q (by simp [hq])
    split
    · exact Uses.ask (h p (by simp)) _ _
    · trivial

theorem prog_uses (w : World) (f : Nat) (x : V α) (v : Val) (ctx : Ctx) (h : ∀ a ∈ x.subs, P a) : (prog w f x v ctx).Uses P := by
  cases x with
  | contains c mn mx => exact Uses.bind trivial fun _ => (contains_uses _ _ _ (h c (by simp [V.subs]))).bind fun _ => trivial
  | array pre its =>
    simp only [V.subs, List.mem_append, Option.mem_toList] at h
    cases v <;> simp only [prog, runArrayP] <;> try trivial
    exact array_uses _ _ _ _ _ _ (fun a ha => h a (.inl ha)) fun a ha => h a (.inr ha)
  | object o => cases v <;> simp only [prog] <;> first | trivial | exact object_uses w o ctx _ h
  | dependentSchemas m =>
    cases v <;> simp only [prog] <;> try trivial
    exact depSchemas_uses _ _ _ fun p hp => h p.2 (by simp only [V.subs, List.mem_map]; exact ⟨p, hp, rfl⟩)
  | allOf xs => exact allOf_uses _ _ _ h
  | anyOf xs => exact anyOf_uses _ _ _ _ h
  | oneOf xs => exact (oneOf_uses _ _ _ _ _ h).bind fun _ => trivial
  | not x =>
    refine (Uses.tryAsk (h x (by simp [V.subs])) _ _).bind fun r => ?_
    cases r <;> trivial
  | cond i t e =>
    simp only [prog, condP]
    cases i with
    | none => trivial
    | some i =>
      refine (Uses.tryAsk (h i (by simp [V.subs])) _ _).bind fun r => ?_
      cases r with
      | none =>
        cases t with
        | none => trivial
        | some t => exact Uses.ask (h t (by simp [V.subs])) _ _
      | some _ =>
        cases e with
        | none => trivial
        | some e => exact Uses.ask (h e (by simp [V.subs])) _ _
  | _ => trivial

theorem progAll_uses (w : World) (f : Nat) (v : Val) (ctx : Ctx) (d : List (Str × V α)) (h : ∀ p ∈ d, ∀ a ∈ p.2.subs, P a) :
    (progAll w f v ctx d).Uses P := by
  induction d with
  | nil => trivial
  | cons p d ih => exact (prog_uses w f p.2 v ctx (h p (by simp))).bind fun _ => ih fun q hq => h q (by simp [hq])

end uses

/-! ## Validators that do not catch errors -/

theorem spin_calm (p : α) (ctx : Ctx) (f : Nat) : (spinP p ctx f).Calm := by
  induction f with
  | zero => trivial
  | succ f ih =>
    refine ⟨ih, fun r hr => ?_⟩
    cases r with
    | ok u => exact absurd rfl hr
    | err e => exact ⟨_, rfl, by simp⟩
    | timeout => exact ⟨_, rfl, by simp⟩

theorem items_calm (it : α) (ctx : Ctx) (i : Nat) (xs : List Val) : (itemsP it ctx i xs).Calm := by
  induction xs generalizing i with
  | nil => trivial
  | cons x xs ih => exact (Calm.ask _ _ _).bind fun _ => ih _

theorem array_calm (f : Nat) (items : Option α) (ctx : Ctx) (i : Nat) (ps : List α) (xs : List Val) : (arrayP f items ctx i ps xs).Calm := by
  induction ps generalizing i xs with
  | nil =>
    cases items with
    | none => trivial
    | some it => exact items_calm _ _ _ _
  | cons p ps ih =>
    cases xs with
    | nil => exact spin_calm _ _ _
    | cons x xs => exact (Calm.ask _ _ _).bind fun _ => ih _ _

theorem pattern_calm (w : World) (k : Str) (x : Val) (ctx : Ctx) (ev : Bool) (ps : List (Str × α)) :
    (patternP w k x ctx ev ps).Calm := by
  induction ps generalizing ev with
  | nil => trivial
  | cons q ps ih =>
    obtain ⟨p, a⟩ := q
    simp only [patternP]
    cases w.search p with
    | none => trivial
    | some m =>
      simp only
      split
      · exact (Calm.ask _ _ _).bind fun _ => ih _
      · exact ih _

theorem object_calm (w : World) (o : ObjV α) (ctx : Ctx) (kvs : List (Str × Val)) : (objectP w o ctx kvs).Calm := by
  induction kvs with
  | nil => trivial
  | cons p kvs ih =>
    refine Calm.bind ?_ fun _ => ih
    unfold objectItemP
    refine Calm.bind ?_ fun _ => ?_
    · cases o.names <;> first | trivial | exact Calm.ask _ _ _
    · cases dictGet p.1 o.props with
      | some p => exact Calm.ask _ _ _
      | none =>
        simp only
        refine Calm.bind ?_ fun ev => ?_
        · cases o.patterns <;> first | trivial | exact pattern_calm _ _ _ _ _ _
        · split
          · trivial
          · cases o.additional with
            | none => trivial
            | some s => cases s <;> first | trivial | exact Calm.ask _ _ _

theorem depSchemas_calm (kvs : List (Str × Val)) (ctx : Ctx) (m : List (Str × α)) : (depSchemasP kvs ctx m).Calm := by
  induction m with
  | nil => trivial
  | cons p m ih =>
    refine Calm.bind ?_ fun _ => ih
    split
    · exact Calm.ask _ _ _
    · trivial

theorem allOf_calm (v : Val) (ctx : Ctx) (xs : List α) : (allOfP v ctx xs).Calm := by
  induction xs with
  | nil => trivial
  | cons a as ih => exact (Calm.ask _ _ _).bind fun _ => ih

theorem prog_calm (w : World) (f : Nat) (x : V α) (v : Val) (ctx : Ctx) (h : x.catches = false) : (prog w f x v ctx).Calm := by
  cases x with
  | array pre its => cases v <;> simp only [prog, runArrayP] <;> first | trivial | exact array_calm _ _ _ _ _ _
  | object o => cases v <;> simp only [prog] <;> first | trivial | exact object_calm _ _ _ _
  | dependentSchemas m => cases v <;> simp only [prog] <;> first | trivial | exact depSchemas_calm _ _ _
  | allOf xs => exact allOf_calm _ _ _
  | cond i t e =>
    cases i with
    | none => trivial
    | some i => simp [V.catches] at h
  | contains | anyOf | oneOf | not => simp [V.catches] at h
  | _ => trivial

/-! ## Where loading takes subschemas from -/

/-- A subschema of a schema object. -/
def Offered (view : Node → Res Node) (items : List (Str × Node)) (n : Node) : Prop := ∃ k, Spec.SubAt view items k n

def Upd.subs : Upd α → List α
  | .set x => x.subs
  | .props kvs => kvs.map Prod.snd
  | .patterns kvs => kvs.map Prod.snd
  | .additional (some (.lazy a)) => [a]
  | .names a => [a]
  | .ifs a => [a]
  | .thens a => [a]
  | .elses a => [a]
  | .itemsArr ps its => ps ++ its.toList
  | .itemsOne its => its.toList
  | .pre xs => xs
  | _ => []

theorem Res.All.bindEq {β γ : Type} {P : γ → Prop} {x : Res β} {f : β → Res γ} (h : ∀ a, x = .ok a → Res.All P (f a)) :
    Res.All P (x >>= f) := by
  intro u hu
  obtain ⟨a, ha, hb⟩ := Res.bind_eq_ok.1 hu
  exact h a ha u hb

section
variable (w : World) (view : Node → Res Node) (mk : Node → α) (items : List (Str × Node)) {P : α → Prop}
  (hP : ∀ n, Offered view items n → P (mk n))
include hP

theorem getKey_offered {k : Str} (hk : k ∈ Spec.valueKeys) {n : Node} (h : getKey items k = .ok n) : P (mk n) := by
  refine hP n ⟨k, n, ?_, .inl ⟨hk, rfl⟩⟩
  unfold getKey at h
  split at h <;> simp_all

theorem subKey_offered {k : Str} (hk : k ∈ Spec.valueKeys) : Res.All P (subKey view mk items k) := by
  unfold subKey
  refine Res.All.bindEq fun n hn => Res.All.bind fun m => ?_
  split
  · exact Res.All.ok (getKey_offered view mk items hP hk hn)
  · exact Res.All.err

theorem subsKey_offered {k : Str} (hk : k ∈ Spec.elementKeys) : Res.All (fun xs : List α => ∀ a ∈ xs, P a) (subsKey view mk items k) := by
  unfold subsKey
  refine Res.All.bindEq fun n hn => Res.All.bindEq fun m hm => ?_
  split
  · rename_i xs
    rcases seqOf_bind n xs (fun ys => .ok (ys.map mk)) with ⟨e, -⟩ | ⟨-, _, e, -⟩ <;> rw [e]
    · refine Res.All.ok fun a ha => ?_
      obtain ⟨x, hx, rfl⟩ := List.mem_map.1 ha
      refine hP x ⟨k, n, ?_, .inr (.inl ⟨hk, _, hm, hx⟩)⟩
      unfold getKey at hn
      split at hn <;> simp_all
    · exact Res.All.err
  · exact Res.All.err

theorem subMapKey_offered {k : Str} (hk : k ∈ Spec.mapKeys) : Res.All (fun xs : List (Str × α) => ∀ a ∈ xs, P a.2) (subMapKey view mk items k) := by
  unfold subMapKey
  refine Res.All.bindEq fun n hn => Res.All.bindEq fun m hm => ?_
  split
  · refine Res.All.ok fun a ha => ?_
    obtain ⟨x, hx, rfl⟩ := List.mem_map.1 ha
    refine hP x.2 ⟨k, n, ?_, .inr (.inr ⟨hk, _, x.1, hm, hx⟩)⟩
    unfold getKey at hn
    split at hn <;> simp_all
  · exact Res.All.err

theorem readKw_subs (k : Kw) : Res.All (fun u : Upd α => ∀ a ∈ u.subs, P a) (readKw w view mk items k) := by
  have one : ∀ k (g : α → Upd α), k ∈ Spec.valueKeys → (∀ a, (g a).subs = [a]) →
      Res.All (fun u : Upd α => ∀ a ∈ u.subs, P a) (do .ok (g (← subKey view mk items k))) := by
    intro k g hk hg
    refine Res.All.bindEq fun a ha => Res.All.ok ?_
    rw [hg]; simpa using subKey_offered view mk items hP hk a ha
  have many : ∀ k (g : List α → Upd α), k ∈ Spec.elementKeys → (∀ a, (g a).subs = a) →
      Res.All (fun u : Upd α => ∀ a ∈ u.subs, P a) (do .ok (g (← subsKey view mk items k))) := by
    intro k g hk hg
    refine Res.All.bindEq fun a ha => Res.All.ok ?_
    rw [hg]; exact subsKey_offered view mk items hP hk a ha
  have map : ∀ k (g : List (Str × α) → Upd α), k ∈ Spec.mapKeys → (∀ a, (g a).subs = a.map Prod.snd) →
      Res.All (fun u : Upd α => ∀ a ∈ u.subs, P a) (do .ok (g (← subMapKey view mk items k))) := by
    intro k g hk hg
    refine Res.All.bindEq fun a ha => Res.All.ok ?_
    rw [hg]
    intro b hb
    obtain ⟨x, hx, rfl⟩ := List.mem_map.1 hb
    exact subMapKey_offered view mk items hP hk a ha x hx
  cases k with
  | contains =>
    simp only [readKw]
    refine Res.All.bindEq fun a ha => ?_
    have := subKey_offered view mk items hP (by simp [Spec.valueKeys]) a ha
    repeat' first
      | exact Res.All.ok (by simpa [Upd.subs, V.subs] using this)
      | (refine Res.All.bind fun _ => ?_)
      | split
  | items =>
    simp only [readKw]
    refine Res.All.bindEq fun n hn => Res.All.bindEq fun m hm => ?_
    have hg : dictGet c!"items" items = some n := by
      unfold getKey at hn
      split at hn <;> simp_all
    have hn' := getKey_offered view mk items hP (by simp [Spec.valueKeys]) hn
    split
    · rename_i xs
      have hxs : ∀ a ∈ xs.map mk, P a := by
        intro a ha
        obtain ⟨x, hx, rfl⟩ := List.mem_map.1 ha
        exact hP x ⟨_, n, hg, .inr (.inl ⟨by simp [Spec.elementKeys], _, hm, hx⟩)⟩
      rcases seqOf_cases n xs with ⟨e, -⟩ | ⟨-, _, e, -⟩ <;> rw [e]
      · simp only [Res.ok_bind]
        split
        · exact Res.All.ok (by simpa [Upd.subs] using hxs)
        · rename_i a ha
          refine Res.All.bind fun m => ?_
          split
          · exact Res.All.ok (by simpa [Upd.subs] using hxs)
          · refine Res.All.ok fun b hb => ?_
            simp only [Upd.subs, List.mem_append, Option.toList_some, List.mem_singleton] at hb
            rcases hb with hb | rfl
            · exact hxs b hb
            · exact hP a ⟨_, a, ha, .inl ⟨by simp [Spec.valueKeys], rfl⟩⟩
      · exact Res.All.err
    · exact Res.All.ok (by simpa [Upd.subs] using hn')
    · rename_i b
      refine Res.All.ok fun a ha => ?_
      cases b <;> simp [Upd.subs] at ha
      rw [ha]; exact hn'
    · exact Res.All.err
  | additionalProperties =>
    simp only [readKw]
    refine Res.All.bindEq fun n hn => Res.All.bind fun m => ?_
    have hn' := getKey_offered view mk items hP (by simp [Spec.valueKeys]) hn
    split
    · exact Res.All.ok (by simp [Upd.subs])
    · exact Res.All.ok (by simp [Upd.subs])
    · exact Res.All.ok (by simpa [Upd.subs] using hn')
    · exact Res.All.err
  | prefixItems => exact many _ (fun a => .pre a) (by simp [Spec.valueKeys, Spec.elementKeys, Spec.mapKeys]) fun _ => rfl
  | allOf => exact many _ (fun a => .set (.allOf a)) (by simp [Spec.valueKeys, Spec.elementKeys, Spec.mapKeys]) fun _ => rfl
  | anyOf => exact many _ (fun a => .set (.anyOf a)) (by simp [Spec.valueKeys, Spec.elementKeys, Spec.mapKeys]) fun _ => rfl
  | oneOf => exact many _ (fun a => .set (.oneOf a)) (by simp [Spec.valueKeys, Spec.elementKeys, Spec.mapKeys]) fun _ => rfl
  | properties => exact map _ (fun a => .props a) (by simp [Spec.valueKeys, Spec.elementKeys, Spec.mapKeys]) fun _ => rfl
  | patternProperties => exact map _ (fun a => .patterns a) (by simp [Spec.valueKeys, Spec.elementKeys, Spec.mapKeys]) fun _ => rfl
  | dependentSchemas => exact map _ (fun a => .set (.dependentSchemas a)) (by simp [Spec.valueKeys, Spec.elementKeys, Spec.mapKeys]) fun _ => rfl
  | propertyNames => exact one _ (fun a => .names a) (by simp [Spec.valueKeys, Spec.elementKeys, Spec.mapKeys]) fun _ => rfl
  | not => exact one _ (fun a => .set (.not a)) (by simp [Spec.valueKeys, Spec.elementKeys, Spec.mapKeys]) fun _ => rfl
  | «if» => exact one _ (fun a => .ifs a) (by simp [Spec.valueKeys, Spec.elementKeys, Spec.mapKeys]) fun _ => rfl
  | «then» => exact one _ (fun a => .thens a) (by simp [Spec.valueKeys, Spec.elementKeys, Spec.mapKeys]) fun _ => rfl
  | «else» => exact one _ (fun a => .elses a) (by simp [Spec.valueKeys, Spec.elementKeys, Spec.mapKeys]) fun _ => rfl
  | _ =>
    simp only [readKw, maxV, minV] <;>
    repeat' first
      | exact Res.All.err
      | (refine Res.All.ok ?_; simp [Upd.subs, V.subs]; done)
      | (refine Res.All.ok ?_; simp only [Upd.subs]; split <;> simp [V.subs]; done)
      | (refine Res.All.bind fun _ => ?_)
      | split

end

theorem mem_dictSet {β : Type} {k : Str} {x : β} {d : List (Str × β)} {p : Str × β} (h : p ∈ dictSet k x d) : p = (k, x) ∨ p ∈ d := by
  induction d with
  | nil => simpa [dictSet] using h
  | cons q d ih =>
    simp only [dictSet] at h
    split at h
    · rename_i e
      rcases List.mem_cons.1 h with h | h
      · subst e; exact .inl h
      · exact .inr (by simp [h])
    · rcases List.mem_cons.1 h with h | h
      · exact .inr (by simp [h])
      · rcases ih h with h | h
        · exact .inl h
        · exact .inr (by simp [h])

/-- Every subschema in the dictionary satisfies `P`. -/
def Data.All (P : α → Prop) (d : Data α) : Prop := ∀ p ∈ d, ∀ a ∈ p.2.subs, P a

theorem Data.All.set {P : α → Prop} {d : Data α} (hd : Data.All P d) {k : Str} {x : V α} (hx : ∀ a ∈ x.subs, P a) :
    Data.All P (dictSet k x d) := by
  intro p hp
  rcases mem_dictSet hp with rfl | hp
  · exact hx
  · exact hd p hp

theorem foldl_set_mem {β : Type} (kvs : List (Str × β)) (d : List (Str × β)) {p : Str × β}
    (h : p ∈ kvs.foldl (fun d x => dictSet x.1 x.2 d) d) : p ∈ kvs ∨ p ∈ d := by
  induction kvs generalizing d with
  | nil => exact .inr h
  | cons q kvs ih =>
    rcases ih _ h with h | h
    · exact .inl (by simp [h])
    · rcases mem_dictSet h with rfl | h
      · exact .inl (by simp)
      · exact .inr h

theorem objOf_all {P : α → Prop} {d : Data α} (hd : Data.All P d) : ∀ a ∈ (V.object (objOf d)).subs, P a := by
  unfold objOf
  split
  · rename_i o h; exact hd _ (dictGet_mem h)
  · simp [V.subs]

theorem condOf_all {P : α → Prop} {d : Data α} (hd : Data.All P d) :
    (∀ a ∈ (condOf d).1, P a) ∧ (∀ a ∈ (condOf d).2.1, P a) ∧ ∀ a ∈ (condOf d).2.2, P a := by
  unfold condOf
  split
  · rename_i i t e h
    have := hd _ (dictGet_mem h)
    simp only [V.subs, List.mem_append, Option.mem_toList] at this
    exact ⟨fun a ha => this a (.inl (.inl ha)), fun a ha => this a (.inl (.inr ha)), fun a ha => this a (.inr ha)⟩
  · simp

theorem arrayOf_all {P : α → Prop} {d : Data α} (hd : Data.All P d) (k : Str) :
    (∀ xs, (arrayOf k d).1 = some xs → ∀ a ∈ xs, P a) ∧ ∀ a ∈ (arrayOf k d).2, P a := by
  unfold arrayOf
  split
  · rename_i p i h
    have := hd _ (dictGet_mem h)
    simp only [V.subs, List.mem_append, Option.mem_toList] at this
    exact ⟨fun xs e a ha => this a (.inl (by simp only at e; rw [e]; exact ha)), fun a ha => this a (.inr ha)⟩
  · simp

theorem Upd.apply_all {P : α → Prop} {d d' : Data α} (hd : Data.All P d) {u : Upd α} (hu : ∀ a ∈ u.subs, P a) {k : Str}
    (h : u.apply k d = .ok d') : Data.All P d' := by
  have ho := objOf_all hd
  have hc := condOf_all hd
  have ha := arrayOf_all hd
  simp only [V.subs, List.mem_append, List.mem_map, Option.mem_toList] at ho
  cases u with
  | pre xs =>
    simp only [Upd.apply] at h
    split at h
    · split at h
      · cases h
        refine hd.set fun a m => ?_
        simp only [V.subs, Option.getD_some, List.mem_append, Option.mem_toList] at m
        rcases m with m | m
        · exact hu a m
        · exact (ha _).2 a m
      · cases h
    · cases h
      refine hd.set fun a m => ?_
      simp only [V.subs, Option.getD_some, List.mem_append, Option.toList_none, List.not_mem_nil, or_false] at m
      exact hu a m
  | nop => cases h; exact hd
  | set x => cases h; exact hd.set hu
  | itemsArr ps its =>
    cases h
    refine hd.set fun a m => ?_
    simp only [V.subs, Option.getD_some, List.mem_append, Option.mem_toList, Option.or_eq_some_iff] at m
    simp only [Upd.subs, List.mem_append, Option.mem_toList] at hu
    rcases m with m | m | m
    · exact hu a (.inl m)
    · exact hu a (.inr m)
    · exact (ha _).2 a m.2
  | itemsOne its =>
    cases h
    refine hd.set fun a m => ?_
    simp only [V.subs, List.mem_append, Option.mem_toList, Option.or_eq_some_iff] at m
    simp only [Upd.subs, Option.mem_toList] at hu
    rcases m with m | m | m
    · cases e : (arrayOf c!"items" d).1 with
      | none => simp [e] at m
      | some xs => exact (ha _).1 xs e a (by simpa [e] using m)
    · exact hu a m
    · exact (ha _).2 a m.2
  | ifs x | thens x | elses x =>
    cases h
    refine hd.set fun a m => ?_
    simp only [V.subs, List.mem_append, Option.mem_toList, Option.toList_some, List.mem_singleton] at m
    simp only [Upd.subs, List.mem_singleton] at hu
    rcases m with (m | m) | m
    all_goals first
      | exact hc.1 a m
      | exact hc.2.1 a m
      | exact hc.2.2 a m
      | exact hu a m
  | props kvs =>
    cases h
    refine hd.set fun a m => ?_
    simp only [V.subs, List.mem_append, List.mem_map, Option.mem_toList] at m
    simp only [Upd.subs, List.mem_map] at hu
    rcases m with ((⟨p, m, rfl⟩ | m) | m) | m
    · rcases foldl_set_mem _ _ m with m | m
      · exact hu _ ⟨p, m, rfl⟩
      · exact ho _ (.inl (.inl (.inl ⟨p, m, rfl⟩)))
    · exact ho a (.inl (.inl (.inr m)))
    · exact ho a (.inl (.inr m))
    · exact ho a (.inr m)
  | patterns kvs =>
    cases h
    refine hd.set fun a m => ?_
    simp only [V.subs, List.mem_append, List.mem_map, Option.mem_toList, Option.getD_some] at m
    simp only [Upd.subs, List.mem_map] at hu
    rcases m with ((m | m) | m) | m
    · exact ho a (.inl (.inl (.inl m)))
    · exact hu a m
    · exact ho a (.inl (.inr m))
    · exact ho a (.inr m)
  | additional s =>
    cases h
    refine hd.set fun a m => ?_
    simp only [V.subs, List.mem_append, List.mem_map, Option.mem_toList] at m
    rcases m with ((m | m) | m) | m
    · exact ho a (.inl (.inl (.inl m)))
    · exact ho a (.inl (.inl (.inr m)))
    · cases s with
      | none => exact ho a (.inl (.inr (by simpa using m)))
      | some s =>
        cases s with
        | fail => simp at m
        | lazy b => exact hu a (by simpa [Upd.subs] using m)
    · exact ho a (.inr m)
  | unevaluated b =>
    cases h
    refine hd.set fun a m => ?_
    simp only [V.subs, List.mem_append, List.mem_map, Option.mem_toList] at m
    exact ho a m
  | names n =>
    cases h
    refine hd.set fun a m => ?_
    simp only [V.subs, List.mem_append, List.mem_map, Option.toList_some, List.mem_singleton] at m
    simp only [Upd.subs, List.mem_singleton] at hu
    rcases m with ((m | m) | m) | m
    · exact ho a (.inl (.inl (.inl m)))
    · exact ho a (.inl (.inl (.inr m)))
    · exact ho a (.inl (.inr m))
    · exact hu a m

theorem loadAll_all (w : World) (view : Node → Res Node) (mk : Node → α) (items : List (Str × Node)) {P : α → Prop}
    (hP : ∀ n, Offered view items n → P (mk n)) (voc : List Kw) (d : Data α) (hd : Data.All P d) :
    Data.All P (loadAll w view mk items voc d).1 := by
  induction voc generalizing d with
  | nil => exact hd
  | cons k ks ih =>
    rw [loadAll]
    split
    · rw [applyKw_eq]
      cases hr : readKw w view mk items k with
      | ok u =>
        simp only [Res.ok_bind]
        cases ha : u.apply k.key d with
        | ok d' => exact ih d' (Upd.apply_all hd (readKw_subs w view mk items hP k u hr) ha)
        | err e => exact hd
        | timeout => exact hd
      | err e => exact hd
      | timeout => exact hd
    · exact ih d hd

end Verif
