import Verif.Model.Updates
import Verif.Proofs.IterRef
import Verif.Proofs.Dict
/-!
# How keywords fill the validator dictionary

`readKw` is what a keyword reads from the schema object, `Upd.apply` what it then does to the dictionary.
-/

set_option linter.unusedSimpArgs false

namespace Verif

variable {α : Type}

section
variable (w : World) (view : Node → Res Node) (mk : Node → α) (items : List (Str × Node))

/-- What a keyword reads from the schema object. -/
def readKw (k : Kw) : Res (Upd α) :=
  match k with
  | .type => do
    let n ← getKey items c!"type"
    let ts ← match ← view n with
      | .str _ => .ok [nodeStr w n]
      | .arr xs => do
        let ys ← seqOf n xs
        .ok (ys.map (nodeStr w))
      | _ => .err .schemaParse
    if ts.all (· ∈ validTypes) then .ok (.set (.type ts)) else .err .schemaParse
  | .enum => do
    let n ← getKey items c!"enum"
    match ← view n with
    | .arr xs => match n with
      | .ref .. => .err .unmodelled
      | _ => .ok (.set (.enum xs))
    | _ => .err .schemaParse
  | .const => do
    let n ← getKey items c!"const"
    match ← view n with
    | .arr _ => .err .schemaParse
    | .obj _ => .err .schemaParse
    | x => .ok (.set (if n.isRef then .held (.const x) else .const x))
  | .maximum => do
    let (n, m) ← numKey view items c!"maximum"
    let excl ← match dictGet c!"exclusiveMaximum" items with
      | some e => eqTrue view e
      | none => .ok false
    .ok (.set (maxV n m excl))
  | .minimum => do
    let (n, m) ← numKey view items c!"minimum"
    let excl ← match dictGet c!"exclusiveMinimum" items with
      | some e => eqTrue view e
      | none => .ok false
    .ok (.set (minV n m excl))
  | .exclusiveMaximum => do
    let n ← getKey items c!"exclusiveMaximum"
    match ← view n with
    | .bool _ => if dictHas c!"maximum" items then .ok .nop else .err .schemaParse
    | .num m => .ok (.set (maxV n m true))
    | _ => .err .schemaParse
  | .exclusiveMinimum => do
    let n ← getKey items c!"exclusiveMinimum"
    match ← view n with
    | .bool _ => if dictHas c!"minimum" items then .ok .nop else .err .schemaParse
    | .num m => .ok (.set (minV n m true))
    | _ => .err .schemaParse
  | .multipleOf => do
    let (n, m) ← numKey view items c!"multipleOf"
    .ok (.set (if n.isRef then .held .multipleOf else .multipleOf m))
  | .minLength => do .ok (.set (.minLength (← intKey view items c!"minLength")))
  | .maxLength => do .ok (.set (.maxLength (← intKey view items c!"maxLength")))
  | .minItems => do .ok (.set (.minItems (← intKey view items c!"minItems")))
  | .maxItems => do .ok (.set (.maxItems (← intKey view items c!"maxItems")))
  | .minProperties => do .ok (.set (.minProperties (← intKey view items c!"minProperties")))
  | .maxProperties => do .ok (.set (.maxProperties (← intKey view items c!"maxProperties")))
  | .uniqueItems => do
    match ← view (← getKey items c!"uniqueItems") with
    | .bool b => if b then .ok (.set .uniqueItems) else .ok .nop
    | _ => .err .schemaParse
  | .contains => do
    let c ← subKey view mk items c!"contains"
    let mn ← if dictHas c!"minContains" items then intValueKey view items c!"minContains" else .ok 1
    let mx ← if dictHas c!"maxContains" items then do
        let m ← intValueKey view items c!"maxContains"
        .ok (some m)
      else .ok none
    .ok (.set (.contains c mn mx))
  | .items => do
    let n ← getKey items c!"items"
    match ← view n with
    | .arr xs => do
      let ys ← seqOf n xs
      match dictGet c!"additionalItems" items with
        | none => .ok (.itemsArr (ys.map mk) none)
        | some a => do
          match ← view a with
          | .bool true => .ok (.itemsArr (ys.map mk) none)
          | _ => .ok (.itemsArr (ys.map mk) (some (mk a)))
    | .obj _ => .ok (.itemsOne (some (mk n)))
    | .bool b => .ok (.itemsOne (if b then none else some (mk n)))
    | _ => .err .schemaParse
  | .prefixItems => do .ok (.pre (← subsKey view mk items c!"prefixItems"))
  | .properties => do .ok (.props (← subMapKey view mk items c!"properties"))
  | .patternProperties => do .ok (.patterns (← subMapKey view mk items c!"patternProperties"))
  | .additionalProperties => do
    let n ← getKey items c!"additionalProperties"
    match ← view n with
    | .bool true => .ok (.additional none)
    | .bool false => .ok (.additional (some .fail))
    | .obj _ => .ok (.additional (some (.lazy (mk n))))
    | _ => .err .schemaParse
  | .unevaluatedProperties => do
    match ← view (← getKey items c!"unevaluatedProperties") with
    | .bool true => .ok (.unevaluated false)
    | .bool false => .ok (.unevaluated true)
    | _ => .err .schemaParse
  | .propertyNames => do .ok (.names (← subKey view mk items c!"propertyNames"))
  | .required => do
    let n ← getKey items c!"required"
    match ← view n with
    | .arr xs => do
      let ys ← seqOf n xs
      .ok (.set (.required (ys.map (nodeStr w))))
    | _ => .err .schemaParse
  | .dependentRequired => do
    match ← view (← getKey items c!"dependentRequired") with
    | .obj kvs => do .ok (.set (.dependentRequired (← strItemsMap w kvs)))
    | _ => .err .schemaParse
  | .dependentSchemas => do .ok (.set (.dependentSchemas (← subMapKey view mk items c!"dependentSchemas")))
  | .allOf => do .ok (.set (.allOf (← subsKey view mk items c!"allOf")))
  | .anyOf => do .ok (.set (.anyOf (← subsKey view mk items c!"anyOf")))
  | .oneOf => do .ok (.set (.oneOf (← subsKey view mk items c!"oneOf")))
  | .not => do .ok (.set (.not (← subKey view mk items c!"not")))
  | .if => do .ok (.ifs (← subKey view mk items c!"if"))
  | .then => do .ok (.thens (← subKey view mk items c!"then"))
  | .else => do .ok (.elses (← subKey view mk items c!"else"))
  | .format => do
    let n ← getKey items c!"format"
    match ← view n with
    | .str _ => match w.formats (nodeStr w n) with
      | none => .err .schemaParse
      | some _ => .ok (.set (.format (nodeStr w n)))
    | _ => .err .schemaParse
  | .pattern => do
    let n ← getKey items c!"pattern"
    match ← view n with
    | .str _ => match w.search (nodeStr w n) with
      | none => .err .reError
      | some _ => .ok (.set (.pattern (nodeStr w n)))
    | _ => .err .schemaParse
  | .ref => .ok .nop
  | .anchor => .ok .nop
  | .id => .ok .nop

theorem Res.bind_assoc {α β γ : Type} (x : Res α) (f : α → Res β) (g : β → Res γ) :
    (x >>= f) >>= g = x >>= fun a => f a >>= g := by cases x <;> rfl

theorem Res.bind_congr {α β : Type} (x : Res α) {f g : α → Res β} (h : ∀ a, f a = g a) : x >>= f = x >>= g := by
  cases x <;> simp [h]

theorem applyKw_eq (k : Kw) (d : Data α) :
    applyKw w view mk items k d = readKw w view mk items k >>= Upd.apply k.key d := by
  cases k <;>
    simp only [applyKw, readKw, Res.bind_assoc, applyType, applyEnum, applyConst, applyMaximum, applyMinimum,
      applyExclusiveMaximum, applyExclusiveMinimum, applyMultipleOf, applyUniqueItems, applyContains, applyItems,
      applyPrefixItems, applyProperties, applyPatternProperties, applyAdditionalProperties,
      applyUnevaluatedProperties, applyPropertyNames, applyRequired, applyDependentRequired, applyDependentSchemas,
      applyFormat, applyPattern, Res.ok_bind, Upd.apply, Kw.key, Kw.keys, List.headD, setObj]
  case type =>
    refine Res.bind_congr _ fun n => Res.bind_congr _ fun x => ?_
    cases x with
    | str s => simp; split <;> simp [Upd.apply, Kw.key, Kw.keys]
    | arr xs =>
      simp only [Res.bind_assoc, Res.ok_bind]
      refine Res.bind_congr _ fun ys => ?_
      split <;> simp [Upd.apply, Kw.key, Kw.keys]
    | _ => rfl
  case maximum =>
    refine Res.bind_congr _ fun n => ?_
    cases dictGet c!"exclusiveMaximum" items <;> simp [Upd.apply, Res.bind_assoc]
  case minimum =>
    refine Res.bind_congr _ fun n => ?_
    cases dictGet c!"exclusiveMinimum" items <;> simp [Upd.apply, Res.bind_assoc]
  case contains =>
    refine Res.bind_congr _ fun n => ?_
    split <;> split <;> simp [Upd.apply, Res.bind_assoc]
  case enum =>
    refine Res.bind_congr _ fun n => Res.bind_congr _ fun x => ?_
    cases x <;> cases n <;> simp [Upd.apply]
  case const =>
    refine Res.bind_congr _ fun n => Res.bind_congr _ fun x => ?_
    cases x <;> cases n <;> simp [Upd.apply]
  case exclusiveMaximum =>
    refine Res.bind_congr _ fun n => Res.bind_congr _ fun x => ?_
    cases x <;> cases n <;> simp [Upd.apply] <;> split <;> simp [Upd.apply]
  case exclusiveMinimum =>
    refine Res.bind_congr _ fun n => Res.bind_congr _ fun x => ?_
    cases x <;> cases n <;> simp [Upd.apply] <;> split <;> simp [Upd.apply]
  case uniqueItems =>
    refine Res.bind_congr _ fun n => Res.bind_congr _ fun x => ?_
    cases x <;> simp [Upd.apply]
    split <;> simp [Upd.apply]
  case items =>
    refine Res.bind_congr _ fun n => Res.bind_congr _ fun x => ?_
    cases x with
    | arr xs =>
      simp only [Res.bind_assoc]
      refine Res.bind_congr _ fun ys => ?_
      cases dictGet c!"additionalItems" items with
      | none => simp [Upd.apply]
      | some a =>
        simp only [Res.bind_assoc]
        refine Res.bind_congr _ fun y => ?_
        cases y <;> (try simp [Upd.apply]) <;> (rename_i b; cases b <;> simp [Upd.apply])
    | bool b => cases b <;> simp [Upd.apply]
    | _ => simp [Upd.apply]
  case additionalProperties =>
    refine Res.bind_congr _ fun n => Res.bind_congr _ fun x => ?_
    cases x with
    | bool b => cases b <;> simp [Upd.apply, setObj]
    | _ => simp [Upd.apply, setObj]
  case unevaluatedProperties =>
    refine Res.bind_congr _ fun n => Res.bind_congr _ fun x => ?_
    cases x with
    | bool b => cases b <;> simp [Upd.apply, setObj]
    | _ => simp [Upd.apply, setObj]
  case required =>
    refine Res.bind_congr _ fun n => Res.bind_congr _ fun x => ?_
    cases x <;> simp [Upd.apply, Res.bind_assoc]
  case dependentRequired =>
    refine Res.bind_congr _ fun n => Res.bind_congr _ fun x => ?_
    cases x <;> simp [Upd.apply, Res.bind_assoc]
  case format =>
    refine Res.bind_congr _ fun n => Res.bind_congr _ fun x => ?_
    cases x with
    | str s => cases w.formats (nodeStr w n) <;> simp [Upd.apply]
    | _ => simp [Upd.apply]
  case pattern =>
    refine Res.bind_congr _ fun n => Res.bind_congr _ fun x => ?_
    cases x with
    | str s => cases w.search (nodeStr w n) <;> simp [Upd.apply]
    | _ => simp [Upd.apply]
end

/-! ## Keyword groups do not interfere -/

/-- Keywords that share a validator object or read each other's values: the object family, the conditional family, the
array family, the bounds. -/
def Kw.group : Kw → Kw
  | .properties | .patternProperties | .additionalProperties | .unevaluatedProperties | .propertyNames => .properties
  | .if | .then | .else => .if
  | .items | .prefixItems => .items
  | .maximum | .exclusiveMaximum => .maximum
  | .minimum | .exclusiveMinimum => .minimum
  | k => k

/-- The dictionary keys the keywords of a group write. -/
def Kw.slots (k : Kw) : List Str :=
  match k.group with
  | .properties => [c!"properties"]
  | .if => [c!"if"]
  | .items => [c!"items", c!"prefixItems"]
  | .maximum => [c!"maximum", c!"exclusiveMaximum"]
  | .minimum => [c!"minimum", c!"exclusiveMinimum"]
  | g => [g.key]

theorem dictSet_filter_in {β : Type} (p : Str → Bool) (k : Str) (x : β) (d : List (Str × β)) (h : p k = true) :
    (dictSet k x d).filter (fun q => p q.1) = dictSet k x (d.filter fun q => p q.1) := by
  induction d with
  | nil => simp [dictSet, h]
  | cons q d ih =>
    obtain ⟨k', y⟩ := q
    by_cases hk : k' = k
    · subst hk; simp [dictSet, h]
    · by_cases hp : p k' = true <;> simp [dictSet, hk, hp, ih]

theorem dictSet_filter_out {β : Type} (p : Str → Bool) (k : Str) (x : β) (d : List (Str × β)) (h : p k = false) :
    (dictSet k x d).filter (fun q => p q.1) = d.filter fun q => p q.1 := by
  induction d with
  | nil => simp [dictSet, h]
  | cons q d ih =>
    obtain ⟨k', y⟩ := q
    by_cases hk : k' = k
    · subst hk; simp [dictSet, h]
    · by_cases hp : p k' = true <;> simp [dictSet, hk, hp, ih]

theorem dictGet_filter {β : Type} (p : Str → Bool) (k : Str) (d : List (Str × β)) (h : p k = true) :
    dictGet k (d.filter fun q => p q.1) = dictGet k d := by
  induction d with
  | nil => rfl
  | cons q d ih =>
    obtain ⟨k', y⟩ := q
    by_cases hk : k' = k
    · subst hk; simp [dictGet, h]
    · by_cases hp : p k' = true <;> simp [dictGet, hk, hp, ih]

theorem dictHas_filter {β : Type} (p : Str → Bool) (k : Str) (d : List (Str × β)) (h : p k = true) :
    dictHas k (d.filter fun q => p q.1) = dictHas k d := by
  unfold dictHas; rw [dictGet_filter p k d h]

/-- The updates a keyword can produce. -/
def Upd.fits : Kw → Upd α → Prop
  | _, .nop => True
  | k, .set _ => k.key ∈ k.slots
  | k, .props _ => k = .properties
  | k, .patterns _ => k = .patternProperties
  | k, .additional _ => k = .additionalProperties
  | k, .unevaluated _ => k = .unevaluatedProperties
  | k, .names _ => k = .propertyNames
  | k, .ifs _ => k = .if
  | k, .thens _ => k = .then
  | k, .elses _ => k = .else
  | k, .itemsArr _ _ => k = .items
  | k, .itemsOne _ => k = .items
  | k, .pre _ => k = .prefixItems

/-- Every answer satisfies `P`. -/
def Res.All {β : Type} (P : β → Prop) (r : Res β) : Prop := ∀ u, r = .ok u → P u

theorem Res.All.bind {β γ : Type} {P : γ → Prop} {x : Res β} {f : β → Res γ} (h : ∀ a, Res.All P (f a)) :
    Res.All P (x >>= f) := by
  intro u hu
  obtain ⟨a, _, ha⟩ := Res.bind_eq_ok.1 hu
  exact h a u ha

theorem Res.All.ok {β : Type} {P : β → Prop} {b : β} (h : P b) : Res.All P (.ok b) := by
  intro u hu; cases hu; exact h

theorem Res.All.err {β : Type} {P : β → Prop} {e : PyErr} : Res.All P (.err e) := by
  intro u hu; cases hu

theorem readKw_fits (w : World) (view : Node → Res Node) (mk : Node → α) (items : List (Str × Node)) (k : Kw)
    (u : Upd α) (h : readKw w view mk items k = .ok u) : u.fits k := by
  revert u
  change Res.All (fun u : Upd α => u.fits k) (readKw w view mk items k)
  cases k <;> simp only [readKw] <;>
    repeat' first
      | exact Res.All.err
      | exact Res.All.ok (by simp [Upd.fits, Kw.group, Kw.slots, Kw.key, Kw.keys])
      | (refine Res.All.bind fun _ => ?_)
      | split

theorem Upd.apply_filter (p : Str → Bool) (k : Kw) (u : Upd α) (hf : u.fits k) (d : Data α)
    (hp : ∀ s ∈ k.slots, p s = true) :
    u.apply k.key (d.filter fun q => p q.1) = (u.apply k.key d >>= fun d' => .ok (d'.filter fun q => p q.1)) := by
  cases u with
  | nop => simp [Upd.apply]
  | set x =>
    have : p k.key = true := hp _ hf
    simp [Upd.apply, dictSet_filter_in p _ _ _ this]
  | pre xs =>
    simp only [Upd.fits] at hf; subst hf
    have h1 : p c!"items" = true := hp _ (by decide)
    have h2 : p c!"prefixItems" = true := hp _ (by decide)
    simp only [Upd.apply, arrayOf, dictHas_filter p _ _ h1, dictHas_filter p _ _ h2, dictGet_filter p _ _ h2]
    split
    · split
      · simp [dictSet_filter_in p _ _ _ h2]
      · simp
    · simp [dictSet_filter_in p _ _ _ h2]
  | _ =>
    simp only [Upd.fits] at hf; subst hf
    simp only [Kw.slots, Kw.group, List.mem_cons, List.not_mem_nil, or_false, forall_eq_or_imp, forall_eq] at hp
    try obtain ⟨hp, _⟩ := hp
    simp [Upd.apply, setObj, objOf, condOf, arrayOf, dictGet_filter p _ _ hp, dictSet_filter_in p _ _ _ hp]

theorem Upd.apply_frame (p : Str → Bool) (k : Kw) (u : Upd α) (hf : u.fits k) (d d' : Data α)
    (hp : ∀ s ∈ k.slots, p s = false) (h : u.apply k.key d = .ok d') :
    d'.filter (fun q => p q.1) = d.filter fun q => p q.1 := by
  cases u with
  | nop => simp [Upd.apply] at h; rw [h]
  | set x =>
    have : p k.key = false := hp _ hf
    simp [Upd.apply] at h; rw [← h, dictSet_filter_out p _ _ _ this]
  | pre xs =>
    simp only [Upd.fits] at hf; subst hf
    have h2 : p c!"prefixItems" = false := hp _ (by decide)
    simp only [Upd.apply] at h
    split at h
    · split at h
      · cases h; exact dictSet_filter_out p _ _ _ h2
      · cases h
    · cases h; exact dictSet_filter_out p _ _ _ h2
  | _ =>
    simp only [Upd.fits] at hf; subst hf
    simp only [Kw.slots, Kw.group, List.mem_cons, List.not_mem_nil, or_false, forall_eq_or_imp, forall_eq] at hp
    try obtain ⟨hp, _⟩ := hp
    simp only [Upd.apply, setObj, Res.ok.injEq] at h
    rw [← h]; exact dictSet_filter_out p _ _ _ hp

/-- The group a dictionary key belongs to. -/
def slotOwner (s : Str) : Kw :=
  if s = c!"properties" then .properties
  else if s = c!"if" then .if
  else if s = c!"items" ∨ s = c!"prefixItems" then .items
  else if s = c!"maximum" ∨ s = c!"exclusiveMaximum" then .maximum
  else if s = c!"minimum" ∨ s = c!"exclusiveMinimum" then .minimum
  else
    ([.type, .enum, .const, .multipleOf, .minLength,
      .maxLength, .minItems, .maxItems, .minProperties, .maxProperties, .uniqueItems, .contains, .required,
      .dependentRequired, .dependentSchemas, .allOf, .anyOf, .oneOf, .not, .format, .pattern, .ref, .anchor,
      .id] : List Kw).find? (fun k => k.key = s) |>.getD .ref

theorem slotOwner_of_mem (k : Kw) (s : Str) (h : s ∈ k.slots) : slotOwner s = k.group := by
  revert s h; cases k <;> decide

/-- The dictionary keys of a group. -/
def inGroup (g : Kw) (s : Str) : Bool := slotOwner s = g

theorem inGroup_self (k : Kw) : ∀ s ∈ k.slots, inGroup k.group s = true := by
  intro s hs; simp [inGroup, slotOwner_of_mem k s hs]

theorem inGroup_other (k g : Kw) (h : k.group ≠ g) : ∀ s ∈ k.slots, inGroup g s = false := by
  intro s hs; simp [inGroup, slotOwner_of_mem k s hs, h]

section
variable (w : World) (view : Node → Res Node) (mk : Node → α) (items : List (Str × Node))

theorem loadAll_group_ok (g : Kw) (voc : List Kw) (d d' : Data α)
    (h : loadAll w view mk items voc d = (d', .ok ())) :
    loadAll w view mk items (voc.filter fun k => k.group = g) (d.filter fun q => inGroup g q.1)
      = (d'.filter (fun q => inGroup g q.1), .ok ()) := by
  induction voc generalizing d with
  | nil => simp [loadAll] at h ⊢; rw [h]
  | cons k ks ih =>
    simp only [loadAll] at h
    by_cases hpre : (k.isAssertion && dictHas k.key items) = true
    · rw [if_pos hpre] at h
      cases ha : applyKw w view mk items k d with
      | ok d1 =>
        rw [ha] at h
        have ih1 := ih d1 h
        rw [applyKw_eq] at ha
        obtain ⟨u, hu, ha⟩ := Res.bind_eq_ok.1 ha
        have hf := readKw_fits _ _ _ _ _ _ hu
        by_cases hg : k.group = g
        · have e := Upd.apply_filter (inGroup g) k u hf d (hg ▸ inGroup_self k)
          rw [ha, Res.ok_bind] at e
          rw [List.filter_cons_of_pos (by simpa using hg), loadAll, if_pos hpre, applyKw_eq, hu, Res.ok_bind, e]
          exact ih1
        · have e := Upd.apply_frame (inGroup g) k u hf d d1 (inGroup_other k g hg) ha
          rw [List.filter_cons_of_neg (by simpa using hg), ← e]
          exact ih1
      | err e => rw [ha] at h; simp at h
      | timeout => rw [ha] at h; simp at h
    · rw [if_neg hpre] at h
      have ih1 := ih d h
      by_cases hg : k.group = g
      · rw [List.filter_cons_of_pos (by simpa using hg), loadAll, if_neg hpre]; exact ih1
      · rw [List.filter_cons_of_neg (by simpa using hg)]; exact ih1

theorem loadAll_ok_of_groups (voc : List Kw) (d : Data α)
    (h : ∀ g, (loadAll w view mk items (voc.filter fun k => k.group = g) (d.filter fun q => inGroup g q.1)).2
      = .ok ()) : (loadAll w view mk items voc d).2 = .ok () := by
  induction voc generalizing d with
  | nil => rfl
  | cons k ks ih =>
    simp only [loadAll]
    by_cases hpre : (k.isAssertion && dictHas k.key items) = true
    · rw [if_pos hpre]
      have hk := h k.group
      rw [List.filter_cons_of_pos (by simp), loadAll, if_pos hpre, applyKw_eq] at hk
      rw [applyKw_eq]
      cases hu : readKw w view mk items k with
      | err e => rw [hu] at hk; simp at hk
      | timeout => rw [hu] at hk; simp at hk
      | ok u =>
        have hf := readKw_fits _ _ _ _ _ _ hu
        rw [hu, Res.ok_bind, Upd.apply_filter _ k u hf d (inGroup_self k)] at hk
        rw [Res.ok_bind]
        cases ha : u.apply k.key d with
        | err e => rw [ha] at hk; simp at hk
        | timeout => rw [ha] at hk; simp at hk
        | ok d1 =>
          rw [ha, Res.ok_bind] at hk
          apply ih
          intro g
          by_cases hg : k.group = g
          · subst hg; exact hk
          · have hg' := h g
            rw [List.filter_cons_of_neg (by simpa using hg)] at hg'
            rw [Upd.apply_frame (inGroup g) k u hf d d1 (inGroup_other k g hg) ha]
            exact hg'
    · rw [if_neg hpre]
      apply ih
      intro g
      have hg' := h g
      by_cases hg : k.group = g
      · rw [List.filter_cons_of_pos (by simpa using hg), loadAll, if_neg hpre] at hg'; exact hg'
      · rw [List.filter_cons_of_neg (by simpa using hg)] at hg'; exact hg'

end

theorem runAll_ok_iff (rec : α → Val → Ctx → Res Unit) (w : World) (f : Nat) (v : Val) (ctx : Ctx) (d : Data α) :
    runAll rec w f v ctx d = .ok () ↔ ∀ p ∈ d, run rec w f p.2 v ctx = .ok () := by
  induction d with
  | nil => simp [runAll]
  | cons p d ih =>
    obtain ⟨k, x⟩ := p
    simp only [runAll, Res.bind_eq_ok, ih, List.mem_cons, forall_eq_or_imp]
    constructor
    · rintro ⟨_, h1, h2⟩; exact ⟨h1, h2⟩
    · rintro ⟨h1, h2⟩; exact ⟨(), h1, h2⟩

theorem runAll_groups (rec : α → Val → Ctx → Res Unit) (w : World) (f : Nat) (v : Val) (ctx : Ctx) (d : Data α) :
    runAll rec w f v ctx d = .ok () ↔ ∀ g, runAll rec w f v ctx (d.filter fun q => inGroup g q.1) = .ok () := by
  simp only [runAll_ok_iff, List.mem_filter]
  constructor
  · intro h g p hp; exact h p hp.1
  · intro h p hp; exact h (slotOwner p.1) p ⟨hp, by simp [inGroup]⟩

/-! ## Which schema members a keyword looks at -/

/-- The members of the schema object a keyword reads. -/
def Kw.reads : Kw → List Str
  | .maximum => [c!"maximum", c!"exclusiveMaximum"]
  | .exclusiveMaximum => [c!"exclusiveMaximum", c!"maximum"]
  | .minimum => [c!"minimum", c!"exclusiveMinimum"]
  | .exclusiveMinimum => [c!"exclusiveMinimum", c!"minimum"]
  | .contains => [c!"contains", c!"minContains", c!"maxContains"]
  | .items => [c!"items", c!"additionalItems"]
  | k => [k.key]

theorem getKey_congr {items items' : List (Str × Node)} {k : Str} (h : dictGet k items = dictGet k items') :
    getKey items k = getKey items' k := by unfold getKey; rw [h]

theorem dictHas_congr {β : Type} {items items' : List (Str × β)} {k : Str} (h : dictGet k items = dictGet k items') :
    dictHas k items = dictHas k items' := by unfold dictHas; rw [h]

theorem readKw_congr (w : World) (view : Node → Res Node) (mk : Node → α) (items items' : List (Str × Node)) (k : Kw)
    (h : ∀ s ∈ k.reads, dictGet s items = dictGet s items') :
    readKw w view mk items k = readKw w view mk items' k := by
  cases k <;>
    simp only [Kw.reads, Kw.key, Kw.keys, List.headD, List.mem_cons, List.not_mem_nil, or_false, forall_eq_or_imp,
      forall_eq] at h <;>
    (try obtain ⟨h, h2⟩ := h) <;> (try obtain ⟨h2, h3⟩ := h2) <;>
    simp [readKw, numKey, intKey, intValueKey, subKey, subsKey, subMapKey, *, getKey_congr h, dictHas_congr h] <;>
    simp [getKey_congr h2, dictHas_congr h2] <;> simp [getKey_congr h3, dictHas_congr h3]

theorem loadAll_congr (w : World) (view : Node → Res Node) (mk : Node → α) (items items' : List (Str × Node))
    (voc : List Kw) (h : ∀ k ∈ voc, ∀ s ∈ k.reads, dictGet s items = dictGet s items') (d : Data α) :
    loadAll w view mk items voc d = loadAll w view mk items' voc d := by
  induction voc generalizing d with
  | nil => rfl
  | cons k ks ih =>
    have hk : dictHas k.key items = dictHas k.key items' :=
      dictHas_congr (h k (by simp) _ (by cases k <;> simp [Kw.reads, Kw.key, Kw.keys]))
    have ih' := ih fun k' hk' => h k' (by simp [hk'])
    simp only [loadAll, hk, applyKw_eq, readKw_congr w view mk items items' k (h k (by simp)), ih']

theorem loadAll_skip (w : World) (view : Node → Res Node) (mk : Node → α) (items : List (Str × Node))
    (P : Kw → Bool) (voc : List Kw) (h : ∀ k ∈ voc, P k = false → dictHas k.key items = false) (d : Data α) :
    loadAll w view mk items voc d = loadAll w view mk items (voc.filter P) d := by
  induction voc generalizing d with
  | nil => rfl
  | cons k ks ih =>
    have ih' := ih fun k' hk' => h k' (by simp [hk'])
    by_cases hp : P k = true
    · rw [List.filter_cons_of_pos hp]; simp only [loadAll, ih']
    · rw [List.filter_cons_of_neg hp, loadAll, h k (by simp) (by simpa using hp)]; simp [ih']

end Verif
