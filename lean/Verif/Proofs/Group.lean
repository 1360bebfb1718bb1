import Verif.Proofs.Load
import Verif.Spec.Keywords
/-! # A schema is the conjunction of its keyword groups -/

namespace Verif

theorem view_of_not_ref (docs : List Doc) (f : Nat) (n : Node) (h : ∀ o d p, n ≠ .ref o d p) :
    view docs (f + 1) n = .ok n := by
  cases n <;> simp_all [view]

@[simp] theorem view_null (docs : List Doc) (f : Nat) : view docs (f + 1) .null = .ok .null := rfl
@[simp] theorem view_bool (docs : List Doc) (f : Nat) (b : Bool) : view docs (f + 1) (.bool b) = .ok (.bool b) := rfl
@[simp] theorem view_num (docs : List Doc) (f : Nat) (m : Num) : view docs (f + 1) (.num m) = .ok (.num m) := rfl
@[simp] theorem view_str (docs : List Doc) (f : Nat) (s : Str) : view docs (f + 1) (.str s) = .ok (.str s) := rfl
@[simp] theorem view_arr (docs : List Doc) (f : Nat) (xs : List Node) : view docs (f + 1) (.arr xs) = .ok (.arr xs) := rfl
@[simp] theorem view_obj (docs : List Doc) (f : Nat) (kvs : List (Str × Node)) :
    view docs (f + 1) (.obj kvs) = .ok (.obj kvs) := rfl

theorem validateN_obj (w : World) (docs : List Doc) (voc : List Kw) (f : Nat) (items : List (Str × Node)) (v : Val)
    (ctx : Ctx) : validateN w docs voc (f + 2) (.obj items) v ctx =
      match loadAll w (view docs (f + 1)) id items voc [] with
      | (d, .ok _) => runAll (validateN w docs voc (f + 1)) w (f + 1) v ctx d
      | (_, .err e) => .err e
      | (_, .timeout) => .timeout := by
  rw [validateN, view_of_not_ref _ _ _ (by simp)]; rfl

theorem validateN_bool (w : World) (docs : List Doc) (voc : List Kw) (f : Nat) (b : Bool) (v : Val) (ctx : Ctx) :
    validateN w docs voc (f + 2) (.bool b) v ctx = if b then .ok () else .err (raisePlain ctx.path) := by
  rw [validateN, view_of_not_ref _ _ _ (by simp)]; rfl

/-- Acceptance as loading plus running. -/
theorem accept_iff (w : World) (docs : List Doc) (voc : List Kw) (f : Nat) (items : List (Str × Node)) (v : Val)
    (ctx : Ctx) : validateN w docs voc (f + 2) (.obj items) v ctx = .ok () ↔
      ∃ d, loadAll w (view docs (f + 1)) id items voc [] = (d, .ok ()) ∧
        runAll (validateN w docs voc (f + 1)) w (f + 1) v ctx d = .ok () := by
  rw [validateN_obj]
  generalize loadAll w (view docs (f + 1)) id items voc [] = r
  obtain ⟨d, r⟩ := r
  cases r <;> simp

def groupKeys : Kw → List Str
  | .maximum => [c!"maximum", c!"exclusiveMaximum"]
  | .minimum => [c!"minimum", c!"exclusiveMinimum"]
  | .contains => [c!"contains", c!"minContains", c!"maxContains"]
  | .items => [c!"items", c!"prefixItems", c!"additionalItems"]
  | .properties =>
    [c!"properties", c!"patternProperties", c!"additionalProperties", c!"unevaluatedProperties", c!"propertyNames"]
  | .if => [c!"if", c!"then", c!"else"]
  | k => [k.key]

theorem reads_groupKeys (k : Kw) : ∀ s ∈ k.reads, s ∈ groupKeys k.group := by cases k <;> decide

/-- The group of a schema member. -/
def keyOwner (s : Str) : Kw :=
  if s ∈ groupKeys .properties then .properties
  else if s ∈ groupKeys .if then .if
  else if s ∈ groupKeys .items then .items
  else if s ∈ groupKeys .contains then .contains
  else slotOwner s

theorem keyOwner_key (k : Kw) : keyOwner k.key = k.group := by cases k <;> decide

theorem keyOwner_rep (g : Kw) (hg : g.group = g) : ∀ s ∈ groupKeys g, keyOwner s = g := by
  cases g <;> simp [Kw.group] at hg <;> decide

theorem key_not_groupKeys (k g : Kw) (hg : g.group = g) (h : k.group ≠ g) : k.key ∉ groupKeys g := by
  intro hm
  exact h ((keyOwner_key k).symm.trans (keyOwner_rep g hg _ hm))

theorem groupKeys_cooperating (k : Kw) (h : k.isAssertion = true) : groupKeys k.group ∈ cooperating := by
  cases k <;> simp [Kw.isAssertion] at h <;> decide

def allKw : List Kw :=
  [.type, .enum, .const, .maximum, .minimum, .exclusiveMaximum, .exclusiveMinimum, .multipleOf, .minLength, .maxLength,
   .minItems, .maxItems, .minProperties, .maxProperties, .uniqueItems, .contains, .items, .prefixItems, .properties,
   .patternProperties, .additionalProperties, .unevaluatedProperties, .propertyNames, .required, .dependentRequired,
   .dependentSchemas, .allOf, .anyOf, .oneOf, .not, .if, .then, .else, .format, .pattern, .ref, .anchor, .id]

theorem cooperating_groupKeys : ∀ G ∈ cooperating, ∃ g ∈ allKw, g.group = g ∧ groupKeys g = G := by decide

theorem group_group (k : Kw) : k.group.group = k.group := by cases k <;> rfl

theorem loadAll_restrict (w : World) (vw : Node → Res Node) (items : List (Str × Node)) (voc : List Kw) (g : Kw)
    (hg : g.group = g) :
    loadAll w vw (id : Node → Node) (items.filter fun p => p.1 ∈ groupKeys g) voc [] =
      loadAll w vw id items (voc.filter fun k => k.group = g) [] := by
  rw [loadAll_skip w vw id _ (fun k => decide (k.group = g)) voc]
  · apply loadAll_congr
    intro k hk s hs
    have : k.group = g := by simpa using (List.mem_filter.1 hk).2
    apply dictGet_filter (fun s => decide (s ∈ groupKeys g))
    simpa [this] using reads_groupKeys k s hs
  · intro k _ hk
    have hk : k.group ≠ g := by simpa using hk
    have := key_not_groupKeys k g hg hk
    cases h : dictHas k.key (items.filter fun p => p.1 ∈ groupKeys g) with
    | false => rfl
    | true =>
      obtain ⟨p, hp, e⟩ := List.mem_map.1 (dictHas_iff.1 h)
      have := (List.mem_filter.1 hp).2
      simp [e] at this; contradiction

theorem accept_iff_groups (w : World) (docs : List Doc) (voc : List Kw) (f : Nat) (items : List (Str × Node))
    (v : Val) (ctx : Ctx) :
    validateN w docs voc (f + 2) (.obj items) v ctx = .ok () ↔
      ∀ G ∈ cooperating, validateN w docs voc (f + 2) (.obj (items.filter fun p => p.1 ∈ G)) v ctx = .ok () := by
  constructor
  · intro h G hG
    obtain ⟨g, _, hg, rfl⟩ := cooperating_groupKeys G hG
    obtain ⟨d, hl, hr⟩ := (accept_iff ..).1 h
    rw [accept_iff, loadAll_restrict _ _ _ _ _ hg]
    exact ⟨_, loadAll_group_ok w _ id items g voc [] d hl, (runAll_groups ..).1 hr g⟩
  · intro h
    have key : ∀ g, ∃ d, loadAll w (view docs (f + 1)) id items (voc.filter fun k => k.group = g) [] = (d, .ok ()) ∧
        runAll (validateN w docs voc (f + 1)) w (f + 1) v ctx d = .ok () := by
      intro g
      by_cases hg : g.group = g
      · by_cases ha : g.isAssertion = true
        · have := h _ (hg ▸ groupKeys_cooperating g ha)
          rw [accept_iff, loadAll_restrict _ _ _ _ _ hg] at this
          exact this
        · have e : loadAll w (view docs (f + 1)) (id : Node → Node) items (voc.filter fun k => k.group = g) [] = ([], .ok ()) := by
            generalize hv : (voc.filter fun k => k.group = g) = ks
            have hk : ∀ k ∈ ks, k.isAssertion = false := by
              intro k hk
              rw [← hv] at hk
              have : k.group = g := by simpa using (List.mem_filter.1 hk).2
              subst this
              cases k <;> simp_all [Kw.isAssertion, Kw.group]
            clear hv
            induction ks with
            | nil => rfl
            | cons k ks ih =>
              rw [loadAll, hk k (by simp)]; simp [ih fun k' h' => hk k' (by simp [h'])]
          exact ⟨[], e, rfl⟩
      · refine ⟨[], ?_, rfl⟩
        have : (voc.filter fun k => k.group = g) = [] := by
          rw [List.filter_eq_nil_iff]; intro k _ hk
          have hk : k.group = g := by simpa using hk
          exact hg (hk ▸ group_group k)
        rw [this]; rfl
    have hload := loadAll_ok_of_groups w (view docs (f + 1)) (id : Node → Node) items voc []
      (fun g => by obtain ⟨d, e, _⟩ := key g; simpa using congrArg Prod.snd e)
    rw [accept_iff]
    refine ⟨_, Prod.ext rfl hload, (runAll_groups ..).2 fun g => ?_⟩
    obtain ⟨d, e, hr⟩ := key g
    have e2 := loadAll_group_ok w (view docs (f + 1)) (id : Node → Node) items g voc [] _ (Prod.ext rfl hload)
    have : d = _ := congrArg Prod.fst (e.symm.trans e2)
    rw [this] at hr; exact hr

end Verif
