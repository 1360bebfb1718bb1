import Verif.Proofs.Families
import Verif.Proofs.Scalars
/-!
# Properties C13, C22–C29: keywords that apply subschemas

As in `Verif.Props.Scalar`, each theorem is about a schema object whose recognised keywords are the ones named.  The
subschemas are arbitrary nodes; what they answer is `validateN` with one unit of fuel less.
-/

namespace Verif.Props
open Verif

variable (w : World) (docs : List Doc) (voc : List Kw) (f : Nat) (items : List (Str × Node)) (v : Val) (ctx : Ctx)

/-! ## C28 -/

/-- C28: `allOf` runs the subschemas in order, the first failure decides; so it accepts exactly if all do. -/
theorem C28_allOf (ho : Only voc items .allOf) (xs : List Node) (h : dictGet c!"allOf" items = some (.arr xs)) :
    validateN w docs voc (f + 2) (.obj items) v ctx =
      firstFail (xs.map fun s => validateN w docs voc (f + 1) s v ctx) ∧
    (validateN w docs voc (f + 2) (.obj items) v ctx = .ok () ↔
      ∀ s ∈ xs, validateN w docs voc (f + 1) s v ctx = .ok ()) := by
  have e : validateN w docs voc (f + 2) (.obj items) v ctx =
      firstFail (xs.map fun s => validateN w docs voc (f + 1) s v ctx) := by
    rw [single_set w docs voc f items v ctx .allOf (.allOf xs) ho rfl (dictHas_of_get h)
      (by simp [readKw, subsKey, getKey_of_get h])]
    exact allOfLoop_eq _ v ctx xs
  exact ⟨e, by rw [e, firstFail_ok]; simp⟩

/-- C28: `anyOf` with at least one subschema accepts exactly if one of them does, else raises a `ValidationError`. -/
theorem C28_anyOf (ho : Only voc items .anyOf) (xs : List Node) (h : dictGet c!"anyOf" items = some (.arr xs))
    (hne : xs ≠ []) (hd : ∀ s ∈ xs, Decides (validateN w docs voc (f + 1) s v ctx)) :
    (validateN w docs voc (f + 2) (.obj items) v ctx = .ok () ↔
      ∃ s ∈ xs, validateN w docs voc (f + 1) s v ctx = .ok ()) ∧
    Decides (validateN w docs voc (f + 2) (.obj items) v ctx) := by
  rw [single_set w docs voc f items v ctx .anyOf (.anyOf xs) ho rfl (dictHas_of_get h)
    (by simp [readKw, subsKey, getKey_of_get h])]
  exact anyOfLoop_spec _ v ctx xs none hd (.inl hne)

/-- C28: `oneOf` with at least one subschema accepts exactly if exactly one of them does. -/
theorem C28_oneOf (hc : CtxOk ctx) (ho : Only voc items .oneOf) (xs : List Node)
    (h : dictGet c!"oneOf" items = some (.arr xs)) (hne : xs ≠ [])
    (hd : ∀ s ∈ xs, Decides (validateN w docs voc (f + 1) s v ctx)) :
    (validateN w docs voc (f + 2) (.obj items) v ctx = .ok () ↔
      countOk (xs.map fun s => validateN w docs voc (f + 1) s v ctx) = 1) ∧
    Decides (validateN w docs voc (f + 2) (.obj items) v ctx) := by
  rw [single_set w docs voc f items v ctx .oneOf (.oneOf xs) ho rfl (dictHas_of_get h)
    (by simp [readKw, subsKey, getKey_of_get h])]
  simp only [run]
  exact runOneOf_spec _ hc xs v hne hd

/-- C28: `not` accepts exactly if its subschema rejects, else raises a `ValidationError` at the same place. -/
theorem C28_not (ho : Only voc items .not) (s : Node) (h : dictGet c!"not" items = some s)
    (hobj : ∃ kvs, view docs (f + 1) s = .ok (.obj kvs)) (hd : Decides (validateN w docs voc (f + 1) s v ctx)) :
    validateN w docs voc (f + 2) (.obj items) v ctx =
      if validateN w docs voc (f + 1) s v ctx = .ok () then rejected c!"error" ctx.path else .ok () := by
  obtain ⟨kvs, hk⟩ := hobj
  rw [single_set w docs voc f items v ctx .not (.not s) ho rfl (dictHas_of_get h)
    (by simp [readKw, subKey, getKey_of_get h, hk])]
  simp only [run, runNot]
  rcases hd with h1 | ⟨e, h1⟩ <;> simp [h1, attempt, raisePlain, rejected]

example : Only [.allOf, .anyOf] [(c!"anyOf", .arr [.bool false, .obj []])] .anyOf ∧
    Only [.allOf] [(c!"allOf", .arr [.bool false, .obj []])] .allOf ∧
    Only [.oneOf] [(c!"oneOf", .arr [.bool false, .obj []])] .oneOf ∧ Only [.not] [(c!"not", .obj [])] .not ∧
    ∀ w v, ∀ s ∈ [Node.bool false, .obj []], Decides (validateN w [] [.anyOf] 2 s v []) := by
  refine ⟨⟨by simp, by decide⟩, ⟨by simp, by decide⟩, ⟨by simp, by decide⟩, ⟨by simp, by decide⟩, ?_⟩
  intro w v s hs
  simp only [List.mem_cons, List.not_mem_nil, or_false] at hs
  rcases hs with rfl | rfl
  · exact .inr ⟨_, rfl⟩
  · exact .inl rfl

/-- C28, the hypothesis "at least one" is needed: an empty `anyOf` or `oneOf` raises `TypeError` for every value. -/
theorem C28_empty (ho : Only voc items .anyOf ∧ dictGet c!"anyOf" items = some (.arr []) ∨
    Only voc items .oneOf ∧ dictGet c!"oneOf" items = some (.arr [])) :
    validateN w docs voc (f + 2) (.obj items) v ctx = .err .typeError := by
  rcases ho with ⟨ho, h⟩ | ⟨ho, h⟩
  · rw [single_set w docs voc f items v ctx .anyOf (.anyOf []) ho rfl (dictHas_of_get h)
      (by simp [readKw, subsKey, getKey_of_get h])]
    rfl
  · rw [single_set w docs voc f items v ctx .oneOf (.oneOf []) ho rfl (dictHas_of_get h)
      (by simp [readKw, subsKey, getKey_of_get h])]
    rfl

/-! ## C29 -/

/-- The schema has `if`/`then`/`else` (any of them) with the given object values, and no other recognised keyword. -/
structure CondSchema (docs : List Doc) (f : Nat) (voc : List Kw) (items : List (Str × Node)) (i t e : Option Node) :
    Prop where
  vocI : dictHas c!"if" items = true → .if ∈ voc
  vocT : dictHas c!"then" items = true → .then ∈ voc
  vocE : dictHas c!"else" items = true → .else ∈ voc
  only : ∀ k, Present voc items k → k = .if ∨ k = .then ∨ k = .else
  getI : dictGet c!"if" items = i
  getT : dictGet c!"then" items = t
  getE : dictGet c!"else" items = e
  obj : ∀ s, i = some s ∨ t = some s ∨ e = some s → ∃ kvs, view docs (f + 1) s = .ok (.obj kvs)

theorem cond_eq (i t e : Option Node) (h : CondSchema docs f voc items i t e) :
    validateN w docs voc (f + 2) (.obj items) v ctx = runCond (validateN w docs voc (f + 1)) i t e v ctx := by
  have hread : ∀ k, Present voc items k →
      ∃ u, readKw w (view docs (f + 1)) (id : Node → Node) items k = .ok u ∧ condTarget k i t e u := by
    rintro k hk
    have hp := hk.2.2
    rcases h.only k hk with rfl | rfl | rfl
    · simp only [Kw.key, Kw.keys, List.headD, dictHas, h.getI] at hp
      obtain ⟨s, hs⟩ := Option.isSome_iff_exists.1 hp
      obtain ⟨kvs, hv⟩ := h.obj s (.inl hs)
      exact ⟨.ifs s, by simp [readKw, subKey, getKey_of_get (h.getI.trans hs), hv], rfl, hs⟩
    · simp only [Kw.key, Kw.keys, List.headD, dictHas, h.getT] at hp
      obtain ⟨s, hs⟩ := Option.isSome_iff_exists.1 hp
      obtain ⟨kvs, hv⟩ := h.obj s (.inr (.inl hs))
      exact ⟨.thens s, by simp [readKw, subKey, getKey_of_get (h.getT.trans hs), hv], rfl, hs⟩
    · simp only [Kw.key, Kw.keys, List.headD, dictHas, h.getE] at hp
      obtain ⟨s, hs⟩ := Option.isSome_iff_exists.1 hp
      obtain ⟨kvs, hv⟩ := h.obj s (.inr (.inr hs))
      exact ⟨.elses s, by simp [readKw, subKey, getKey_of_get (h.getE.trans hs), hv], rfl, hs⟩
  obtain ⟨d, hl, hd⟩ := loadAll_cond w (view docs (f + 1)) items voc i t e hread
  rw [validateN_obj, hl]
  have pres : ∀ (k : Kw) (s : Str) (x : Option Node), k.key = s → k.isAssertion = true → (dictHas s items = true → k ∈ voc) →
      dictGet s items = x → presentB voc items k = x.isSome := by
    intro k s x hs ha hv hx
    have e : dictHas s items = x.isSome := by rw [dictHas, hx]
    simp only [presentB, hs, ha, e, Bool.and_true]
    cases hi : x.isSome
    · simp
    · simp [hv (e.trans hi)]
  have p1 : presentB voc items .if = i.isSome :=
    pres .if c!"if" i rfl rfl h.vocI h.getI
  have p2 : presentB voc items .then = t.isSome :=
    pres .then c!"then" t rfl rfl h.vocT h.getT
  have p3 : presentB voc items .else = e.isSome :=
    pres .else c!"else" e rfl rfl h.vocE h.getE
  rcases hd with ⟨rfl, h1, _, _⟩ | rfl
  · rw [p1] at h1
    have : i = none := by cases i <;> simp_all
    subst this; rfl
  · simp only [p1, p2, p3, runAll, run, Res.bind_unit]
    have e1 : ∀ x : Option Node, (if x.isSome then x else none) = x := by intro x; cases x <;> rfl
    simp only [e1]

/-- C29, weaker: with `else` present whenever `if` rejects, the outcome is the one of the chosen branch.
Missing: an absent `else` when `if` rejects, see `C29_no_else_violated`. -/
theorem C29_conditional_partial (s : Node) (t e : Option Node) (h : CondSchema docs f voc items (some s) t e)
    (hd : Decides (validateN w docs voc (f + 1) s v ctx))
    (helse : validateN w docs voc (f + 1) s v ctx ≠ .ok () → e ≠ none) :
    validateN w docs voc (f + 2) (.obj items) v ctx =
      if validateN w docs voc (f + 1) s v ctx = .ok () then
        (match t with
          | some t => validateN w docs voc (f + 1) t v ctx
          | none => .ok ())
      else match e with
        | some e => validateN w docs voc (f + 1) e v ctx
        | none => .ok () := by
  rw [cond_eq w docs voc f items v ctx (some s) t e h]
  simp only [runCond]
  rcases hd with h1 | ⟨x, h1⟩
  · simp [h1, attempt]; cases t <;> rfl
  · simp [h1, attempt]
    cases e with
    | none => exact absurd rfl (helse (by simp [h1]))
    | some e => rfl

/-- C29: `then` and `else` without `if` are ignored. -/
theorem C29_no_if (t e : Option Node) (h : CondSchema docs f voc items none t e) :
    validateN w docs voc (f + 2) (.obj items) v ctx = .ok () := by
  rw [cond_eq w docs voc f items v ctx none t e h]; rfl

/-- C29 fails: without `else`, every value rejected by `if` makes validation raise `KeyError`. -/
theorem C29_no_else_violated (s : Node) (t : Option Node) (h : CondSchema docs f voc items (some s) t none)
    (x : VErr) (hr : validateN w docs voc (f + 1) s v ctx = .err (.validation x)) :
    validateN w docs voc (f + 2) (.obj items) v ctx = .err .keyError := by
  rw [cond_eq w docs voc f items v ctx (some s) t none h]
  simp [runCond, hr, attempt]

example : CondSchema [] 1 [.if, .then, .else] [(c!"if", .obj []), (c!"else", .obj [])] (some (.obj [])) none
    (some (.obj [])) :=
  ⟨by simp, by simp, by simp, by rintro k ⟨h, _⟩; simpa using h, rfl, rfl, rfl, by
    rintro s (h | h | h) <;> simp at h <;> subst h <;> exact ⟨_, rfl⟩⟩

/-- Instance of the violation: `{if: {type: "string"}, then: {}}` on `1`. -/
example : ∀ w, validateN w [] [.type, .if, .then, .else] 4
    (.obj [(c!"if", .obj [(c!"type", .str c!"string")]), (c!"then", .obj [])]) (.int 1) [] = .err .keyError := by
  intro w; rfl

/-! ## C22 -/

/-- C22, weaker: the items accepted by the subschema are counted against `minContains` (default 1) and `maxContains`.
Missing: `maxContains: 0`, see `C22_maxContains_zero_violated`. -/
theorem C22_contains_partial (hc : CtxOk ctx) (ho : Only voc items .contains) (s : Node)
    (h : dictGet c!"contains" items = some s) (hobj : ∃ kvs, view docs (f + 1) s = .ok (.obj kvs))
    (mn mx : Option Rat) (hmn : dictGet c!"minContains" items = mn.map fun q => .num (.fin q))
    (hmx : dictGet c!"maxContains" items = mx.map fun q => .num (.fin q)) (h0 : ∀ m, mx = some m → truncate m ≠ 0)
    (xs : List Val) (hd : ∀ x ∈ xs, Decides (validateN w docs voc (f + 1) s x [])) :
    validateN w docs voc (f + 2) (.obj items) (.list xs) ctx =
      if truncate (mn.getD 1) ≤ countOk (xs.map fun x => validateN w docs voc (f + 1) s x []) ∧
        (mx.all fun m => countOk (xs.map fun x => validateN w docs voc (f + 1) s x []) ≤ truncate m) = true
      then .ok () else rejected c!"contains_error" ctx.path := by
  obtain ⟨kvs, hk⟩ := hobj
  have t1 : truncate 1 = 1 := by decide +kernel
  have hr : readKw w (view docs (f + 1)) (id : Node → Node) items .contains =
      .ok (.set (.contains s (truncate (mn.getD 1)) (mx.map truncate))) := by
    cases mn with
    | none =>
      cases mx with
      | none =>
        simp only [Option.map] at hmn hmx
        simp [readKw, subKey, getKey_of_get h, hk, dictHas, hmn, hmx, t1]
      | some m =>
        simp only [Option.map] at hmn hmx
        simp [readKw, subKey, getKey_of_get h, hk, dictHas, hmn, hmx, t1, intValueKey, getKey_of_get hmx, toInt_eq]
    | some n =>
      cases mx with
      | none =>
        simp only [Option.map] at hmn hmx
        simp [readKw, subKey, getKey_of_get h, hk, dictHas, hmn, hmx, intValueKey, getKey_of_get hmn, toInt_eq]
      | some m =>
        simp only [Option.map] at hmn hmx
        simp [readKw, subKey, getKey_of_get h, hk, dictHas, hmn, hmx, intValueKey, getKey_of_get hmn,
          getKey_of_get hmx, toInt_eq]
  rw [single_set w docs voc f items _ ctx .contains _ ho rfl (dictHas_of_get h) hr]
  simp only [run, runContains, pyIter, Res.ok_bind, containsLoop_spec _ s xs 0 hd, Nat.zero_add]
  generalize countOk (xs.map fun x => validateN w docs voc (f + 1) s x []) = n
  rw [raise_ctx hc (c := .minContains) (by simp [ErrClass.all]), raise_ctx hc (c := .maxContains) (by simp [ErrClass.all])]
  by_cases h1 : truncate (mn.getD 1) ≤ n
  · rw [if_neg (by omega)]
    cases mx with
    | none => simp [h1]
    | some m =>
      have := h0 m rfl
      by_cases h2 : (n : Int) ≤ truncate m
      · simp [h1, h2]
      · simp [h1, h2, this, Int.not_le.1 h2, rejected, ErrClass.maxContains]
  · rw [if_pos (by omega), if_neg (by simp [h1])]; rfl

example : Only [.contains] [(c!"contains", .obj []), (c!"minContains", .num (.fin 2))] .contains ∧
    (∃ kvs, view [] 1 (.obj []) = .ok (.obj kvs)) ∧ ∀ w x, Decides (validateN w [] [.contains] 2 (.obj []) x []) :=
  ⟨⟨by simp, by decide⟩, ⟨_, rfl⟩, fun _ _ => .inl rfl⟩

/-- C22 fails: `{contains: {}, maxContains: 0}` accepts `[null]`, in which one item is accepted by the subschema. -/
theorem C22_maxContains_zero_violated : ∀ w,
    validateN w [] [.contains] 3 (.obj [(c!"contains", .obj []), (c!"maxContains", .num (.fin 0))]) (.list [.null]) [] =
      .ok () ∧ validateN w [] [.contains] 2 (.obj []) .null [] = .ok () := by
  intro w
  refine ⟨?_, rfl⟩
  simp [validateN, view, loadAll, Kw.isAssertion, Kw.key, Kw.keys, dictHas, dictGet, applyKw, applyContains, subKey,
    intValueKey, getKey, dictSet, runAll, run, runContains, pyIter, containsLoop, attempt, Num.toInt]

/-! ## C23 -/

/-- A node that the code takes for a subschema: an object, possibly through a reference, or a boolean. -/
def IsSchema (docs : List Doc) (f : Nat) (s : Node) : Prop :=
  (∃ kvs, view docs (f + 1) s = .ok (.obj kvs)) ∨ ∃ b, s = .bool b

/-- C23: `{items: S}` applies `S` to every item, in order, at the item's index. -/
theorem C23_items (ho : Only voc items .items) (s : Node) (h : dictGet c!"items" items = some s)
    (hs : IsSchema docs (f + 1) s) (xs : List Val) :
    validateN w docs voc (f + 3) (.obj items) (.list xs) ctx =
      firstFail (xs.zipIdx.map fun p => validateN w docs voc (f + 2) s p.1 (ctx ++ [natStr p.2])) := by
  have key : ∀ (its : Option Node), readKw w (view docs (f + 2)) (id : Node → Node) items .items = .ok (.itemsOne its) →
      validateN w docs voc (f + 3) (.obj items) (.list xs) ctx =
        runArray (validateN w docs voc (f + 2)) (f + 2) none its (.list xs) ctx := by
    intro its hr
    rw [single_upd w docs voc (f + 1) items _ ctx .items _ [(c!"items", .array none its)] ho rfl (dictHas_of_get h) hr
      (by simp [Upd.apply, arrayOf, dictGet, dictSet]) (by simp [Upd.apply, arrayOf, dictGet, dictSet])]
    simp [runAll, run, Res.bind_unit]
  rcases hs with ⟨kvs, hk⟩ | ⟨b, rfl⟩
  · rw [key (some s) (by simp [readKw, getKey_of_get h, hk])]
    simp [runArray, arrayLoop, itemsLoop_eq]
  · cases b
    · rw [key (some (.bool false)) (by simp [readKw, getKey_of_get h])]
      simp [runArray, arrayLoop, itemsLoop_eq]
    · rw [key none (by simp [readKw, getKey_of_get h])]
      simp only [runArray, Option.getD, arrayLoop]
      symm; rw [firstFail_ok]
      intro r hr
      obtain ⟨p, _, rfl⟩ := List.mem_map.1 hr
      exact validateN_bool ..

/-- C23, weaker: `{prefixItems: [S0, S1, ...]}` applies the i-th subschema to the i-th item of a list that is at least
as long.  Missing: shorter lists, see `C23_short_list_violated`. -/
theorem C23_prefixItems_partial (ho : Only voc items .prefixItems) (ps : List Node)
    (h : dictGet c!"prefixItems" items = some (.arr ps)) (xs : List Val) (hl : ps.length ≤ xs.length) :
    validateN w docs voc (f + 2) (.obj items) (.list xs) ctx =
      firstFail ((ps.zip xs.zipIdx).map fun p => validateN w docs voc (f + 1) p.1 p.2.1 (ctx ++ [natStr p.2.2])) := by
  rw [single_upd w docs voc f items _ ctx .prefixItems (.pre ps) [(c!"prefixItems", .array (some ps) none)] ho rfl
    (dictHas_of_get h) (by simp [readKw, subsKey, getKey_of_get h])
    (by simp [Upd.apply, dictSet, dictHas, dictGet]) (by simp [Upd.apply, dictSet, dictHas, dictGet])]
  simp [runAll, run, Res.bind_unit, runArray, arrayLoop_eq _ _ _ _ _ _ _ hl]

/-- C23, weaker: the draft-4 form `{items: [S0, ...], additionalItems: A}` applies the i-th subschema to the i-th item
and `A` to the remaining ones.  Missing: shorter lists. -/
theorem C23_tuple_items_partial (ho : Only voc items .items) (ps : List Node)
    (h : dictGet c!"items" items = some (.arr ps)) (a : Option Node) (ha : dictGet c!"additionalItems" items = a)
    (has : ∀ s, a = some s → IsSchema docs (f + 1) s) (xs : List Val) (hl : ps.length ≤ xs.length) :
    validateN w docs voc (f + 3) (.obj items) (.list xs) ctx =
      firstFail (((ps.zip xs.zipIdx).map fun p =>
          validateN w docs voc (f + 2) p.1 p.2.1 (ctx ++ [natStr p.2.2])) ++
        match a with
        | none => []
        | some s => (xs.zipIdx.drop ps.length).map fun p => validateN w docs voc (f + 2) s p.1 (ctx ++ [natStr p.2])) := by
  have key : ∀ (its : Option Node),
      readKw w (view docs (f + 2)) (id : Node → Node) items .items = .ok (.itemsArr ps its) →
      validateN w docs voc (f + 3) (.obj items) (.list xs) ctx =
        runArray (validateN w docs voc (f + 2)) (f + 2) (some ps) its (.list xs) ctx := by
    intro its hr
    rw [single_upd w docs voc (f + 1) items _ ctx .items _ [(c!"items", .array (some ps) its)] ho rfl
      (dictHas_of_get h) hr (by simp [Upd.apply, arrayOf, dictGet, dictSet])
      (by simp [Upd.apply, arrayOf, dictGet, dictSet])]
    simp [runAll, run, Res.bind_unit]
  cases a with
  | none =>
    rw [key none (by simp [readKw, getKey_of_get h, ha])]
    simp [runArray, arrayLoop_eq _ _ _ _ _ _ _ hl]
  | some s =>
    rcases has s rfl with ⟨kvs, hk⟩ | ⟨b, rfl⟩
    · rw [key (some s) (by simp [readKw, getKey_of_get h, ha, hk])]
      simp [runArray, arrayLoop_eq _ _ _ _ _ _ _ hl]
    · cases b
      · rw [key (some (.bool false)) (by simp [readKw, getKey_of_get h, ha])]
        simp [runArray, arrayLoop_eq _ _ _ _ _ _ _ hl]
      · rw [key none (by simp [readKw, getKey_of_get h, ha])]
        simp only [runArray, arrayLoop_eq _ _ _ _ _ _ _ hl, Option.getD, List.append_nil]
        rw [firstFail_append]
        have : firstFail ((xs.zipIdx.drop ps.length).map fun p =>
            validateN w docs voc (f + 2) (.bool true) p.1 (ctx ++ [natStr p.2])) = .ok () := by
          rw [firstFail_ok]
          intro r hr
          obtain ⟨p, _, rfl⟩ := List.mem_map.1 hr
          exact validateN_bool ..
        rw [this, Res.bind_unit]

example : Only [.items] [(c!"items", .arr [.bool true, .obj []]), (c!"additionalItems", .bool false)] .items ∧
    Only [.items, .prefixItems] [(c!"prefixItems", .arr [.bool true, .obj []])] .prefixItems ∧
    IsSchema [] 1 (.bool false) ∧ IsSchema [] 1 (.obj []) :=
  ⟨⟨by simp, by decide⟩, ⟨by simp, by decide⟩, .inr ⟨_, rfl⟩, .inl ⟨_, rfl⟩⟩

/-- C23 fails for short lists: `{prefixItems: [{type: "string"}]}` rejects the empty list, at an index it does not
have; and `{prefixItems: [{}]}` never answers on the empty list. -/
theorem C23_short_list_violated : ∀ w,
    validateN w [] [.type, .prefixItems] 4
      (.obj [(c!"prefixItems", .arr [.obj [(c!"type", .str c!"string")]])]) (.list []) [] =
        rejected c!"type_error" c!"0" ∧
    ∀ f, validateN w [] [.type, .prefixItems] f (.obj [(c!"prefixItems", .arr [.obj []])]) (.list []) [] = .timeout := by
  intro w
  constructor
  · have : raiseErr .typeError (Ctx.path ([] ++ [natStr 0])) = .validation ⟨c!"type_error", c!"0", []⟩ :=
      raise_ctx (ctx := [natStr 0]) (c := .typeError) (by
        intro k hk; simp at hk; subst hk; exact toDigits_noBrace 0) (by simp [ErrClass.all]) []
    simp [validateN, view, loadAll, Kw.isAssertion, Kw.key, Kw.keys, dictHas, dictGet, applyKw, applyPrefixItems,
      applyType, validTypes, subsKey, getKey, dictSet, runAll, run, runArray, arrayLoop, spin, runType, typeName, rejected]
    simpa using this
  · intro f
    match f with
    | 0 => rfl
    | 1 => rfl
    | 2 => rfl
    | f + 3 =>
      have h1 : validateN w [] [.type, .prefixItems] (f + 2) (.obj []) .null [natStr 0] = .ok () := by
        rw [validateN_obj]; rfl
      have hspin : ∀ n, spin n (.ok ()) = .timeout := by
        intro n; induction n with
        | zero => rfl
        | succ n ih => simp [spin, ih]
      rw [single_upd w [] [.type, .prefixItems] (f + 1) _ _ [] .prefixItems (.pre [.obj []])
        [(c!"prefixItems", .array (some [.obj []]) none)] ⟨by simp, by decide⟩ rfl rfl rfl
        (by simp [Upd.apply, dictSet, dictHas, dictGet]) (by simp [Upd.apply, dictSet, dictHas, dictGet])]
      simp [runAll, run, runArray, arrayLoop, h1, hspin]

/-- C23 fails when both keywords are given: with `items` before `prefixItems` in the vocabulary every validation raises
`KeyError`, and in the other order `items` is applied from index 0 on. -/
theorem C23_both_violated : ∀ w v,
    validateN w [] [.type, .items, .prefixItems] 4
      (.obj [(c!"prefixItems", .arr [.obj [(c!"type", .str c!"string")]]),
        (c!"items", .obj [(c!"type", .str c!"integer")])]) v [] = .err .keyError ∧
    validateN w [] [.type, .prefixItems, .items] 4
      (.obj [(c!"prefixItems", .arr [.obj [(c!"type", .str c!"string")]]),
        (c!"items", .obj [(c!"type", .str c!"integer")])]) (.list [.str c!"a", .int 1]) [] =
        rejected c!"type_error" c!"0" := by
  intro w v
  constructor
  · rfl
  · have : raiseErr .typeError (Ctx.path ([] ++ [natStr 0])) = .validation ⟨c!"type_error", c!"0", []⟩ :=
      raise_ctx (ctx := [natStr 0]) (c := .typeError) (by
        intro k hk; simp at hk; subst hk; exact toDigits_noBrace 0) (by simp [ErrClass.all]) []
    simp [validateN, view, loadAll, Kw.isAssertion, Kw.key, Kw.keys, dictHas, dictGet, applyKw, applyPrefixItems,
      applyItems, arrayOf, applyType, validTypes, subsKey, getKey, dictSet, runAll, run, runArray, arrayLoop,
      itemsLoop, runType, typeName, rejected]
    simpa using this

/-! ## C26, C27 -/

/-- C26: `{required: [...]}` accepts a dict exactly if every listed name is a key; else `required_property_error`
names the first missing one. -/
theorem C26_required (hc : CtxOk ctx) (ho : Only voc items .required) (names : List Str)
    (h : dictGet c!"required" items = some (.arr (names.map .str))) (kvs : List (Str × Val)) :
    ((∀ n ∈ names, n ∈ kvs.map Prod.fst) →
      validateN w docs voc (f + 2) (.obj items) (.dict kvs) ctx = .ok ()) ∧
    ∀ pre n post, names = pre ++ n :: post → (∀ m ∈ pre, m ∈ kvs.map Prod.fst) → n ∉ kvs.map Prod.fst →
      validateN w docs voc (f + 2) (.obj items) (.dict kvs) ctx =
        rejected c!"required_property_error" ctx.path n := by
  have e : (names.map Node.str).map (nodeStr w) = names := by
    rw [List.map_map]
    have : (nodeStr w ∘ Node.str) = id := by funext s; rfl
    rw [this, List.map_id]
  rw [single_set w docs voc f items _ ctx .required (.required names) ho rfl (dictHas_of_get h)
    (by simp only [readKw, getKey_of_get h, Res.ok_bind, view_arr, seqOf_arr, e])]
  simp only [run, runRequired_spec, raise_ctx hc (c := .required) (by simp [ErrClass.all])]
  constructor
  · intro hall
    have : names.find? (fun k => !dictHas k kvs) = none := by
      rw [List.find?_eq_none]; intro n hn
      simp [dictHas_iff.2 (hall n hn)]
    rw [this]
  · rintro pre n post rfl hpre hn
    have : (pre ++ n :: post).find? (fun k => !dictHas k kvs) = some n := by
      rw [List.find?_append]
      have h1 : pre.find? (fun k => !dictHas k kvs) = none := by
        rw [List.find?_eq_none]; intro m hm
        simp [dictHas_iff.2 (hpre m hm)]
      have h2 : dictHas n kvs = false := by
        cases hh : dictHas n kvs with
        | false => rfl
        | true => exact absurd (dictHas_iff.1 hh) hn
      rw [h1]; simp [h2]
    rw [this]; rfl

example : Only [.required] [(c!"required", .arr ([c!"a", c!"b"].map .str))] .required := ⟨by simp, by decide⟩

/-- C27: `dependentRequired` accepts a dict exactly if each present trigger has all its names present; the error is
`dependent_error`. -/
theorem C27_dependentRequired (hc : CtxOk ctx) (ho : Only voc items .dependentRequired) (m : List (Str × List Str))
    (h : dictGet c!"dependentRequired" items = some (.obj (m.map fun p => (p.1, .arr (p.2.map .str)))))
    (kvs : List (Str × Val)) :
    ((∀ p ∈ m, p.1 ∈ kvs.map Prod.fst → ∀ n ∈ p.2, n ∈ kvs.map Prod.fst) →
      validateN w docs voc (f + 2) (.obj items) (.dict kvs) ctx = .ok ()) ∧
    ((∃ p ∈ m, p.1 ∈ kvs.map Prod.fst ∧ ∃ n ∈ p.2, n ∉ kvs.map Prod.fst) →
      ∃ p ∈ m, p.1 ∈ kvs.map Prod.fst ∧ ∃ n ∈ p.2, n ∉ kvs.map Prod.fst ∧
        validateN w docs voc (f + 2) (.obj items) (.dict kvs) ctx = rejected c!"dependent_error" ctx.path n) := by
  rw [single_set w docs voc f items _ ctx .dependentRequired (.dependentRequired m) ho rfl (dictHas_of_get h)
    (by simp only [readKw, getKey_of_get h, Res.ok_bind, view_obj, strItemsMap_strings])]
  simp only [run, depRequiredLoop_spec, raise_ctx hc (c := .dependent) (by simp [ErrClass.all])]
  constructor
  · intro hall
    have : ((m.filter fun p => dictHas p.1 kvs).flatMap Prod.snd).find? (fun k => !dictHas k kvs) = none := by
      rw [List.find?_eq_none]; intro n hn
      obtain ⟨p, hp, hn⟩ := List.mem_flatMap.1 hn
      have := List.mem_filter.1 hp
      simp [dictHas_iff.2 (hall p this.1 (dictHas_iff.1 this.2) n hn)]
    rw [this]
  · rintro ⟨p, hp, hk, n, hn, hm⟩
    cases hf : ((m.filter fun p => dictHas p.1 kvs).flatMap Prod.snd).find? (fun k => !dictHas k kvs) with
    | none =>
      rw [List.find?_eq_none] at hf
      have := hf n (List.mem_flatMap.2 ⟨p, List.mem_filter.2 ⟨hp, dictHas_iff.2 hk⟩, hn⟩)
      simp only [Bool.not_eq_true', Bool.not_eq_false] at this
      exact absurd (dictHas_iff.1 this) hm
    | some n' =>
      obtain ⟨q, hq, hn'⟩ := List.mem_flatMap.1 (List.mem_of_find?_eq_some hf)
      have hq' := List.mem_filter.1 hq
      have hp' := List.find?_some hf
      refine ⟨q, hq'.1, dictHas_iff.1 hq'.2, n', hn', ?_, rfl⟩
      intro hc; simp [dictHas_iff.2 hc] at hp'

/-- C27: the names need not be in an array.  A text stands for its characters, and an object for its keys: `{"dependentRequired": {"a": "bc"}}`, which is no JSON Schema (C30), is taken, and demands `b`
and `c` beside `a`. -/
theorem C27_dependentRequired_loose (hc : CtxOk ctx) (ho : Only voc items .dependentRequired) (k : Str) (x : Node) (names : List Str)
    (hx : (∃ s, x = .str s ∧ names = s.map fun c => [c]) ∨ ∃ m, x = .obj m ∧ names = m.map Prod.fst) (h : dictGet c!"dependentRequired" items = some (.obj [(k, x)])) (kvs : List (Str × Val)) :
    (validateN w docs voc (f + 2) (.obj items) (.dict kvs) ctx = .ok () ↔ (k ∈ kvs.map Prod.fst → ∀ n ∈ names, n ∈ kvs.map Prod.fst)) ∧
    (validateN w docs voc (f + 2) (.obj items) (.dict kvs) ctx ≠ .ok () →
      ∃ n ∈ names, n ∉ kvs.map Prod.fst ∧ validateN w docs voc (f + 2) (.obj items) (.dict kvs) ctx = rejected c!"dependent_error" ctx.path n) := by
  have hs : strItems w x = .ok names := by rcases hx with ⟨s, rfl, rfl⟩ | ⟨m, rfl, rfl⟩ <;> rfl
  rw [single_set w docs voc f items _ ctx .dependentRequired (.dependentRequired [(k, names)]) ho rfl (dictHas_of_get h)
    (by simp only [readKw, getKey_of_get h, Res.ok_bind, view_obj, strItemsMap, hs])]
  simp only [run, depRequiredLoop_spec, raise_ctx hc (c := .dependent) (by simp [ErrClass.all])]
  cases hk : dictHas k kvs with
  | false =>
    have : k ∉ kvs.map Prod.fst := fun hm => by rw [dictHas_iff.2 hm] at hk; cases hk
    simp only [List.filter_cons, hk, List.filter_nil, Bool.false_eq_true, if_false, List.flatMap_nil, List.find?_nil]
    exact ⟨⟨fun _ hm => absurd hm this, fun _ => trivial⟩, fun h => absurd rfl h⟩
  | true =>
    simp only [List.filter_cons, hk, List.filter_nil, if_true, List.flatMap_cons, List.flatMap_nil, List.append_nil]
    cases hf : names.find? fun k => !dictHas k kvs with
    | none =>
      rw [List.find?_eq_none] at hf
      refine ⟨⟨fun _ _ n hn => ?_, fun _ => rfl⟩, fun h => absurd rfl h⟩
      have := hf n hn
      simp only [Bool.not_eq_true', Bool.not_eq_false] at this
      exact dictHas_iff.1 this
    | some n =>
      have hn := List.mem_of_find?_eq_some hf
      have hp := List.find?_some hf
      have hm : n ∉ kvs.map Prod.fst := fun h => by simp [dictHas_iff.2 h] at hp
      refine ⟨⟨fun h => ?_, fun h => absurd (h (dictHas_iff.1 hk) n hn) hm⟩, fun _ => ⟨n, hn, hm, rfl⟩⟩
      simp [rejected] at h

example : Only [.dependentRequired] [(c!"dependentRequired", .obj [(c!"a", .str c!"bc")])] .dependentRequired := ⟨by simp, by decide⟩

/-- C27: `dependentSchemas` runs the schema of each present trigger, in order, on the whole dict. -/
theorem C27_dependentSchemas (ho : Only voc items .dependentSchemas) (m : List (Str × Node))
    (h : dictGet c!"dependentSchemas" items = some (.obj m)) (kvs : List (Str × Val)) :
    validateN w docs voc (f + 2) (.obj items) (.dict kvs) ctx =
      firstFail ((m.filter fun p => p.1 ∈ kvs.map Prod.fst).map fun p =>
        validateN w docs voc (f + 1) p.2 (.dict kvs) ctx) ∧
    (validateN w docs voc (f + 2) (.obj items) (.dict kvs) ctx = .ok () ↔
      ∀ p ∈ m, p.1 ∈ kvs.map Prod.fst → validateN w docs voc (f + 1) p.2 (.dict kvs) ctx = .ok ()) := by
  have hid : (m.map fun p => (p.1, id p.2)) = m := by simp
  have e : validateN w docs voc (f + 2) (.obj items) (.dict kvs) ctx =
      firstFail ((m.filter fun p => p.1 ∈ kvs.map Prod.fst).map fun p =>
        validateN w docs voc (f + 1) p.2 (.dict kvs) ctx) := by
    rw [single_set w docs voc f items _ ctx .dependentSchemas (.dependentSchemas m) ho rfl (dictHas_of_get h)
      (by simp only [readKw, subMapKey, getKey_of_get h, Res.ok_bind, view_obj, hid])]
    simp only [run, depSchemasLoop_eq]
    congr 2
    apply List.filter_congr
    intro p _
    rw [Bool.eq_iff_iff, dictHas_iff]; simp
  refine ⟨e, ?_⟩
  rw [e, firstFail_ok]
  constructor
  · intro hall p hp hk
    exact hall _ (List.mem_map.2 ⟨p, List.mem_filter.2 ⟨hp, by simpa using hk⟩, rfl⟩)
  · intro hall r hr
    obtain ⟨p, hp, rfl⟩ := List.mem_map.1 hr
    have := List.mem_filter.1 hp
    exact hall p this.1 (by simpa using this.2)

/-- C27: both accept every value that is not a dict. -/
theorem C27_non_objects (hv : ∀ kvs, v ≠ .dict kvs) :
    (∀ m : List (Str × List Str), Only voc items .dependentRequired →
      dictGet c!"dependentRequired" items = some (.obj (m.map fun p => (p.1, .arr (p.2.map .str)))) →
      validateN w docs voc (f + 2) (.obj items) v ctx = .ok ()) ∧
    (∀ m, Only voc items .dependentSchemas → dictGet c!"dependentSchemas" items = some (.obj m) →
      validateN w docs voc (f + 2) (.obj items) v ctx = .ok ()) := by
  constructor
  · intro m ho h
    rw [single_set w docs voc f items _ ctx .dependentRequired (.dependentRequired m) ho rfl (dictHas_of_get h)
      (by simp only [readKw, getKey_of_get h, Res.ok_bind, view_obj, strItemsMap_strings])]
    cases v <;> simp_all [run]
  · intro m ho h
    have hid : (m.map fun p => (p.1, id p.2)) = m := by simp
    rw [single_set w docs voc f items _ ctx .dependentSchemas (.dependentSchemas m) ho rfl (dictHas_of_get h)
      (by simp only [readKw, subMapKey, getKey_of_get h, Res.ok_bind, view_obj, hid])]
    cases v <;> simp_all [run]

example : Only [.dependentRequired] [(c!"dependentRequired", .obj [(c!"a", .arr [.str c!"b"])])] .dependentRequired ∧
    Only [.dependentSchemas] [(c!"dependentSchemas", .obj [(c!"a", .obj [])])] .dependentSchemas :=
  ⟨⟨by simp, by decide⟩, ⟨by simp, by decide⟩⟩

/-! ## C24, C25 -/

/-- The schema has `properties`, `patternProperties`, `additionalProperties`, `unevaluatedProperties` and
`propertyNames` (any of them) with the given values and no other recognised keyword. -/
structure ObjSchema (w : World) (docs : List Doc) (f : Nat) (voc : List Kw) (items : List (Str × Node))
    (props pats : Option (List (Str × Node))) (addl : Option Node) (uneval : Option Bool) (names : Option Node) :
    Prop where
  inVoc : ∀ k ∈ [Kw.properties, .patternProperties, .additionalProperties, .unevaluatedProperties, .propertyNames],
    dictHas k.key items = true → k ∈ voc
  only : ∀ k, Present voc items k → k = .properties ∨ k = .patternProperties ∨ k = .additionalProperties ∨
    k = .unevaluatedProperties ∨ k = .propertyNames
  getP : dictGet c!"properties" items = props.map .obj
  getQ : dictGet c!"patternProperties" items = pats.map .obj
  getA : dictGet c!"additionalProperties" items = addl
  getU : dictGet c!"unevaluatedProperties" items = uneval.map .bool
  getN : dictGet c!"propertyNames" items = names
  nodup : ((props.getD []).map Prod.fst).Nodup
  compile : ∀ p ∈ pats.getD [], ∃ m, w.search p.1 = some m
  addlOk : ∀ s, addl = some s → IsSchema docs f s
  namesOk : ∀ s, names = some s → ∃ kvs, view docs (f + 1) s = .ok (.obj kvs)

/-- How the code stores the value of `additionalProperties`. -/
def addlSub : Node → Option (Sub Node)
  | .bool true => none
  | .bool false => some .fail
  | n => some (.lazy n)

theorem object_schema (props pats : Option (List (Str × Node))) (addl : Option Node) (uneval : Option Bool)
    (names : Option Node) (h : ObjSchema w docs f voc items props pats addl uneval names) :
    ∃ o : ObjV Node, validateN w docs voc (f + 2) (.obj items) v ctx = runObject (validateN w docs voc (f + 1)) w o v ctx ∧
      (∀ n, dictGet n o.props = dictGet n (props.getD [])) ∧ o.patterns = pats ∧ o.additional = addl.bind addlSub ∧
      o.unevaluated = (uneval == some false) ∧ o.names = names := by
  let T : ObjV Node := ⟨props.getD [], pats, addl.bind addlSub, uneval == some false, names⟩
  have hid : ∀ m : List (Str × Node), (m.map fun p => (p.1, id p.2)) = m := by simp
  have hread : ∀ k, Present voc items k →
      ∃ u, readKw w (view docs (f + 1)) (id : Node → Node) items k = .ok u ∧ objTarget k T u := by
    rintro k hk
    have hp := hk.2.2
    rcases h.only k hk with rfl | rfl | rfl | rfl | rfl
    · simp only [Kw.key, Kw.keys, List.headD, dictHas, h.getP] at hp
      obtain ⟨s, hs⟩ : ∃ s, props = some s := by cases props <;> simp_all
      refine ⟨.props s, ?_, rfl, ?_, ?_⟩
      · have := h.getP; rw [hs] at this
        simp only [readKw, subMapKey, getKey_of_get this, Res.ok_bind, view_obj, hid]
      · simpa [hs] using h.nodup
      · simp [T, hs]
    · simp only [Kw.key, Kw.keys, List.headD, dictHas, h.getQ] at hp
      obtain ⟨s, hs⟩ : ∃ s, pats = some s := by cases pats <;> simp_all
      refine ⟨.patterns s, ?_, rfl, ?_⟩
      · have := h.getQ; rw [hs] at this
        simp only [readKw, subMapKey, getKey_of_get this, Res.ok_bind, view_obj, hid]
      · simp [T, hs]
    · simp only [Kw.key, Kw.keys, List.headD, dictHas, h.getA] at hp
      obtain ⟨s, hs⟩ := Option.isSome_iff_exists.1 hp
      refine ⟨.additional (addlSub s), ?_, rfl, ?_⟩
      · have := h.getA; rw [hs] at this
        rcases h.addlOk s hs with ⟨q, hq⟩ | ⟨b, rfl⟩
        · simp only [readKw, getKey_of_get this, Res.ok_bind, hq]
          cases s <;> simp_all [addlSub]
        · simp only [readKw, getKey_of_get this, Res.ok_bind, view_bool]
          cases b <;> rfl
      · simp [T, hs]
    · simp only [Kw.key, Kw.keys, List.headD, dictHas, h.getU] at hp
      obtain ⟨s, hs⟩ : ∃ s, uneval = some s := by cases uneval <;> simp_all
      refine ⟨.unevaluated (!s), ?_, rfl, ?_⟩
      · have := h.getU; rw [hs] at this
        simp only [readKw, getKey_of_get this, Res.ok_bind, Option.map, view_bool]
        cases s <;> rfl
      · cases s <;> simp [T, hs]
    · simp only [Kw.key, Kw.keys, List.headD, dictHas, h.getN] at hp
      obtain ⟨s, hs⟩ := Option.isSome_iff_exists.1 hp
      obtain ⟨kvs, hv⟩ := h.namesOk s hs
      exact ⟨.names s, by simp [readKw, subKey, getKey_of_get (h.getN.trans hs), hv], rfl, by simp [T, hs]⟩
  obtain ⟨d, hl, hd⟩ := loadAll_object w (view docs (f + 1)) items voc T hread
  rw [validateN_obj, hl]
  have pres : ∀ k ∈ [Kw.properties, .patternProperties, .additionalProperties, .unevaluatedProperties, .propertyNames],
      presentB voc items k = dictHas k.key items := by
    intro k hk
    have ha : k.isAssertion = true := by revert k; decide
    simp only [presentB, ha, Bool.and_true]
    cases hh : dictHas k.key items with
    | false => simp
    | true => simp [h.inVoc k hk hh]
  have p1 : presentB voc items .properties = props.isSome := by
    rw [pres _ (by simp)]; simp [Kw.key, Kw.keys, dictHas, h.getP]
  have p2 : presentB voc items .patternProperties = pats.isSome := by
    rw [pres _ (by simp)]; simp [Kw.key, Kw.keys, dictHas, h.getQ]
  have p3 : presentB voc items .additionalProperties = addl.isSome := by
    rw [pres _ (by simp)]; simp [Kw.key, Kw.keys, dictHas, h.getA]
  have p4 : presentB voc items .unevaluatedProperties = uneval.isSome := by
    rw [pres _ (by simp)]; simp [Kw.key, Kw.keys, dictHas, h.getU]
  have p5 : presentB voc items .propertyNames = names.isSome := by
    rw [pres _ (by simp)]; simp [Kw.key, Kw.keys, dictHas, h.getN]
  rcases hd with ⟨rfl, h1, h2, h3, h4, h5⟩ | ⟨o, rfl, h1, h2, h3, h4, h5⟩
  · rw [p1] at h1; rw [p2] at h2; rw [p3] at h3; rw [p4] at h4; rw [p5] at h5
    cases props <;> simp at h1
    cases pats <;> simp at h2
    cases addl <;> simp at h3
    cases uneval <;> simp at h4
    cases names <;> simp at h5
    exact ⟨{}, by simp [runAll, runObject_empty], by simp [dictGet]⟩
  · refine ⟨o, by simp [runAll, run, Res.bind_unit], ?_, ?_, ?_, ?_, ?_⟩
    · intro n; rw [h1, p1]; cases props <;> simp [T, dictGet]
    · rw [h2, p2]; cases pats <;> simp [T]
    · rw [h3, p3]; cases addl <;> simp [T]
    · rw [h4, p4]; cases uneval <;> simp [T]
    · rw [h5, p5]; cases names <;> simp [T]

/-- What is to be checked for one member: its own schema if it is named, else the schemas of all patterns found in its
name, else the schema for additional members. -/
def memberChecks (w : World) (props pats : Option (List (Str × Node))) (addl : Option Node) (name : Str) : List Node :=
  match dictGet name (props.getD []) with
  | some s => [s]
  | none =>
    match (pats.getD []).filter fun p => (w.search p.1).any (· name) with
    | p :: ps => (p :: ps).map Prod.snd
    | [] => match addl with
      | some s => [s]
      | none => []

/-- C24: a dict is checked member by member, each by exactly the schemas of `memberChecks`; it is accepted exactly if
all of these accept. -/
theorem C24_partition (props pats : Option (List (Str × Node))) (addl : Option Node)
    (h : ObjSchema w docs (f + 1) voc items props pats addl none none) (kvs : List (Str × Val)) :
    validateN w docs voc (f + 3) (.obj items) (.dict kvs) ctx =
      firstFail (kvs.map fun p => firstFail ((memberChecks w props pats addl p.1).map fun s =>
        validateN w docs voc (f + 2) s p.2 (ctx ++ [p.1]))) ∧
    (validateN w docs voc (f + 3) (.obj items) (.dict kvs) ctx = .ok () ↔
      ∀ p ∈ kvs, ∀ s ∈ memberChecks w props pats addl p.1,
        validateN w docs voc (f + 2) s p.2 (ctx ++ [p.1]) = .ok ()) := by
  have e : validateN w docs voc (f + 3) (.obj items) (.dict kvs) ctx =
      firstFail (kvs.map fun p => firstFail ((memberChecks w props pats addl p.1).map fun s =>
        validateN w docs voc (f + 2) s p.2 (ctx ++ [p.1]))) := by
    obtain ⟨o, hd, ho1, ho2, ho3, ho4, ho5⟩ := object_schema w docs voc (f + 1) items (.dict kvs) ctx props pats addl none none h
    rw [hd]
    simp only [runObject, objectLoop_eq]
    congr 1
    apply List.map_congr_left
    rintro ⟨k, x⟩ _
    rw [objectItem_eq _ w o k x ctx (by rw [ho2]; exact h.compile)]
    simp only [ho5, ho1, ho2, memberChecks, Res.ok_bind, matching]
    cases hp : dictGet k (props.getD []) with
    | some s => simp [firstFail_cons, firstFail, Res.bind_unit]
    | none =>
      simp only []
      cases hf : (pats.getD []).filter fun p => (w.search p.1).any (· k) with
      | cons p ps => simp [Res.bind_unit]; rfl
      | nil =>
        simp only [List.map_nil, firstFail, List.isEmpty_nil, Res.ok_bind, if_true, extraItem, ho3, ho4]
        cases addl with
        | none => simp [firstFail]
        | some s =>
          rcases h.addlOk s rfl with ⟨q, hq⟩ | ⟨b, rfl⟩
          · cases s <;> simp_all [addlSub, firstFail_cons, firstFail, Res.bind_unit]
          · cases b <;> simp [addlSub, firstFail_cons, firstFail, validateN_bool]
  refine ⟨e, ?_⟩
  rw [e, firstFail_ok]
  constructor
  · intro hall p hp s hs
    have := hall _ (List.mem_map.2 ⟨p, hp, rfl⟩)
    exact (firstFail_ok _).1 this _ (List.mem_map.2 ⟨s, hs, rfl⟩)
  · intro hall r hr
    obtain ⟨p, hp, rfl⟩ := List.mem_map.1 hr
    rw [firstFail_ok]; intro r hr
    obtain ⟨s, hs, rfl⟩ := List.mem_map.1 hr
    exact hall p hp s hs

example (w : World) (m : Str → Bool) (hm : w.search c!"^x" = some m) :
    ObjSchema w [] 1 [.properties, .patternProperties, .additionalProperties, .type]
      [(c!"properties", .obj [(c!"a", .bool true)]), (c!"patternProperties", .obj [(c!"^x", .obj [])]),
        (c!"additionalProperties", .bool false)]
      (some [(c!"a", .bool true)]) (some [(c!"^x", .obj [])]) (some (.bool false)) none none :=
  ⟨by decide, by rintro k ⟨h, _, h'⟩; revert h'; simp at h; rcases h with rfl | rfl | rfl | rfl <;> decide, rfl, rfl,
    rfl, rfl, rfl, by simp, by simp [hm], by rintro s h; cases h; exact .inr ⟨_, rfl⟩, by simp⟩

/-- C24: `unevaluatedProperties: false` next to `properties` and `patternProperties` rejects exactly the members matched
by neither. -/
theorem C24_unevaluated (props pats : Option (List (Str × Node)))
    (h : ObjSchema w docs f voc items props pats none (some false) none) (kvs : List (Str × Val)) :
    validateN w docs voc (f + 2) (.obj items) (.dict kvs) ctx = .ok () ↔
      ∀ p ∈ kvs, memberChecks w props pats none p.1 ≠ [] ∧ ∀ s ∈ memberChecks w props pats none p.1,
        validateN w docs voc (f + 1) s p.2 (ctx ++ [p.1]) = .ok () := by
  obtain ⟨o, hd, ho1, ho2, ho3, ho4, ho5⟩ :=
    object_schema w docs voc f items (.dict kvs) ctx props pats none (some false) none h
  rw [hd]
  simp only [runObject, objectLoop_eq, firstFail_ok]
  have key : ∀ p : Str × Val, objectItem (validateN w docs voc (f + 1)) w o p.1 p.2 ctx = .ok () ↔
      memberChecks w props pats none p.1 ≠ [] ∧ ∀ s ∈ memberChecks w props pats none p.1,
        validateN w docs voc (f + 1) s p.2 (ctx ++ [p.1]) = .ok () := by
    rintro ⟨k, x⟩
    rw [objectItem_eq _ w o k x ctx (by rw [ho2]; exact h.compile)]
    simp only [ho5, ho1, ho2, memberChecks, Res.ok_bind, matching]
    cases hp : dictGet k (props.getD []) with
    | some s => simp
    | none =>
      simp only []
      cases hf : (pats.getD []).filter fun p => (w.search p.1).any (· k) with
      | cons p ps =>
        simp only [List.isEmpty_cons, Bool.false_eq_true, if_false, Res.bind_unit, firstFail_map_ok]
        simp
        intro _; exact ⟨fun h a b => h b a, fun h a b => h b a⟩
      | nil => simp [firstFail, extraItem, ho3, ho4]
  constructor
  · intro hall p hp; exact (key p).1 (hall _ (List.mem_map.2 ⟨p, hp, rfl⟩))
  · intro hall r hr
    obtain ⟨p, hp, rfl⟩ := List.mem_map.1 hr
    exact (key p).2 (hall p hp)

/-- C24, a trap: `additionalProperties: true` next to `unevaluatedProperties: false` does not allow extra members. -/
theorem C24_additional_true_with_unevaluated_false : ∀ w,
    validateN w [] [.additionalProperties, .unevaluatedProperties] 3
      (.obj [(c!"additionalProperties", .bool true), (c!"unevaluatedProperties", .bool false)])
      (.dict [(c!"a", .null)]) [] = rejected c!"error" c!"a" := by
  intro w; rfl

/-- C25: `{propertyNames: S}` runs `S` on every member name, in order; so it accepts exactly if `S` accepts all. -/
theorem C25_propertyNames (s : Node) (ho : Only voc items .propertyNames)
    (h : dictGet c!"propertyNames" items = some s) (hobj : ∃ kvs, view docs (f + 1) s = .ok (.obj kvs))
    (kvs : List (Str × Val)) :
    validateN w docs voc (f + 2) (.obj items) (.dict kvs) ctx =
      firstFail (kvs.map fun p => validateN w docs voc (f + 1) s (.str p.1) (ctx ++ [p.1])) ∧
    (validateN w docs voc (f + 2) (.obj items) (.dict kvs) ctx = .ok () ↔
      ∀ p ∈ kvs, validateN w docs voc (f + 1) s (.str p.1) (ctx ++ [p.1]) = .ok ()) := by
  have e : validateN w docs voc (f + 2) (.obj items) (.dict kvs) ctx =
      firstFail (kvs.map fun p => validateN w docs voc (f + 1) s (.str p.1) (ctx ++ [p.1])) := by
    obtain ⟨q, hq⟩ := hobj
    rw [single_upd w docs voc f items _ ctx .propertyNames (.names s) [(c!"properties", .object { names := some s })] ho
      rfl (dictHas_of_get h) (by simp [readKw, subKey, getKey_of_get h, hq]) rfl rfl]
    simp only [runAll, run, runObject, Res.bind_unit, objectLoop_eq]
    congr 1
    apply List.map_congr_left
    rintro ⟨k, x⟩ _
    rw [objectItem_eq _ w _ k x ctx (by simp)]
    simp [dictGet, matching, firstFail, extraItem, Res.bind_unit]
  exact ⟨e, by rw [e, firstFail_map_ok]⟩

example : Only [.propertyNames, .properties] [(c!"propertyNames", .obj [])] .propertyNames := ⟨by simp, by decide⟩

/-! ## C13 -/

/-- C13: the boolean schemas themselves. -/
theorem C13_bool (b : Bool) :
    validateN w docs voc (f + 2) (.bool b) v ctx = if b then .ok () else rejected c!"error" ctx.path := by
  rw [validateN_bool]; rfl

/-- C13: in `allOf`, `anyOf`, `oneOf`. -/
theorem C13_composition (b : Bool) (key : Kw) (hk : key = .allOf ∨ key = .anyOf ∨ key = .oneOf)
    (ho : Only voc items key) (h : dictGet key.key items = some (.arr [.bool b])) :
    validateN w docs voc (f + 3) (.obj items) v ctx = if b then .ok () else rejected c!"error" ctx.path := by
  rcases hk with rfl | rfl | rfl <;> simp only [Kw.key, Kw.keys, List.headD] at h
  · rw [(C28_allOf w docs voc (f + 1) items v ctx ho _ h).1]
    simp only [List.map_cons, List.map_nil, C13_bool]
    cases b <;> rfl
  · rw [single_set w docs voc (f + 1) items v ctx .anyOf (.anyOf [.bool b]) ho rfl (dictHas_of_get h)
      (by simp [readKw, subsKey, getKey_of_get h])]
    simp only [run, anyOfLoop, C13_bool]
    cases b <;> rfl
  · rw [single_set w docs voc (f + 1) items v ctx .oneOf (.oneOf [.bool b]) ho rfl (dictHas_of_get h)
      (by simp [readKw, subsKey, getKey_of_get h])]
    simp only [run, runOneOf, oneOfLoop, C13_bool]
    cases b <;> rfl

/-- C13: in `items`; the first item is rejected. -/
theorem C13_items (b : Bool) (ho : Only voc items .items) (h : dictGet c!"items" items = some (.bool b)) (xs : List Val) :
    validateN w docs voc (f + 3) (.obj items) (.list xs) ctx =
      if b = true ∨ xs = [] then .ok () else rejected c!"error" (Ctx.path (ctx ++ [c!"0"])) := by
  rw [C23_items w docs voc f items ctx ho _ h (.inr ⟨b, rfl⟩)]
  simp only [C13_bool]
  cases b with
  | true => simp [firstFail_map_ok]
  | false =>
    cases xs with
    | nil => simp [firstFail]
    | cons x xs =>
      simp only [List.zipIdx_cons, List.map_cons, Bool.false_eq_true, if_false, firstFail_cons, rejected, Res.err_bind]
      rfl

/-- C13: in `dependentSchemas`. -/
theorem C13_dependentSchemas (b : Bool) (n : Str) (ho : Only voc items .dependentSchemas)
    (h : dictGet c!"dependentSchemas" items = some (.obj [(n, .bool b)])) (kvs : List (Str × Val)) :
    validateN w docs voc (f + 3) (.obj items) (.dict kvs) ctx =
      if b = true ∨ n ∉ kvs.map Prod.fst then .ok () else rejected c!"error" ctx.path := by
  rw [(C27_dependentSchemas w docs voc (f + 1) items ctx ho _ h kvs).1]
  by_cases hn : n ∈ kvs.map Prod.fst
  · rw [List.filter_cons_of_pos (by simpa using hn)]
    simp only [List.filter_nil, List.map_cons, List.map_nil, C13_bool, hn]
    cases b <;> rfl
  · rw [List.filter_cons_of_neg (by simpa using hn)]
    simp [hn, firstFail]

/-- C13: in `properties` and `patternProperties`: a member is rejected exactly if one of the schemas applying to it by
`memberChecks` is `false`, here when all of them are booleans. -/
theorem C13_members (props pats : Option (List (Str × Node))) (addl : Option Node)
    (h : ObjSchema w docs (f + 1) voc items props pats addl none none) (kvs : List (Str × Val))
    (hb : ∀ p ∈ kvs, ∀ s ∈ memberChecks w props pats addl p.1, ∃ b, s = .bool b) :
    (validateN w docs voc (f + 3) (.obj items) (.dict kvs) ctx = .ok () ↔
      ∀ p ∈ kvs, .bool false ∉ memberChecks w props pats addl p.1) ∧
    Decides (validateN w docs voc (f + 3) (.obj items) (.dict kvs) ctx) := by
  obtain ⟨e, hiff⟩ := C24_partition w docs voc f items ctx props pats addl h kvs
  constructor
  · rw [hiff]
    constructor
    · intro hall p hp hf
      have := hall p hp _ hf
      rw [C13_bool] at this; simp [rejected] at this
    · intro hall p hp s hs
      obtain ⟨b, rfl⟩ := hb p hp s hs
      rw [C13_bool]
      cases b with
      | true => rfl
      | false => exact absurd hs (hall p hp)
  · rw [e]
    apply firstFail_decides
    intro r hr
    obtain ⟨p, hp, rfl⟩ := List.mem_map.1 hr
    apply firstFail_decides
    intro r hr
    obtain ⟨s, hs, rfl⟩ := List.mem_map.1 hr
    obtain ⟨b, rfl⟩ := hb p hp s hs
    rw [C13_bool]
    cases b
    · exact .inr ⟨_, rfl⟩
    · exact .inl rfl

example : Only [.allOf, .oneOf] [(c!"oneOf", .arr [.bool true])] .oneOf ∧
    Only [.items] [(c!"items", .bool false)] .items ∧
    Only [.dependentSchemas] [(c!"dependentSchemas", .obj [(c!"a", .bool false)])] .dependentSchemas :=
  ⟨⟨by simp, by decide⟩, ⟨by simp, by decide⟩, ⟨by simp, by decide⟩⟩

/-- In the remaining positions a boolean is not taken for a schema: `not`, `if`, `then`, `else`, `contains` and
`propertyNames` make every validation raise `SchemaParseError`. -/
theorem C13_object_only (b : Bool) (key : Kw)
    (hk : key ∈ [Kw.not, .if, .then, .else, .contains, .propertyNames]) (ho : Only voc items key)
    (h : dictGet key.key items = some (.bool b)) :
    validateN w docs voc (f + 2) (.obj items) v ctx = .err .schemaParse := by
  have hp := dictHas_of_get h
  simp only [List.mem_cons, List.not_mem_nil, or_false] at hk
  rcases hk with rfl | rfl | rfl | rfl | rfl | rfl <;>
    exact single_err w docs voc f items v ctx _ _ ho rfl hp (by
      simp only [Kw.key, Kw.keys, List.headD] at h
      simp [readKw, subKey, getKey_of_get h])

end Verif.Props
