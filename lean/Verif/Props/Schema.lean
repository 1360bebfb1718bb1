import Verif.Model.Vocabulary
import Verif.Spec.WellFormed
import Verif.Proofs.Satisfies
import Verif.Props.Scalar
/-! # Whole schema objects: C12, C30, C37, C38 -/

namespace Verif.Props

variable (w : World) (docs : List Doc) (voc : List Kw) (f : Nat) (items : List (Str × Node)) (v : Val) (ctx : Ctx)

/-! ## C12 -/

/-- C12: a schema object accepts exactly if each group of cooperating keywords, taken alone, accepts; all groups but six
consist of a single keyword. -/
theorem C12_conjunction :
    validateN w docs voc (f + 2) (.obj items) v ctx = .ok () ↔
      ∀ G ∈ cooperating, validateN w docs voc (f + 2) (.obj (items.filter fun p => p.1 ∈ G)) v ctx = .ok () :=
  accept_iff_groups w docs voc f items v ctx

/-- C12: members that are not keywords of the vocabulary, nor looked at by one of them (`minContains`, `maxContains`
by `contains`, `additionalItems` by `items`, the bounds by each other), have no influence on the outcome. -/
theorem C12_unknown (U : List Str) (hU : ∀ s ∈ U, (∀ k ∈ voc, s ≠ k.key) ∧ s ∉ [c!"minContains", c!"maxContains",
      c!"additionalItems", c!"maximum", c!"minimum", c!"exclusiveMaximum", c!"exclusiveMinimum"]) :
    validateN w docs voc (f + 2) (.obj (items.filter fun p => p.1 ∉ U)) v ctx =
      validateN w docs voc (f + 2) (.obj items) v ctx := by
  rw [validateN_obj, validateN_obj]
  rw [loadAll_congr w (view docs (f + 1)) id (items.filter fun p => p.1 ∉ U) items voc]
  intro k hk s hs
  refine dictGet_filter (fun s => decide (s ∉ U)) s items ?_
  simp only [decide_eq_true_eq]
  intro hsU
  obtain ⟨h1, h2⟩ := hU s hsU
  have h1 := h1 k hk
  simp only [List.mem_cons, List.not_mem_nil, or_false, not_or] at h2
  cases k <;> simp only [Kw.reads, Kw.key, Kw.keys, List.headD, List.mem_cons, List.not_mem_nil, or_false] at hs h1 <;>
    grind

example : ∀ s ∈ [c!"title", c!"const", c!"minLength"], (∀ k ∈ [Kw.type, .maxLength], s ≠ k.key) ∧
    s ∉ [c!"minContains", c!"maxContains", c!"additionalItems", c!"maximum", c!"minimum", c!"exclusiveMaximum",
      c!"exclusiveMinimum"] := by decide

/-! ## C30 -/

/-- A keyword value that is not a reference and has the wrong type is refused when read. -/
theorem readKw_wrong (vw : Node → Res Node) (k : Kw) (n : Node) (hv : vw n = .ok n) (hk : k.isAssertion = true)
    (h : dictGet k.key items = some n) (hr : ∀ o d p, n ≠ .ref o d p) (hn : n.kind ∉ valueKinds k) :
    readKw w vw (id : Node → Node) items k = .err .schemaParse := by
  cases k <;> simp only [Kw.key, Kw.keys, List.headD] at h <;>
    simp [readKw, numKey, intKey, intValueKey, subKey, subsKey, subMapKey, getKey_of_get h, hv, Kw.isAssertion] at hk ⊢ <;>
    cases n <;> simp [valueKinds, Node.kind] at hn hr ⊢

/-- C30: with a keyword value of the wrong JSON type, every validation ends the same way whatever the instance: neither
accepted nor rejected with a `ValidationError`. -/
theorem C30_independent (k : Kw) (hk : k ∈ voc) (ha : k.isAssertion = true) (n : Node)
    (h : dictGet k.key items = some n) (hr : ∀ o d p, n ≠ .ref o d p) (hn : n.kind ∉ valueKinds k) :
    ∃ r : Res Unit, r ≠ .ok () ∧ (∀ e, r ≠ .err (.validation e)) ∧
      ∀ v ctx, validateN w docs voc (f + 2) (.obj items) v ctx = r := by
  have hnv := loadAll_noVal w docs (f + 1) items voc ([] : Data Node)
  have hno : ∀ d : Data Node, (loadAll w (view docs (f + 1)) id items voc d).2 ≠ .ok () := by
    clear hnv
    induction voc with
    | nil => simp at hk
    | cons k' ks ih =>
      intro d
      rw [loadAll]
      by_cases e : k = k'
      · subst e
        rw [if_pos (by simp [ha, dictHas_of_get h]), applyKw_eq,
          readKw_wrong w items _ k n (view_of_not_ref docs f n hr) ha h hr hn]
        simp
      · have hk' : k ∈ ks := by simpa [e] using hk
        split
        · split
          · exact ih hk' _
          · simp
          · simp
        · exact ih hk' d
  have hno' := hno []
  rcases hl : loadAll w (view docs (f + 1)) id items voc [] with ⟨d, r⟩
  rw [hl] at hno' hnv
  refine ⟨r, hno', hnv, fun v ctx => ?_⟩
  rw [validateN_obj, hl]
  cases r with
  | ok u => exact absurd rfl hno'
  | err e => rfl
  | timeout => rfl

example : (dictGet Kw.type.key [(c!"maxLength", .num (.fin 3)), (c!"type", .bool true)] : Option Node) = some (.bool true) ∧
    (Node.bool true).kind ∉ valueKinds .type := ⟨rfl, by decide⟩

theorem strItemsMap_ok (m : List (Str × Node))
    (h : ∀ p ∈ m, (∃ xs, p.2 = .arr xs) ∨ (∃ xs, p.2 = .obj xs) ∨ ∃ xs, p.2 = .str xs) :
    ∃ r, strItemsMap w m = .ok r := by
  induction m with
  | nil => exact ⟨_, rfl⟩
  | cons p m ih =>
    obtain ⟨k, x⟩ := p
    obtain ⟨r, hr⟩ := ih fun p hp => h p (by simp [hp])
    rcases h (k, x) (by simp) with ⟨xs, e⟩ | ⟨xs, e⟩ | ⟨xs, e⟩ <;> simp only at e <;> subst e <;>
      exact ⟨_, by simp only [strItemsMap, strItems, hr, Res.ok_bind]; rfl⟩

/-- A keyword value that is not a reference is read, or refused as malformed. -/
theorem readKw_digest (vw : Node → Res Node) (hv : ∀ p ∈ items, vw p.2 = .ok p.2) (k : Kw) (n : Node)
    (h : dictGet k.key items = some n) (hr : ∀ p ∈ items, ∀ o d q, p.2 ≠ .ref o d q) (hn : Digestible w k n)
    (hmn : ∀ s ∈ [c!"minContains", c!"maxContains"], ∀ m, dictGet s items = some m → FiniteIfNumber m) :
    (∃ u, readKw w vw (id : Node → Node) items k = .ok u) ∨
      readKw w vw (id : Node → Node) items k = .err .schemaParse := by
  have hg : ∀ {s m}, dictGet s items = some m → vw m = .ok m ∧ ∀ o d q, m ≠ .ref o d q := fun e =>
    ⟨hv _ (dictGet_mem e), hr _ (dictGet_mem e)⟩
  obtain ⟨hvn, hrn⟩ := hg h
  have fin : ∀ m : Num, FiniteIfNumber (.num m) → ∃ q, m = .fin q := fun m hm => hm m rfl
  have hint : ∀ s m, dictGet s items = some m → FiniteIfNumber m → (∃ i, intKey vw items s = .ok i) ∨
      intKey vw items s = .err .schemaParse := by
    intro s m hs hf
    obtain ⟨h1, h2⟩ := hg hs
    simp only [intKey, getKey_of_get hs, Res.ok_bind, h1]
    cases m with
    | num q => obtain ⟨q, rfl⟩ := fin q hf; exact .inl ⟨_, rfl⟩
    | ref o d p => exact absurd rfl (h2 o d p)
    | _ => exact .inr rfl
  have hintV : ∀ s m, dictGet s items = some m → FiniteIfNumber m → (∃ i, intValueKey vw items s = .ok i) ∨
      intValueKey vw items s = .err .schemaParse := by
    intro s m hs hf
    obtain ⟨h1, h2⟩ := hg hs
    simp only [intValueKey, getKey_of_get hs, Res.ok_bind, h1]
    cases m with
    | num q => obtain ⟨q, rfl⟩ := fin q hf; exact .inl ⟨_, rfl⟩
    | _ => exact .inr rfl
  have hnum : ∀ s m, dictGet s items = some m → (∃ i, numKey vw items s = .ok i) ∨
      numKey vw items s = .err .schemaParse := by
    intro s m hs
    obtain ⟨h1, h2⟩ := hg hs
    simp only [numKey, getKey_of_get hs, Res.ok_bind, h1]
    cases m with
    | num q => exact .inl ⟨_, rfl⟩
    | ref o d p => exact absurd rfl (h2 o d p)
    | _ => exact .inr rfl
  have hsub : ∀ s m, dictGet s items = some m → (∃ i, subKey vw (id : Node → Node) items s = .ok i) ∨
      subKey vw (id : Node → Node) items s = .err .schemaParse := by
    intro s m hs
    obtain ⟨h1, h2⟩ := hg hs
    simp only [subKey, getKey_of_get hs, Res.ok_bind, h1]
    cases m with
    | obj q => exact .inl ⟨_, rfl⟩
    | _ => exact .inr rfl
  have hsubs : ∀ s m, dictGet s items = some m → (∃ i, subsKey vw (id : Node → Node) items s = .ok i) ∨
      subsKey vw (id : Node → Node) items s = .err .schemaParse := by
    intro s m hs
    obtain ⟨h1, h2⟩ := hg hs
    simp only [subsKey, getKey_of_get hs, Res.ok_bind, h1]
    cases m with
    | arr q => exact .inl ⟨_, rfl⟩
    | ref o d p => exact absurd rfl (h2 o d p)
    | _ => exact .inr rfl
  have hmap : ∀ s m, dictGet s items = some m → (∃ i, subMapKey vw (id : Node → Node) items s = .ok i) ∨
      subMapKey vw (id : Node → Node) items s = .err .schemaParse := by
    intro s m hs
    obtain ⟨h1, h2⟩ := hg hs
    simp only [subMapKey, getKey_of_get hs, Res.ok_bind, h1]
    cases m with
    | obj q => exact .inl ⟨_, rfl⟩
    | _ => exact .inr rfl
  have hopt : ∀ s ∈ [c!"minContains", c!"maxContains"], dictHas s items = true →
      (∃ i, intValueKey vw items s = .ok i) ∨ intValueKey vw items s = .err .schemaParse := by
    intro s hs hh
    obtain ⟨m, hm⟩ := Option.isSome_iff_exists.1 hh
    exact hintV s m hm (hmn s hs m hm)
  have heq : ∀ s m, dictGet s items = some m → ∃ b, eqTrue vw m = .ok b := by
    intro s m hs
    obtain ⟨h1, h2⟩ := hg hs
    simp only [eqTrue, h1, Res.ok_bind]
    cases m with
    | ref o d p => exact absurd rfl (h2 o d p)
    | _ => exact ⟨_, rfl⟩
  cases k <;> simp only [Kw.key, Kw.keys, List.headD] at h
  case minLength | maxLength | minItems | maxItems | minProperties | maxProperties =>
    rcases hint _ n h hn with ⟨i, e⟩ | e <;> simp [readKw, e]
  case multipleOf => rcases hnum _ n h with ⟨i, e⟩ | e <;> simp [readKw, e]
  case maximum =>
    rcases hnum _ n h with ⟨i, e⟩ | e
    · cases hx : dictGet c!"exclusiveMaximum" items with
      | none => simp [readKw, e, hx]
      | some m => obtain ⟨b, hb⟩ := heq _ m hx; simp [readKw, e, hx, hb]
    · simp [readKw, e]
  case minimum =>
    rcases hnum _ n h with ⟨i, e⟩ | e
    · cases hx : dictGet c!"exclusiveMinimum" items with
      | none => simp [readKw, e, hx]
      | some m => obtain ⟨b, hb⟩ := heq _ m hx; simp [readKw, e, hx, hb]
    · simp [readKw, e]
  case not | «if» | «then» | «else» | propertyNames => rcases hsub _ n h with ⟨i, e⟩ | e <;> simp [readKw, e]
  case allOf | anyOf | oneOf | prefixItems => rcases hsubs _ n h with ⟨i, e⟩ | e <;> simp [readKw, e]
  case properties | patternProperties | dependentSchemas => rcases hmap _ n h with ⟨i, e⟩ | e <;> simp [readKw, e]
  case contains =>
    rcases hsub _ n h with ⟨i, e⟩ | e
    · by_cases h1 : dictHas c!"minContains" items = true
      · rcases hopt _ (by simp) h1 with ⟨j, e1⟩ | e1
        · by_cases hh : dictHas c!"maxContains" items = true
          · rcases hopt _ (by simp) hh with ⟨j', e2⟩ | e2 <;> simp [readKw, e, h1, e1, hh, e2]
          · simp [readKw, e, h1, e1, hh]
        · simp [readKw, e, h1, e1]
      · by_cases hh : dictHas c!"maxContains" items = true
        · rcases hopt _ (by simp) hh with ⟨j', e2⟩ | e2 <;> simp [readKw, e, h1, hh, e2]
        · simp [readKw, e, h1, hh]
    · simp [readKw, e]
  case dependentRequired =>
    simp only [readKw, getKey_of_get h, Res.ok_bind, hvn]
    cases n with
    | obj m =>
      obtain ⟨r, hr⟩ := strItemsMap_ok w m (hn m rfl)
      exact .inl ⟨_, by simp only [hr, Res.ok_bind]; rfl⟩
    | _ => exact .inr rfl
  case pattern =>
    simp only [readKw, getKey_of_get h, Res.ok_bind, hvn]
    cases n with
    | str p =>
      obtain ⟨m, hm⟩ := Option.ne_none_iff_exists'.1 (hn p rfl)
      simp [hm]
    | ref o d p => exact absurd rfl (hrn o d p)
    | _ => exact .inr rfl
  case format =>
    simp only [readKw, getKey_of_get h, Res.ok_bind, hvn]
    cases n with
    | str p => cases hm : w.formats p <;> simp [hm]
    | ref o d p => exact absurd rfl (hrn o d p)
    | _ => exact .inr rfl
  case type =>
    simp only [readKw, getKey_of_get h, Res.ok_bind, hvn]
    cases n with
    | str p => simp only [Res.ok_bind]; split <;> simp
    | arr p => simp only [seqOf_arr, Res.ok_bind]; split <;> simp
    | ref o d p => exact absurd rfl (hrn o d p)
    | _ => exact .inr rfl
  case items =>
    simp only [readKw, getKey_of_get h, Res.ok_bind, hvn]
    cases n with
    | arr xs =>
      cases hx : dictGet c!"additionalItems" items with
      | none => exact .inl ⟨_, rfl⟩
      | some a =>
        simp only [(hg hx).1, Res.ok_bind]
        left; split <;> exact ⟨_, rfl⟩
    | ref o d p => exact absurd rfl (hrn o d p)
    | obj q => exact .inl ⟨_, rfl⟩
    | bool b => exact .inl ⟨_, rfl⟩
    | _ => exact .inr rfl
  case exclusiveMaximum | exclusiveMinimum =>
    simp only [readKw, getKey_of_get h, Res.ok_bind, hvn]
    cases n with
    | ref o d p => exact absurd rfl (hrn o d p)
    | num q => exact .inl ⟨_, rfl⟩
    | bool b => simp only []; split <;> simp
    | _ => exact .inr rfl
  case additionalProperties | unevaluatedProperties =>
    simp only [readKw, getKey_of_get h, Res.ok_bind, hvn]
    cases n with
    | ref o d p => exact absurd rfl (hrn o d p)
    | bool b => cases b <;> exact .inl ⟨_, rfl⟩
    | obj q => simp
    | _ => exact .inr rfl
  case uniqueItems =>
    simp only [readKw, getKey_of_get h, Res.ok_bind, hvn]
    cases n with
    | bool b => cases b <;> exact .inl ⟨_, rfl⟩
    | _ => exact .inr rfl
  case enum | const | required =>
    simp only [readKw, getKey_of_get h, Res.ok_bind, hvn]
    cases n with
    | ref o d p => exact absurd rfl (hrn o d p)
    | _ => first | exact .inr rfl | exact .inl ⟨_, rfl⟩
  case ref | anchor | id => exact .inl ⟨_, rfl⟩

theorem apply_items (k : Kw) (u : Upd Node) (d : Data Node) (hf : u.fits k)
    (hp : ∀ xs, u = .pre xs → dictHas c!"items" d = false) :
    ∃ d', u.apply k.key d = .ok d' ∧ (dictHas c!"items" d' = true → dictHas c!"items" d = true ∨ k.key = c!"items") := by
  cases u with
  | nop => exact ⟨d, rfl, .inl⟩
  | set x =>
    refine ⟨_, rfl, ?_⟩
    by_cases e : k.key = c!"items"
    · exact fun _ => .inr e
    · simp only [dictHas, dictGet_set, e, if_false]; exact .inl
  | pre xs =>
    refine ⟨_, by simp only [Upd.apply, hp xs rfl]; rfl, ?_⟩
    simp [dictHas, dictGet_set]
    exact .inl
  | itemsArr a b => exact ⟨_, rfl, fun _ => .inr (by cases (show k = .items from hf); rfl)⟩
  | itemsOne a => exact ⟨_, rfl, fun _ => .inr (by cases (show k = .items from hf); rfl)⟩
  | _ => exact ⟨_, rfl, by simp [dictHas, dictGet_set, setObj]; exact .inl⟩

/-- C30: if the schema object holds no references, every keyword value is digestible, `items` and `prefixItems` do not
both occur, and one keyword value has the wrong JSON type, then validating any value raises `SchemaParseError`.
Beyond these hypotheses another exception may come first (see below). -/
theorem C30_parse_error_partial (hr : ∀ p ∈ items, ∀ o d q, p.2 ≠ .ref o d q)
    (hd : ∀ k ∈ voc, ∀ n, dictGet k.key items = some n → Digestible w k n)
    (hmn : ∀ s ∈ [c!"minContains", c!"maxContains"], ∀ m, dictGet s items = some m → FiniteIfNumber m)
    (hip : dictGet c!"items" items = none ∨ dictGet c!"prefixItems" items = none)
    (k : Kw) (hk : k ∈ voc) (ha : k.isAssertion = true) (n : Node)
    (h : dictGet k.key items = some n) (hn : n.kind ∉ valueKinds k) :
    validateN w docs voc (f + 2) (.obj items) v ctx = .err .schemaParse := by
  have hview : ∀ p ∈ items, view docs (f + 1) p.2 = .ok p.2 := fun p hp => view_of_not_ref docs f p.2 (hr p hp)
  have hno : ∀ d : Data Node, (dictHas c!"items" d = true → dictGet c!"prefixItems" items = none) →
      (loadAll w (view docs (f + 1)) id items voc d).2 = .err .schemaParse := by
    induction voc with
    | nil => simp at hk
    | cons k' ks ih =>
      intro d hd'
      have ih' := ih (fun k'' h'' => hd k'' (by simp [h'']))
      rw [loadAll]
      by_cases hc : (k'.isAssertion && dictHas k'.key items) = true
      · rw [if_pos hc, applyKw_eq]
        obtain ⟨ha', hp⟩ : k'.isAssertion = true ∧ dictHas k'.key items = true := by simpa using hc
        obtain ⟨n', hn'⟩ := Option.isSome_iff_exists.1 hp
        rcases readKw_digest w items _ hview k' n' hn' hr (hd k' (by simp) n' hn') hmn with ⟨u, hu⟩ | hu
        · have hkk : k ≠ k' := by
            rintro rfl
            rw [readKw_wrong w items _ k n (hview (k.key, n) (dictGet_mem h)) ha h (hr _ (dictGet_mem h)) hn] at hu
            cases hu
          have hfit := readKw_fits w _ _ _ k' u hu
          have hpre : ∀ xs, u = .pre xs → dictHas c!"items" d = false := by
            rintro xs rfl
            have : k' = .prefixItems := hfit
            subst this
            cases hb : dictHas c!"items" d with
            | false => rfl
            | true => rw [show Kw.prefixItems.key = c!"prefixItems" from rfl, hd' hb] at hn'; cases hn'
          obtain ⟨d', hd1, hd2⟩ := apply_items k' u d hfit hpre
          rw [hu]
          simp only [Res.ok_bind, hd1]
          refine ih' (by simpa [hkk] using hk) d' fun hb => ?_
          rcases hd2 hb with hb | hb
          · exact hd' hb
          · rcases hip with hi | hi
            · rw [hb, hi] at hn'; cases hn'
            · exact hi
        · rw [hu]; rfl
      · rw [if_neg hc]
        have hkk : k ≠ k' := by rintro rfl; simp [ha, dictHas_of_get h] at hc
        exact ih' (by simpa [hkk] using hk) d hd'
  have := hno [] (by simp [dictHas, dictGet])
  rcases hl : loadAll w (view docs (f + 1)) id items voc [] with ⟨d, r⟩
  rw [hl] at this
  simp only at this
  rw [validateN_obj, hl, this]

example : let items : List (Str × Node) := [(c!"type", .num (.fin 3)), (c!"pattern", .str c!"a"), (c!"maxLength", .num (.fin 1))]
    (∀ p ∈ items, ∀ o d q, p.2 ≠ .ref o d q) ∧ (Node.num (.fin 3)).kind ∉ valueKinds .type :=
  ⟨by simp, by decide⟩

private def w0 : World :=
  { search := fun p => if p = c!"(" then none else some fun s => strContains p s, formats := fun _ => none
    parseDec := fun _ => none, reprBody := fun _ => [] }

/-- The full C30 fails: with `{"pattern": "(", "maxLength": "x"}`, loaded in this order, the exception is `re.error`. -/
theorem C30_pattern_first_violated : ∃ (w : World) (items : List (Str × Node)),
    (Node.str c!"x").kind ∉ valueKinds .maxLength ∧ dictGet c!"maxLength" items = some (.str c!"x") ∧
    ∀ f v, validateN w [] [.pattern, .maxLength] (f + 2) (.obj items) v [] = .err .reError :=
  ⟨w0, [(c!"pattern", .str c!"("), (c!"maxLength", .str c!"x")], by decide, rfl, fun _ _ => rfl⟩

/-- One level deeper the type is not checked: `{"dependentRequired": {"a": 1}}` raises `TypeError`. -/
theorem C30_dependentRequired_violated (w : World) (f : Nat) (v : Val) :
    validateN w [] [.dependentRequired] (f + 2) (.obj [(c!"dependentRequired", .obj [(c!"a", .num (.fin 1))])]) v [] =
      .err .typeError := rfl

/-- A malformed `additionalItems` or (without `contains`) `minContains` goes unnoticed. -/
theorem C30_unchecked_violated (w : World) (f : Nat) :
    validateN w [] [.items, .contains] (f + 2)
      (.obj [(c!"items", .arr []), (c!"additionalItems", .num (.fin 5)), (c!"minContains", .str c!"x")]) (.list []) [] =
      .ok () := rfl

/-! ## C37 -/

/-- The numbers Python code can pass: a `float` with its exact and its printed value. -/
def Val.IsNumber (v : Val) : Prop := (∃ n, v = .int n) ∨ (∃ q, v = .dec (.fin q)) ∨ ∃ e s, v = .flt (.fin e s)

/-- C37, exactly: a number satisfies `const` and `enum` with its own literal iff its exact value is the one it prints
as, `maximum` iff it is at most that, `minimum` iff at least that.  So all integers and decimals do. -/
theorem C37_literal_iff (v : Val) (e s : Rat) (hv : Val.IsNumber v) (he : exactVal v = some e) (hs : printedVal v = some s)
    (hc : CtxOk ctx) :
    (.const ∈ voc → (validateN w docs voc (f + 2) (wrap (.dict [(c!"const", v)])) v ctx = .ok () ↔ e = s)) ∧
    (.enum ∈ voc → (validateN w docs voc (f + 2) (wrap (.dict [(c!"enum", .list [v])])) v ctx = .ok () ↔ e = s)) ∧
    (.maximum ∈ voc → (validateN w docs voc (f + 2) (wrap (.dict [(c!"maximum", v)])) v ctx = .ok () ↔ e ≤ s)) ∧
    (.minimum ∈ voc → (validateN w docs voc (f + 2) (wrap (.dict [(c!"minimum", v)])) v ctx = .ok () ↔ s ≤ e)) := by
  have hw : wrap v = .num (.fin s) := by
    rcases hv with ⟨n, rfl⟩ | ⟨q, rfl⟩ | ⟨a, b, rfl⟩ <;> cases hs <;> rfl
  have hl : litEq (.num (.fin s)) v = true ↔ e = s := by
    rcases hv with ⟨n, rfl⟩ | ⟨q, rfl⟩ | ⟨a, b, rfl⟩ <;> cases hs <;> cases he <;> simp [litEq, eq_comm]
  have only : ∀ (k : Kw) (x : Node), k ∈ voc → Only voc [(k.key, x)] k := by
    intro k x hk
    refine ⟨hk, fun k' _ _ h => ?_⟩
    have := dictHas_iff.1 h
    simp at this
    exact (key_inj this.symm).symm
  have hite : ∀ {P : Prop} [Decidable P] {c : Str}, (if P then .ok () else rejected c ctx.path) = (.ok () : Res Unit) ↔ P := by
    intro P _ c; split <;> simp_all [rejected]
  have hnr : ∀ {c : Str}, rejected c ctx.path ≠ (.ok () : Res Unit) := by intro c h; cases h
  refine ⟨fun hk => ?_, fun hk => ?_, fun hk => ?_, fun hk => ?_⟩
  · have e1 : wrap (.dict [(c!"const", v)]) = .obj [(c!"const", .num (.fin s))] := by
      simp [wrap, wrapDict, hw]
    rw [e1, C16_const w docs voc f [(c!"const", .num (.fin s))] v ctx hc (only .const (.num (.fin s)) hk) (.num (.fin s)) rfl trivial, hite, hl]
  · have e1 : wrap (.dict [(c!"enum", .list [v])]) = .obj [(c!"enum", .arr [.num (.fin s)])] := by
      simp [wrap, wrapDict, wrapList, hw]
    rw [e1, C15_enum w docs voc f [(c!"enum", .arr [.num (.fin s)])] v ctx hc (only .enum (.arr [.num (.fin s)]) hk) [.num (.fin s)] rfl
      (by simp [Node.Scalar]), hite]
    simpa using hl
  · have e1 : wrap (.dict [(c!"maximum", v)]) = .obj [(c!"maximum", .num (.fin s))] := by
      simp [wrap, wrapDict, hw]
    rw [e1]
    have := C17_maximum_partial w docs voc f [(c!"maximum", .num (.fin s))] v ctx hc (some s) none
      ⟨fun _ => hk, by simp [dictHas, dictGet], fun k h => .inl ((only .maximum _ hk).2 k h.1 h.2.1 h.2.2), rfl, rfl,
        by simp, by simp⟩ e he
    have hU : UpperOk (some s) none e ↔ e ≤ s := by simp [UpperOk]
    rw [hU] at this
    exact ⟨fun h => Classical.byContradiction fun hn => hnr ((this.2 hn).symm.trans h), this.1⟩
  · have e1 : wrap (.dict [(c!"minimum", v)]) = .obj [(c!"minimum", .num (.fin s))] := by
      simp [wrap, wrapDict, hw]
    rw [e1]
    have := C17_minimum_partial w docs voc f [(c!"minimum", .num (.fin s))] v ctx hc (some s) none
      ⟨fun _ => hk, by simp [dictHas, dictGet], fun k h => .inl ((only .minimum _ hk).2 k h.1 h.2.1 h.2.2), rfl, rfl,
        by simp, by simp⟩ e he
    have hU : LowerOk (some s) none e ↔ s ≤ e := by simp [LowerOk]
    rw [hU] at this
    exact ⟨fun h => Classical.byContradiction fun hn => hnr ((this.2 hn).symm.trans h), this.1⟩

/-- The float `0.1`: its exact value is `3602879701896397 / 2^55`, above what it prints as. -/
example : Val.IsNumber (.flt (.fin (3602879701896397 / 36028797018963968) (1 / 10))) ∧
    exactVal (.flt (.fin (3602879701896397 / 36028797018963968) (1 / 10))) = some (3602879701896397 / 36028797018963968) ∧
    exactVal (.int 5) = some 5 ∧ printedVal (.int 5) = some 5 := ⟨.inr (.inr ⟨_, _, rfl⟩), rfl, rfl, rfl⟩

/-- C37 fails for the float `0.1`: it is rejected by `const`, `enum` and `maximum` with the literal `0.1`. -/
theorem C37_float_violated (w : World) (f : Nat) :
    let x : Val := .flt (.fin (3602879701896397 / 36028797018963968) (1 / 10))
    validateN w [] [.const] (f + 2) (wrap (.dict [(c!"const", x)])) x [] ≠ .ok () ∧
    validateN w [] [.enum] (f + 2) (wrap (.dict [(c!"enum", .list [x])])) x [] ≠ .ok () ∧
    validateN w [] [.maximum] (f + 2) (wrap (.dict [(c!"maximum", x)])) x [] ≠ .ok () := by
  intro x
  have h : ∀ voc, _ := fun voc => C37_literal_iff w [] voc f [] x _ _ (.inr (.inr ⟨_, _, rfl⟩)) rfl rfl (by simp [CtxOk])
  refine ⟨?_, ?_, ?_⟩
  · rw [Ne, (h [.const]).1 (by simp)]; decide +kernel
  · rw [Ne, (h [.enum]).2.1 (by simp)]; decide +kernel
  · rw [Ne, (h [.maximum]).2.2.1 (by simp)]; decide +kernel

/-! ## C38 -/

/-- C38 fails: `const` and 21 other keywords are not in the draft 2020-12 vocabulary. -/
theorem C38_complete_violated : ∃ k : Kw, k.isAssertion = true ∧ k ∉ draft2020Vocabulary := ⟨.const, rfl, by decide⟩

/-- The keywords that are in it, and so the ones silently ignored: with this vocabulary a schema made of the 22 others
accepts every value. -/
theorem C38_members_partial (k : Kw) : k ∈ draft2020Vocabulary ↔ k ∉ [Kw.const, .minItems, .maxItems, .minProperties,
    .maxProperties, .uniqueItems, .contains, .items, .prefixItems, .additionalProperties, .unevaluatedProperties,
    .propertyNames, .required, .dependentRequired, .dependentSchemas, .allOf, .anyOf, .oneOf, .not, .if, .then, .else] := by
  cases k <;> decide

/-- A schema whose members are all ignored keywords accepts everything. -/
theorem C38_ignored (items : List (Str × Node)) (h : ∀ p ∈ items, ∀ k ∈ draft2020Vocabulary, k.key ≠ p.1) (v : Val)
    (ctx : Ctx) : validateN w docs draft2020Vocabulary (f + 2) (.obj items) v ctx = .ok () := by
  apply none_present
  intro k hk ha
  cases hh : dictHas k.key items with
  | false => rfl
  | true =>
  obtain ⟨p, hp, e⟩ := List.mem_map.1 (dictHas_iff.1 hh)
  exact (h p hp k hk e.symm).elim

example : ∀ p ∈ [(c!"const", Node.num (.fin 1)), (c!"required", .arr [.str c!"a"]), (c!"not", .obj [])],
    ∀ k ∈ draft2020Vocabulary, k.key ≠ p.1 := by simp; decide

end Verif.Props
