import Verif.Proofs.Layer4
/-!
# C36: type-correct instances are judged as JSON Schema says

`Sat` and `Fits` are in `Verif.Spec.Satisfies`.
-/

namespace Verif.Props

/-- `Sat` is JSON Schema keyword by keyword, at every level. -/
theorem C36_meaning (w : World) (voc : List Kw) (n : Node) (v : Val) :
    Sat w voc n v ↔ match n with
      | .bool b => b = true
      | .obj items => Layer w (Sat w voc) (recognised voc items) v
      | _ => False := by
  cases n with
  | obj items => exact sat_obj w voc items v
  | _ => simp [Sat, SatN]

/-- C36 for the schemas and instances described by `Fits`, by instances whose member names contain no braces (see C33):
a schema accepts exactly the instances that satisfy it, and rejects the others with a `ValidationError`.  What `Fits`
leaves out of C36: floats that print differently from their exact value, integral floats as integers, members named in
`properties` and also matched by a pattern, `prefixItems` next to `items`, lists shorter than the prefix,
`maxContains: 0`, `if` without `else`, `unevaluatedProperties: false` next to other applicators, booleans as schemas
in `not`, `if`, `then`, `else`, `contains` and `propertyNames`, composite `enum`/`const` values and items of
`uniqueItems`, empty `anyOf`/`oneOf`, and a numeric exclusive bound equal to 1 next to the inclusive one. -/
theorem C36_judged_partial (w : World) (docs : List Doc) (voc : List Kw) (hp : VocPaired voc) (n : Node) (v : Val)
    (hf : Fits w voc n v) (hv : v.NoBraces) (f : Nat) (hd : n.depth + 3 ≤ f) :
    (validateN w docs voc f n v [] = .ok () ↔ Sat w voc n v) ∧ Decides (validateN w docs voc f n v []) :=
  satN_main w docs voc hp (n.depth + 1) n v [] f hf hv (by simp [CtxOk]) hd

/-- The same through `JsonSchema.validate`, whose root is an object. -/
theorem C36_root_partial (w : World) (docs : List Doc) (voc : List Kw) (hp : VocPaired voc) (items : List (Str × Node))
    (v : Val) (hf : Fits w voc (.obj items) v) (hv : v.NoBraces) (f : Nat) (hd : (Node.obj items).depth + 3 ≤ f) :
    (schemaValidate w docs voc f (.obj items) v = .ok () ↔ Sat w voc (.obj items) v) ∧
    Decides (schemaValidate w docs voc f (.obj items) v) := by
  have e : schemaValidate w docs voc f (.obj items) v = validateN w docs voc f (.obj items) v [] := by
    obtain ⟨g, rfl⟩ : ∃ g, f = g + 1 := ⟨f - 1, by omega⟩
    simp [schemaValidate]
  rw [e]
  exact C36_judged_partial w docs voc hp _ v hf hv f hd

/-! ## A case that meets the hypotheses -/

/-- `{"type": "object", "properties": {"a": {"type": "integer", "minimum": 2}}, "required": ["a"], "title": "t"}` -/
private def sch : Node := .obj
  [(c!"type", .str c!"object"),
   (c!"properties", .obj [(c!"a", .obj [(c!"type", .str c!"integer"), (c!"minimum", .num (.fin 2))])]),
   (c!"required", .arr [.str c!"a"]), (c!"title", .str c!"t")]

private def voc1 : List Kw := [.type, .minimum, .exclusiveMinimum, .properties, .required]

private def w0 : World :=
  { search := fun p => some fun s => strContains p s, formats := fun _ => none, parseDec := fun _ => none
    reprBody := fun _ => [] }

/-- Both instances fit; one satisfies the schema, the other does not. -/
example : VocPaired voc1 ∧ (∀ n : Int, Fits w0 voc1 sch (.dict [(c!"a", .int n)]) ∧ (Val.dict [(c!"a", .int n)]).NoBraces) ∧
    Sat w0 voc1 sch (.dict [(c!"a", .int 3)]) ∧ ¬ Sat w0 voc1 sch (.dict [(c!"a", .int 1)]) := by
  have hp : VocPaired voc1 := by constructor <;> decide
  have hb : ∀ n : Int, (Val.dict [(c!"a", .int n)]).NoBraces := by
    intro n; simp [Val.NoBraces, Val.NoBracesD]
  have hr : recognised voc1 [(c!"type", .str c!"integer"), (c!"minimum", .num (.fin 2))] =
    [(c!"type", .str c!"integer"), (c!"minimum", .num (.fin 2))] := rfl
  have hf : ∀ n : Int, Fits w0 voc1 sch (.dict [(c!"a", .int n)]) := by
    intro n
    have hin : ∀ d, FitsN w0 voc1 (d + 1) (.obj [(c!"type", .str c!"integer"), (c!"minimum", .num (.fin 2))]) (.int n) := by
      intro d
      unfold FitsN
      simp only [hr]
      constructor
      case type =>
        intro m h
        have : m = .str c!"integer" := by simpa [dictGet] using h.symm
        subst this
        exact ⟨[c!"integer"], by decide, .inr ⟨_, rfl, rfl⟩, fun _ _ => .inl (by simp [typeNamesOf])⟩
      case minimum =>
        intro m h
        have : m = .num (.fin 2) := by simpa [dictGet] using h.symm
        subst this
        exact ⟨⟨_, rfl⟩, n, rfl, rfl⟩
      all_goals simp [dictGet]
    have hr2 : recognised voc1 [(c!"type", .str c!"object"),
        (c!"properties", .obj [(c!"a", .obj [(c!"type", .str c!"integer"), (c!"minimum", .num (.fin 2))])]),
        (c!"required", .arr [.str c!"a"]), (c!"title", .str c!"t")] = [(c!"type", .str c!"object"),
        (c!"properties", .obj [(c!"a", .obj [(c!"type", .str c!"integer"), (c!"minimum", .num (.fin 2))])]),
        (c!"required", .arr [.str c!"a"])] := rfl
    show FitsN w0 voc1 (3 + 1) sch _
    unfold FitsN sch
    simp only [hr2]
    constructor
    case type =>
      intro m h
      have : m = .str c!"object" := by simpa [dictGet] using h.symm
      subst this
      exact ⟨[c!"object"], by decide, .inr ⟨_, rfl, rfl⟩, by simp⟩
    case properties =>
      intro m h
      have : m = .obj [(c!"a", .obj [(c!"type", .str c!"integer"), (c!"minimum", .num (.fin 2))])] := by
        simpa [dictGet] using h.symm
      subst this
      refine ⟨_, rfl, by decide, ?_⟩
      intro kvs e k x s hk hs
      cases e
      simp only [List.mem_singleton, Prod.mk.injEq] at hk
      obtain ⟨rfl, rfl⟩ := hk
      simp only [dictGet, if_true, Option.some.injEq] at hs
      subst hs
      refine ⟨hin 2, ?_⟩
      rintro ⟨t, ps, p, m, h, _⟩
      simp [dictGet] at h
    case required =>
      intro m h
      have : m = .arr [.str c!"a"] := by simpa [dictGet] using h.symm
      subst this
      exact ⟨⟨[c!"a"], rfl⟩, _, rfl⟩
    all_goals simp [dictGet]
  refine ⟨hp, fun n => ⟨hf n, hb n⟩, ?_, ?_⟩
  · rw [← (C36_judged_partial w0 [] voc1 hp _ _ (hf 3) (hb 3) 10 (by decide)).1]
    decide +kernel
  · rw [← (C36_judged_partial w0 [] voc1 hp _ _ (hf 1) (hb 1) 10 (by decide)).1]
    decide +kernel

/-! ## Refutations of the full statement

Each instance below has the types its schema talks about. -/

/-- `{"properties": {"a": {}}, "patternProperties": {"a": false}}` accepts `{"a": null}`, which it should not. -/
theorem C36_pattern_violated : ∃ (w : World) (voc : List Kw) (n : Node) (v : Val), VocPaired voc ∧ v.NoBraces ∧
    ¬ Sat w voc n v ∧ ∀ f, validateN w [] voc (f + 4) n v [] = .ok () := by
  refine ⟨w0, [.properties, .patternProperties],
    .obj [(c!"properties", .obj [(c!"a", .obj [])]), (c!"patternProperties", .obj [(c!"a", .bool false)])],
    .dict [(c!"a", .null)], by constructor <;> decide, by simp [Val.NoBraces, Val.NoBracesD], ?_, ?_⟩
  · rw [C36_meaning]
    intro L
    have := L.patternProperties _ rfl c!"a" .null (.bool false) (by simp)
      ⟨[(c!"a", .bool false)], c!"a", _, rfl, by simp, rfl, by decide⟩
    simp [Sat, SatN] at this
  · intro f; rfl

/-- `{"if": {"type": "null"}}` raises `KeyError` on a string that every schema with only `if` accepts. -/
theorem C36_if_violated : ∃ (w : World) (voc : List Kw) (n : Node) (v : Val), VocPaired voc ∧ v.NoBraces ∧
    Sat w voc n v ∧ ∀ f, validateN w [] voc (f + 4) n v [] = .err .keyError := by
  refine ⟨w0, [.type, .if], .obj [(c!"if", .obj [(c!"type", .str c!"null")])], .str c!"x",
    by constructor <;> decide, by simp [Val.NoBraces], ?_, ?_⟩
  · rw [C36_meaning]
    have hr : recognised [.type, .if] [(c!"if", .obj [(c!"type", .str c!"null")])] =
      [(c!"if", .obj [(c!"type", .str c!"null")])] := rfl
    simp only [hr]
    constructor <;> simp [dictGet, prefixOf, restOf, Named, PatternFor]
  · intro f; rfl

/-- `{"maximum": 0.1}` rejects the float `0.1` written the same way. -/
theorem C36_float_violated : ∃ (w : World) (voc : List Kw) (n : Node) (v : Val), VocPaired voc ∧ v.NoBraces ∧
    n = wrap (.dict [(c!"maximum", .flt (.fin (3602879701896397 / 36028797018963968) (1 / 10)))]) ∧
    v = .flt (.fin (3602879701896397 / 36028797018963968) (1 / 10)) ∧
    ∀ f, validateN w [] voc (f + 2) n v [] = rejected c!"maximum_error" [] := by
  refine ⟨w0, [.maximum, .exclusiveMaximum], _, _, by constructor <;> decide, ?_, rfl, rfl, ?_⟩
  · simp [Val.NoBraces]
  · intro f
    have hr : readKw w0 (view [] (f + 1)) id [(c!"maximum", .num (.fin (1 / 10)))] .maximum =
        .ok (.set (.maximum (.fin (1 / 10)) false)) := rfl
    have := single_set w0 [] [.maximum, .exclusiveMaximum] f [(c!"maximum", .num (.fin (1 / 10)))]
      (.flt (.fin (3602879701896397 / 36028797018963968) (1 / 10))) [] .maximum _
      ⟨by simp, by decide⟩ rfl rfl hr
    rw [show wrap (.dict [(c!"maximum", .flt (.fin (3602879701896397 / 36028797018963968) (1 / 10)))]) =
      .obj [(c!"maximum", .num (.fin (1 / 10)))] from rfl, this]
    rw [run]
    decide +kernel

/-- The schema `false` as a whole document accepts everything. -/
theorem C36_false_root_violated (w : World) (voc : List Kw) (v : Val) :
    ¬ Sat w voc (.bool false) v ∧ ∀ f, schemaValidate w [] voc (f + 1) (.bool false) v = .ok () :=
  ⟨by simp [Sat, SatN], fun _ => rfl⟩

end Verif.Props
