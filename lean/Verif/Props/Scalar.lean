import Verif.Proofs.Scalars
import Verif.Proofs.Multi
/-!
# Properties C14–C21: keywords that look at one value

Each theorem speaks about `LazyValidator.validate` on a schema object in which the keyword is the only recognised one
(`Only`); by C12 a schema with several keywords is judged keyword by keyword.  `ctx` is the location of the value,
without braces in its keys (`CtxOk`; trivially true for the root); C33 is about braces.
-/

namespace Verif.Props
open Verif

variable (w : World) (docs : List Doc) (voc : List Kw) (f : Nat) (items : List (Str × Node)) (v : Val) (ctx : Ctx)

/-! ## C14 -/

/-- The names given by a `type` keyword: one string or an array of strings. -/
def TypeNames (items : List (Str × Node)) (ts : List Str) : Prop :=
  (∃ t, ts = [t] ∧ dictGet c!"type" items = some (.str t)) ∨
    dictGet c!"type" items = some (.arr (ts.map .str))

theorem readType {ts : List Str} (h : TypeNames items ts) :
    readKw w (view docs (f + 1)) (id : Node → Node) items .type =
      if ts.all (· ∈ validTypes) then .ok (.set (.type ts)) else .err .schemaParse := by
  rcases h with ⟨t, rfl, h⟩ | h
  · simp only [readKw, getKey_of_get h, view, Res.ok_bind]
    rfl
  · have e : ts.map (nodeStr w ∘ Node.str) = ts := by
      have : (nodeStr w ∘ Node.str) = id := by funext s; rfl
      rw [this, List.map_id]
    simp [readKw, getKey_of_get h, view, e, show ∀ s, nodeStr w (.str s) = s from fun _ => rfl]

theorem typeNames_has {ts : List Str} (h : TypeNames items ts) : dictHas c!"type" items = true := by
  rcases h with ⟨t, rfl, h⟩ | h <;> exact dictHas_of_get h

/-- C14: `{type: T}` accepts exactly the values whose JSON type is named and rejects the others with `type_error`. -/
theorem C14_type (hc : CtxOk ctx) (ho : Only voc items .type) (ts : List Str) (h : TypeNames items ts)
    (hts : ∀ t ∈ ts, t ∈ jsonTypeNames) :
    validateN w docs voc (f + 2) (.obj items) v ctx =
      if ∃ t ∈ ts, t ∈ typeNamesOf v then .ok () else rejected c!"type_error" ctx.path := by
  have hall : ts.all (· ∈ validTypes) = true := by
    rw [List.all_eq_true]; intro t ht
    have : ∀ s ∈ jsonTypeNames, decide (s ∈ validTypes) = true := by decide
    exact this t (hts t ht)
  rw [single_set w docs voc f items v ctx .type (.type ts) ho rfl (typeNames_has items h)
    (by rw [readType w docs f items h, if_pos hall])]
  simp only [run, runType]
  have key := typeName_mem v ts
  by_cases h1 : typeName v ∈ ts
  · rw [if_pos h1, if_pos (key.1 (.inl h1))]
  · rw [if_neg h1]
    by_cases h2 : typeName v = c!"integer" ∧ c!"number" ∈ ts
    · rw [if_pos h2, if_pos (key.1 (.inr h2))]
    · rw [if_neg h2, if_neg fun e => (key.2 e).elim h1 h2, raise_ctx hc (by simp [ErrClass.all])]; rfl

/-- C14: a name that is not one of the seven makes every validation raise `SchemaParseError`. -/
theorem C14_unknown_type (ho : Only voc items .type) (ts : List Str) (h : TypeNames items ts) (t : Str) (ht : t ∈ ts)
    (hn : t ∉ jsonTypeNames) : validateN w docs voc (f + 2) (.obj items) v ctx = .err .schemaParse := by
  have hall : ¬ ts.all (· ∈ validTypes) = true := by
    rw [List.all_eq_true]; intro hall
    have : ∀ s ∈ validTypes, s ∈ jsonTypeNames := by decide
    exact hn (this t (by simpa using hall t ht))
  exact single_err w docs voc f items v ctx .type _ ho rfl (typeNames_has items h)
    (by rw [readType w docs f items h, if_neg hall])

example : Only [.enum, .type] [(c!"type", .arr [.str c!"number", .str c!"null"]), (c!"title", .str c!"x")] .type ∧
    TypeNames [(c!"type", .arr [.str c!"number", .str c!"null"]), (c!"title", .str c!"x")] [c!"number", c!"null"] := by
  refine ⟨⟨by simp, by decide⟩, .inr rfl⟩

/-! ## C15 -/

/-- C15: `{enum: [...]}` with scalar members accepts exactly the values equal to a member, booleans being different from
numbers; the others get `enum_error`. -/
theorem C15_enum (hc : CtxOk ctx) (ho : Only voc items .enum) (xs : List Node)
    (h : dictGet c!"enum" items = some (.arr xs)) (hs : ∀ x ∈ xs, x.Scalar) :
    validateN w docs voc (f + 2) (.obj items) v ctx =
      if ∃ x ∈ xs, litEq x v = true then .ok () else rejected c!"enum_error" ctx.path := by
  rw [single_set w docs voc f items v ctx .enum (.enum xs) ho rfl (dictHas_of_get h)
    (by simp [readKw, getKey_of_get h, view])]
  simp only [run, runEnum_eq v ctx xs hs, List.any_eq_true, raise_ctx hc (c := .enumError) (by simp [ErrClass.all])]
  rfl

example : Only [.enum] [(c!"enum", .arr [.num (.fin 0), .bool true, .str c!"a", .null])] .enum ∧
    (∀ x ∈ [Node.num (.fin 0), .bool true, .str c!"a", .null], x.Scalar) := by
  refine ⟨⟨by simp, by decide⟩, by simp [Node.Scalar]⟩

/-! ## C16 -/

/-- C16: `{const: c}` with a scalar `c` accepts exactly the values equal to `c`; the others get `const_error`. -/
theorem C16_const (hc : CtxOk ctx) (ho : Only voc items .const) (x : Node)
    (h : dictGet c!"const" items = some x) (hs : x.Scalar) :
    validateN w docs voc (f + 2) (.obj items) v ctx =
      if litEq x v = true then .ok () else rejected c!"const_error" ctx.path := by
  rw [single_set w docs voc f items v ctx .const (.const x) ho rfl (dictHas_of_get h)
    (by cases x <;> simp_all [readKw, getKey_of_get h, view, Node.Scalar])]
  simp only [run, runConst_eq x hs v ctx, raise_ctx hc (c := .constError) (by simp [ErrClass.all])]
  rfl

example : Only [.const] [(c!"const", .bool false)] .const ∧ (Node.bool false).Scalar := ⟨⟨by simp, by decide⟩, trivial⟩

/-! ## C17 -/

/-- The only recognised keywords are `maximum` and `exclusiveMaximum`, with values `mx` and `ex`; the boolean form needs
`maximum`, and a numeric `exclusiveMaximum` next to `maximum` is not 1. -/
structure UpperSchema (voc : List Kw) (items : List (Str × Node)) (mx : Option Rat) (ex : Option (Bool ⊕ Rat)) :
    Prop where
  vocM : dictHas c!"maximum" items = true → .maximum ∈ voc
  vocE : dictHas c!"exclusiveMaximum" items = true → .exclusiveMaximum ∈ voc
  only : ∀ k, Present voc items k → k = .maximum ∨ k = .exclusiveMaximum
  getM : dictGet c!"maximum" items = mx.map fun m => .num (.fin m)
  getE : dictGet c!"exclusiveMaximum" items = ex.map exclNode
  boolForm : ∀ b, ex = some (.inl b) → mx ≠ none
  notOne : ex = some (.inr 1) → mx = none

/-- C17: finite numbers against `maximum`/`exclusiveMaximum`: accepted exactly if within the bounds, else `maximum_error`.
Missing: a numeric `exclusiveMaximum: 1` next to `maximum` (see `C17_exclusiveMaximum_one_violated`). -/
theorem C17_maximum_partial (hc : CtxOk ctx) (mx : Option Rat) (ex : Option (Bool ⊕ Rat))
    (h : UpperSchema voc items mx ex) (q : Rat) (hv : exactVal v = some q) :
    (UpperOk mx ex q → validateN w docs voc (f + 2) (.obj items) v ctx = .ok ()) ∧
    (¬ UpperOk mx ex q → validateN w docs voc (f + 2) (.obj items) v ctx = rejected c!"maximum_error" ctx.path) := by
  have hraise : raiseErr .maximum ctx.path = .validation ⟨c!"maximum_error", ctx.path, []⟩ :=
    raise_ctx hc (c := .maximum) (by simp [ErrClass.all]) []
  have hM : ∀ m, mx = some m → readKw w (view docs (f + 1)) (id : Node → Node) items .maximum =
      .ok (.set (.maximum (.fin m) (decide (ex = some (.inl true))))) := by
    intro m hm
    have hg := h.getM
    have he := h.getE
    rw [hm] at hg
    simp only [readKw, numKey, getKey_of_get hg, he]
    cases ex with
    | none => simp [view]
    | some e =>
      cases e with
      | inl b => cases b <;> simp [view, exclNode, eqTrue]
      | inr x =>
        have : x ≠ 1 := by
          intro hx; have := h.notOne (by rw [hx]); rw [hm] at this; cases this
        simp [view, exclNode, eqTrue, Num.eq, this]
  have hE : ∀ e, ex = some e → readKw w (view docs (f + 1)) (id : Node → Node) items .exclusiveMaximum =
      match e with
      | .inl _ => .ok .nop
      | .inr x => .ok (.set (.maximum (.fin x) true)) := by
    intro e he
    have hg := h.getE
    rw [he] at hg
    cases e with
    | inl b =>
      have hm := h.boolForm b he
      have : dictHas c!"maximum" items = true := by
        unfold dictHas; rw [h.getM]; cases mx <;> simp_all
      simp [readKw, getKey_of_get hg, view, exclNode, this]
    | inr x => simp [readKw, getKey_of_get hg, view, exclNode]
  have hrun : ∀ m b, (run (validateN w docs voc (f + 1)) w (f + 1) (.maximum (.fin m) b) v ctx = .ok () ↔
      if b = true then q < m else q ≤ m) ∧
      (run (validateN w docs voc (f + 1)) w (f + 1) (.maximum (.fin m) b) v ctx = .ok () ∨
        run (validateN w docs voc (f + 1)) w (f + 1) (.maximum (.fin m) b) v ctx =
          .err (.validation ⟨c!"maximum_error", ctx.path, []⟩)) := by
    intro m b
    simp only [run, runMaximum, exactVal_num hv, hraise, Num.lt, Num.le]
    cases b
    · by_cases hq : q ≤ m
      · simp [hq, Rat.not_lt.2 hq]
      · simp [hq, Rat.not_le.1 hq]
    · by_cases hq : q < m
      · simp [hq, Rat.not_le.2 hq]
      · simp [hq, Rat.not_lt.1 hq]
  have hcases : ∀ k, Present voc items k → (k = .maximum ∧ ∃ m, mx = some m) ∨ (k = .exclusiveMaximum ∧ ∃ e, ex = some e) := by
    intro k hk
    rcases h.only k hk with rfl | rfl
    · left; refine ⟨rfl, ?_⟩
      have := hk.2.2; simp only [Kw.key, Kw.keys, List.headD, dictHas, h.getM] at this
      cases mx <;> simp_all
    · right; refine ⟨rfl, ?_⟩
      have := hk.2.2; simp only [Kw.key, Kw.keys, List.headD, dictHas, h.getE] at this
      cases ex <;> simp_all
  have key := multi_set w docs voc f items v ctx (.validation ⟨c!"maximum_error", ctx.path, []⟩) (by
    intro k hk
    rcases hcases k hk with ⟨rfl, m, hm⟩ | ⟨rfl, e, he⟩
    · exact .inr ⟨_, hM m hm, (hrun _ _).2⟩
    · cases e with
      | inl b => exact .inl (hE _ he)
      | inr x => exact .inr ⟨_, hE _ he, (hrun _ _).2⟩)
  have hiff : validateN w docs voc (f + 2) (.obj items) v ctx = .ok () ↔ UpperOk mx ex q := by
    rw [key.1]
    constructor
    · intro hall
      constructor
      · intro m hm
        have hp : dictHas c!"maximum" items = true :=
          dictHas_of_get (x := .num (.fin m)) (by rw [h.getM, hm]; rfl)
        have := hall .maximum _ ⟨h.vocM hp, rfl, hp⟩ (hM m hm)
        simpa using (hrun _ _).1.1 this
      · intro x hx
        have hp : dictHas c!"exclusiveMaximum" items = true :=
          dictHas_of_get (x := .num (.fin x)) (by rw [h.getE, hx]; rfl)
        have := hall .exclusiveMaximum _ ⟨h.vocE hp, rfl, hp⟩ (hE _ hx)
        simpa using (hrun _ _).1.1 this
    · rintro ⟨h1, h2⟩ k x hk hr
      rcases hcases k hk with ⟨rfl, m, hm⟩ | ⟨rfl, e, he⟩
      · rw [hM m hm] at hr; injection hr with hr; injection hr with hr
        rw [← hr, (hrun _ _).1]
        simpa using h1 m hm
      · rw [hE e he] at hr
        cases e with
        | inl b => cases hr
        | inr y =>
          injection hr with hr; injection hr with hr
          rw [← hr, (hrun _ _).1]
          simpa using h2 y he
  refine ⟨hiff.2, fun hn => ?_⟩
  rcases key.2 with h1 | h1
  · exact absurd (hiff.1 h1) hn
  · exact h1

example : UpperSchema [.maximum, .exclusiveMaximum] [(c!"maximum", .num (.fin 5)), (c!"exclusiveMaximum", .bool true)] (some 5)
    (some (.inl true)) :=
  ⟨by simp, by simp, by
    rintro k ⟨h, _, _⟩; simpa using h, rfl, rfl, by simp, by simp⟩

/-- C17 fails: a numeric `exclusiveMaximum: 1` next to `maximum` makes the other bound strict (`1 == True` in Python):
`{maximum: 0, exclusiveMaximum: 1}` rejects 0. -/
theorem C17_exclusiveMaximum_one_violated :
    UpperOk (some 0) (some (.inr 1)) 0 ∧
    ∀ w, validateN w [] [.maximum, .exclusiveMaximum]
      3 (.obj [(c!"maximum", .num (.fin 0)), (c!"exclusiveMaximum", .num (.fin 1))]) (.int 0) [] =
        rejected c!"maximum_error" [] := by
  refine ⟨by simp [UpperOk]; decide +kernel, fun w => ?_⟩
  have h : raiseErr .maximum (Ctx.path []) = .validation ⟨c!"maximum_error", [], []⟩ :=
    raise_ctx (ctx := []) (by intro k hk; simp at hk) (c := .maximum) (by simp [ErrClass.all]) []
  simp [validateN, view, loadAll, Kw.isAssertion, Kw.key, Kw.keys, dictHas, dictGet, applyKw, applyMaximum,
    applyExclusiveMaximum, numKey, getKey, eqTrue, Num.eq, dictSet, runAll, run, runMaximum, Val.num?, Num.le, h, rejected]

/-- The only recognised keywords are `minimum` and `exclusiveMinimum`, with values `mx` and `ex`; the boolean form needs
`minimum`, and a numeric `exclusiveMinimum` next to `minimum` is not 1. -/
structure LowerSchema (voc : List Kw) (items : List (Str × Node)) (mx : Option Rat) (ex : Option (Bool ⊕ Rat)) :
    Prop where
  vocM : dictHas c!"minimum" items = true → .minimum ∈ voc
  vocE : dictHas c!"exclusiveMinimum" items = true → .exclusiveMinimum ∈ voc
  only : ∀ k, Present voc items k → k = .minimum ∨ k = .exclusiveMinimum
  getM : dictGet c!"minimum" items = mx.map fun m => .num (.fin m)
  getE : dictGet c!"exclusiveMinimum" items = ex.map exclNode
  boolForm : ∀ b, ex = some (.inl b) → mx ≠ none
  notOne : ex = some (.inr 1) → mx = none

/-- C17: finite numbers against `minimum`/`exclusiveMinimum`: accepted exactly if within the bounds, else `minimum_error`.
Missing: a numeric `exclusiveMinimum: 1` next to `minimum` (see `C17_exclusiveMinimum_one_violated`). -/
theorem C17_minimum_partial (hc : CtxOk ctx) (mx : Option Rat) (ex : Option (Bool ⊕ Rat))
    (h : LowerSchema voc items mx ex) (q : Rat) (hv : exactVal v = some q) :
    (LowerOk mx ex q → validateN w docs voc (f + 2) (.obj items) v ctx = .ok ()) ∧
    (¬ LowerOk mx ex q → validateN w docs voc (f + 2) (.obj items) v ctx = rejected c!"minimum_error" ctx.path) := by
  have hraise : raiseErr .minimum ctx.path = .validation ⟨c!"minimum_error", ctx.path, []⟩ :=
    raise_ctx hc (c := .minimum) (by simp [ErrClass.all]) []
  have hM : ∀ m, mx = some m → readKw w (view docs (f + 1)) (id : Node → Node) items .minimum =
      .ok (.set (.minimum (.fin m) (decide (ex = some (.inl true))))) := by
    intro m hm
    have hg := h.getM
    have he := h.getE
    rw [hm] at hg
    simp only [readKw, numKey, getKey_of_get hg, he]
    cases ex with
    | none => simp [view]
    | some e =>
      cases e with
      | inl b => cases b <;> simp [view, exclNode, eqTrue]
      | inr x =>
        have : x ≠ 1 := by
          intro hx; have := h.notOne (by rw [hx]); rw [hm] at this; cases this
        simp [view, exclNode, eqTrue, Num.eq, this]
  have hE : ∀ e, ex = some e → readKw w (view docs (f + 1)) (id : Node → Node) items .exclusiveMinimum =
      match e with
      | .inl _ => .ok .nop
      | .inr x => .ok (.set (.minimum (.fin x) true)) := by
    intro e he
    have hg := h.getE
    rw [he] at hg
    cases e with
    | inl b =>
      have hm := h.boolForm b he
      have : dictHas c!"minimum" items = true := by
        unfold dictHas; rw [h.getM]; cases mx <;> simp_all
      simp [readKw, getKey_of_get hg, view, exclNode, this]
    | inr x => simp [readKw, getKey_of_get hg, view, exclNode]
  have hrun : ∀ m b, (run (validateN w docs voc (f + 1)) w (f + 1) (.minimum (.fin m) b) v ctx = .ok () ↔
      if b = true then m < q else m ≤ q) ∧
      (run (validateN w docs voc (f + 1)) w (f + 1) (.minimum (.fin m) b) v ctx = .ok () ∨
        run (validateN w docs voc (f + 1)) w (f + 1) (.minimum (.fin m) b) v ctx =
          .err (.validation ⟨c!"minimum_error", ctx.path, []⟩)) := by
    intro m b
    simp only [run, runMinimum, exactVal_num hv, hraise, Num.lt, Num.le]
    cases b
    · by_cases hq : m ≤ q
      · simp [hq, Rat.not_lt.2 hq]
      · simp [hq, Rat.not_le.1 hq]
    · by_cases hq : m < q
      · simp [hq, Rat.not_le.2 hq]
      · simp [hq, Rat.not_lt.1 hq]
  have hcases : ∀ k, Present voc items k → (k = .minimum ∧ ∃ m, mx = some m) ∨ (k = .exclusiveMinimum ∧ ∃ e, ex = some e) := by
    intro k hk
    rcases h.only k hk with rfl | rfl
    · left; refine ⟨rfl, ?_⟩
      have := hk.2.2; simp only [Kw.key, Kw.keys, List.headD, dictHas, h.getM] at this
      cases mx <;> simp_all
    · right; refine ⟨rfl, ?_⟩
      have := hk.2.2; simp only [Kw.key, Kw.keys, List.headD, dictHas, h.getE] at this
      cases ex <;> simp_all
  have key := multi_set w docs voc f items v ctx (.validation ⟨c!"minimum_error", ctx.path, []⟩) (by
    intro k hk
    rcases hcases k hk with ⟨rfl, m, hm⟩ | ⟨rfl, e, he⟩
    · exact .inr ⟨_, hM m hm, (hrun _ _).2⟩
    · cases e with
      | inl b => exact .inl (hE _ he)
      | inr x => exact .inr ⟨_, hE _ he, (hrun _ _).2⟩)
  have hiff : validateN w docs voc (f + 2) (.obj items) v ctx = .ok () ↔ LowerOk mx ex q := by
    rw [key.1]
    constructor
    · intro hall
      constructor
      · intro m hm
        have hp : dictHas c!"minimum" items = true :=
          dictHas_of_get (x := .num (.fin m)) (by rw [h.getM, hm]; rfl)
        have := hall .minimum _ ⟨h.vocM hp, rfl, hp⟩ (hM m hm)
        simpa using (hrun _ _).1.1 this
      · intro x hx
        have hp : dictHas c!"exclusiveMinimum" items = true :=
          dictHas_of_get (x := .num (.fin x)) (by rw [h.getE, hx]; rfl)
        have := hall .exclusiveMinimum _ ⟨h.vocE hp, rfl, hp⟩ (hE _ hx)
        simpa using (hrun _ _).1.1 this
    · rintro ⟨h1, h2⟩ k x hk hr
      rcases hcases k hk with ⟨rfl, m, hm⟩ | ⟨rfl, e, he⟩
      · rw [hM m hm] at hr; injection hr with hr; injection hr with hr
        rw [← hr, (hrun _ _).1]
        simpa using h1 m hm
      · rw [hE e he] at hr
        cases e with
        | inl b => cases hr
        | inr y =>
          injection hr with hr; injection hr with hr
          rw [← hr, (hrun _ _).1]
          simpa using h2 y he
  refine ⟨hiff.2, fun hn => ?_⟩
  rcases key.2 with h1 | h1
  · exact absurd (hiff.1 h1) hn
  · exact h1

example : LowerSchema [.minimum, .exclusiveMinimum] [(c!"minimum", .num (.fin 5)), (c!"exclusiveMinimum", .bool true)] (some 5)
    (some (.inl true)) :=
  ⟨by simp, by simp, by
    rintro k ⟨h, _, _⟩; simpa using h, rfl, rfl, by simp, by simp⟩

/-- C17 fails: a numeric `exclusiveMinimum: 1` next to `minimum` makes the other bound strict (`1 == True` in Python):
`{minimum: 2, exclusiveMinimum: 1}` rejects 2. -/
theorem C17_exclusiveMinimum_one_violated :
    LowerOk (some 2) (some (.inr 1)) 2 ∧
    ∀ w, validateN w [] [.minimum, .exclusiveMinimum]
      3 (.obj [(c!"minimum", .num (.fin 2)), (c!"exclusiveMinimum", .num (.fin 1))]) (.int 2) [] =
        rejected c!"minimum_error" [] := by
  refine ⟨by simp [LowerOk]; decide +kernel, fun w => ?_⟩
  have h : raiseErr .minimum (Ctx.path []) = .validation ⟨c!"minimum_error", [], []⟩ :=
    raise_ctx (ctx := []) (by intro k hk; simp at hk) (c := .minimum) (by simp [ErrClass.all]) []
  simp [validateN, view, loadAll, Kw.isAssertion, Kw.key, Kw.keys, dictHas, dictGet, applyKw, applyMinimum,
    applyExclusiveMinimum, numKey, getKey, eqTrue, Num.eq, dictSet, runAll, run, runMinimum, Val.num?, Num.le, h, rejected]

/-! ## C18 -/

/-- C18, weaker: `{multipleOf: m}` accepts a finite number exactly if its (printed) value is an integer multiple of `m`.  Missing: numbers
beyond the exponents of the decimal context, see `C18_multipleOf_violated`. -/
theorem C18_multipleOf_partial (hc : CtxOk ctx) (ho : Only voc items .multipleOf) (m q : Rat)
    (h : dictGet c!"multipleOf" items = some (.num (.fin m))) (hm : m ≠ 0) (hv : printedVal v = some q)
    (h1 : -10 ^ 28 < q / m) (h2 : q / m < 10 ^ 28) (h3 : Coarse m) (h4 : Coarse q) (h5 : Num.mag q ≤ Num.pow10 999999) :
    ((∃ k : Int, q = m * k) → validateN w docs voc (f + 2) (.obj items) v ctx = .ok ()) ∧
    ((¬ ∃ k : Int, q = m * k) →
      validateN w docs voc (f + 2) (.obj items) v ctx = rejected c!"multiple_of_error" ctx.path) := by
  rw [single_set w docs voc f items v ctx .multipleOf (.multipleOf (.fin m)) ho rfl (dictHas_of_get h)
    (by simp [readKw, numKey, getKey_of_get h, view])]
  have hb : (truncate (q / m)).natAbs < 10 ^ 28 := truncate_bound _ h1 h2
  rw [← trunc_eq] at hb
  simp only [run, runMultipleOf, printedVal_dec hv, Res.ok_bind, Num.rem, if_neg hm, if_neg (Nat.not_le.2 hb),
    raise_ctx hc (c := .multipleOf) (by simp [ErrClass.all])]
  have key := rem_zero_iff q m hm
  constructor
  · intro h
    rw [key.2 h, Num.fix_zero]
    rfl
  · intro h
    obtain ⟨y, hy, hy0⟩ := Num.fix_ne_zero (q := q - m * ((q / m).num.tdiv (q / m).den : Int)) (fun e => h (key.1 e)) (by
      obtain ⟨a, ha⟩ := h3
      obtain ⟨b, hb⟩ := h4
      generalize ((q / m).num.tdiv (q / m).den) = k
      refine ⟨b - a * k, ?_⟩
      rw [Rat.intCast_sub, Rat.intCast_mul, ha, hb]
      grind) (by
      rw [trunc_eq]
      have := rem_mag q m hm
      grind)
    rw [hy]
    simp [Num.eq, hy0]
    rfl

example : Only [.multipleOf] [(c!"multipleOf", .num (.fin (1 / 100)))] .multipleOf ∧ (1 / 100 : Rat) ≠ 0 ∧
    printedVal (.flt (.fin (2778025911 / 2 ^ 31) (129 / 100))) = some (129 / 100) ∧
    -10 ^ 28 < (129 / 100 : Rat) / (1 / 100) ∧ (129 / 100 : Rat) / (1 / 100) < 10 ^ 28 ∧
    (129 / 100 : Rat) = 1 / 100 * (129 : Int) := by
  refine ⟨⟨by simp, by decide⟩, by decide +kernel, by decide +kernel, by decide +kernel, by decide +kernel, by decide +kernel⟩

/-- The numbers with at most two digits after the point are coarse. -/
example (j : Int) : Coarse (j / 100) := by
  have h := coarse_scaled j 2 (by omega)
  have h2 : Num.pow10 2 = 100 := by have := Num.pow10_nat 2; simpa using this
  have h1 : Num.pow10 (-2) * Num.pow10 2 = 1 := by rw [← Num.pow10_add]; exact Num.pow10_zero
  rw [show (-((2 : Nat) : Int)) = -2 from rfl] at h
  rwa [show (j : Rat) / 100 = j * Num.pow10 (-2) by grind]

theorem multipleOf_fix (w : World) (m q : Rat) (hm : m ≠ 0) (t : Int) (ht : truncate (q / m) = t) (hb : t.natAbs < 10 ^ 28) :
    (Num.fix (q - m * t) = .ok 0 →
      validateN w [] [.multipleOf] 3 (.obj [(c!"multipleOf", .num (.fin m))]) (.dec (.fin q)) [] = .ok ()) ∧
    (∀ e, Num.fix (q - m * t) = .err e →
      validateN w [] [.multipleOf] 3 (.obj [(c!"multipleOf", .num (.fin m))]) (.dec (.fin q)) [] = .err e) := by
  rw [single_set w [] _ 1 _ _ [] .multipleOf (.multipleOf (.fin m)) ⟨by simp, by simp [Kw.key, Kw.keys]⟩ rfl (by rfl)
    (by simp [readKw, numKey, getKey_of_get, dictGet, view])]
  subst ht
  rw [← trunc_eq] at hb
  simp only [run, runMultipleOf, printedVal_dec (v := .dec (.fin q)) rfl, Res.ok_bind, Num.rem, if_neg hm, if_neg (Nat.not_le.2 hb)]
  rw [← trunc_eq]
  constructor
  · intro h; rw [h]; rfl
  · intro e h; rw [h]; rfl

/-- C18 fails: `{multipleOf: 1}` accepts the number 10^-2000000, since the remainder is rounded to 0; and with `{multipleOf: 3E1999999}` the
number 1E2000000 raises `decimal.Overflow`. -/
theorem C18_multipleOf_violated : (¬ ∃ k : Int, Num.pow10 (-2000000) = 1 * k) ∧
    (∀ w, validateN w [] [.multipleOf] 3 (.obj [(c!"multipleOf", .num (.fin 1))]) (.dec (.fin (Num.pow10 (-2000000)))) [] = .ok ()) ∧
    (∀ w, validateN w [] [.multipleOf] 3 (.obj [(c!"multipleOf", .num (.fin (3 * Num.pow10 1999999)))])
      (.dec (.fin (Num.pow10 2000000))) [] = .err .decimalOverflow) := by
  have p1 := Num.pow10_pos (-2000000)
  have p2 := Num.pow10_pos 1999999
  have p3 := Num.pow10_lt (show -2000000 < 0 by omega)
  rw [Num.pow10_zero] at p3
  have p4 : Num.pow10 2000000 = 10 * Num.pow10 1999999 := by rw [← Num.pow10_succ]; rfl
  refine ⟨?_, fun w => ?_, fun w => ?_⟩
  · rintro ⟨k, hk⟩
    rw [Rat.one_mul] at hk
    rw [hk] at p1 p3
    have a1 : 0 < k := by exact_mod_cast p1
    have a2 : k < 1 := by exact_mod_cast p3
    omega
  · have hd : Num.pow10 (-2000000) / 1 = Num.pow10 (-2000000) := by grind
    have ht : truncate (Num.pow10 (-2000000)) = 0 := by
      generalize Num.pow10 (-2000000) = x at *
      unfold truncate
      rw [if_pos (Rat.le_of_lt p1)]
      have h1 := Rat.floor_le x
      have h4 : (x.floor : Rat) < ((1 : Int) : Rat) := by grind
      have h5 : x.floor < 1 := by exact_mod_cast h4
      have h6 : 0 ≤ x.floor := Rat.le_floor_iff.2 (by simpa using Rat.le_of_lt p1)
      omega
    refine (multipleOf_fix w 1 _ (by decide) 0 (by rw [hd]; exact ht) (by decide)).1 ?_
    rw [show Num.pow10 (-2000000) - 1 * ((0 : Int) : Rat) = Num.pow10 (-2000000) by grind, Num.fix_tiny]
    have : Num.mag (Num.pow10 (-2000000)) = Num.pow10 (-2000000) := by unfold Num.mag; split <;> grind
    rw [this]; exact Num.pow10_lt (by omega)
  · have hd : Num.pow10 2000000 / (3 * Num.pow10 1999999) = 10 / 3 := by grind
    have ht : truncate (10 / 3) = 3 := by decide +kernel
    refine (multipleOf_fix w _ _ (by grind) 3 (by rw [hd]; exact ht) (by decide)).2 _ ?_
    rw [show Num.pow10 2000000 - 3 * Num.pow10 1999999 * ((3 : Int) : Rat) = Num.pow10 1999999 by grind, Num.fix_huge]
    have : Num.mag (Num.pow10 1999999) = Num.pow10 1999999 := by unfold Num.mag; split <;> grind
    rw [this]; exact Num.pow10_mono (by omega)

/-! ## C19, C20 -/

theorem readInt {k : Str} {q : Rat} (h : dictGet k items = some (.num (.fin q))) :
    intKey (view docs (f + 1)) items k = .ok (truncate q) := by
  simp [intKey, getKey_of_get h, view, toInt_eq]

/-- C19: `{minLength: q}` accepts a string exactly if it has at least `q` (truncated) characters. -/
theorem C19_minLength (hc : CtxOk ctx) (ho : Only voc items .minLength) (q : Rat) (s : Str)
    (h : dictGet c!"minLength" items = some (.num (.fin q))) :
    validateN w docs voc (f + 2) (.obj items) (.str s) ctx =
      if truncate q ≤ s.length then .ok () else rejected c!"min_length_error" ctx.path := by
  rw [single_set w docs voc f items _ ctx .minLength (.minLength (truncate q)) ho rfl (dictHas_of_get h)
    (by simp only [readKw, readInt docs f items h]; rfl)]
  simp only [run, runMinLen, pyLen, Res.ok_bind, raise_ctx hc (c := .minLength) (by simp [ErrClass.all])]; rfl

/-- C19: `{maxLength: q}` accepts a string exactly if it has at most `q` (truncated) characters. -/
theorem C19_maxLength (hc : CtxOk ctx) (ho : Only voc items .maxLength) (q : Rat) (s : Str)
    (h : dictGet c!"maxLength" items = some (.num (.fin q))) :
    validateN w docs voc (f + 2) (.obj items) (.str s) ctx =
      if (s.length : Int) ≤ truncate q then .ok () else rejected c!"max_length_error" ctx.path := by
  rw [single_set w docs voc f items _ ctx .maxLength (.maxLength (truncate q)) ho rfl (dictHas_of_get h)
    (by simp only [readKw, readInt docs f items h]; rfl)]
  simp only [run, runMaxLen, pyLen, Res.ok_bind, raise_ctx hc (c := .maxLength) (by simp [ErrClass.all])]; rfl

example : Only [.minLength, .maxLength] [(c!"minLength", .num (.fin (5 / 2)))] .minLength ∧ truncate (5 / 2) = 2 ∧
    truncate (-5 / 2) = -2 := ⟨⟨by simp, by decide⟩, by decide +kernel, by decide +kernel⟩
example : Only [.minLength, .maxLength] [(c!"maxLength", .num (.fin 3))] .maxLength := ⟨by simp, by decide⟩

/-- C20: `{minItems: q}` compares the length of a list. -/
theorem C20_minItems (hc : CtxOk ctx) (ho : Only voc items .minItems) (q : Rat) (xs : List Val)
    (h : dictGet c!"minItems" items = some (.num (.fin q))) :
    validateN w docs voc (f + 2) (.obj items) (.list xs) ctx =
      if truncate q ≤ xs.length then .ok () else rejected c!"minimum_items_error" ctx.path := by
  rw [single_set w docs voc f items _ ctx .minItems (.minItems (truncate q)) ho rfl (dictHas_of_get h)
    (by simp only [readKw, readInt docs f items h]; rfl)]
  simp only [run, runMinLen, pyLen, Res.ok_bind, raise_ctx hc (c := .minItems) (by simp [ErrClass.all])]; rfl

/-- C20: `{maxItems: q}` compares the length of a list. -/
theorem C20_maxItems (hc : CtxOk ctx) (ho : Only voc items .maxItems) (q : Rat) (xs : List Val)
    (h : dictGet c!"maxItems" items = some (.num (.fin q))) :
    validateN w docs voc (f + 2) (.obj items) (.list xs) ctx =
      if (xs.length : Int) ≤ truncate q then .ok () else rejected c!"maximum_items_error" ctx.path := by
  rw [single_set w docs voc f items _ ctx .maxItems (.maxItems (truncate q)) ho rfl (dictHas_of_get h)
    (by simp only [readKw, readInt docs f items h]; rfl)]
  simp only [run, runMaxLen, pyLen, Res.ok_bind, raise_ctx hc (c := .maxItems) (by simp [ErrClass.all])]; rfl

/-- C20: `{minProperties: q}` compares the number of members of a dict. -/
theorem C20_minProperties (hc : CtxOk ctx) (ho : Only voc items .minProperties) (q : Rat) (kvs : List (Str × Val))
    (h : dictGet c!"minProperties" items = some (.num (.fin q))) :
    validateN w docs voc (f + 2) (.obj items) (.dict kvs) ctx =
      if truncate q ≤ kvs.length then .ok () else rejected c!"minimum_properties_error" ctx.path := by
  rw [single_set w docs voc f items _ ctx .minProperties (.minProperties (truncate q)) ho rfl (dictHas_of_get h)
    (by simp only [readKw, readInt docs f items h]; rfl)]
  simp only [run, runMinProps, pyLen, Res.ok_bind, raise_ctx hc (c := .minProperties) (by simp [ErrClass.all])]
  by_cases h : truncate q ≤ kvs.length
  · rw [if_pos h, if_neg (by omega)]
  · rw [if_neg h, if_pos (by omega)]; rfl

/-- C20: `{maxProperties: q}` compares the number of members of a dict. -/
theorem C20_maxProperties (hc : CtxOk ctx) (ho : Only voc items .maxProperties) (q : Rat) (kvs : List (Str × Val))
    (h : dictGet c!"maxProperties" items = some (.num (.fin q))) :
    validateN w docs voc (f + 2) (.obj items) (.dict kvs) ctx =
      if (kvs.length : Int) ≤ truncate q then .ok () else rejected c!"maximum_properties_error" ctx.path := by
  rw [single_set w docs voc f items _ ctx .maxProperties (.maxProperties (truncate q)) ho rfl (dictHas_of_get h)
    (by simp only [readKw, readInt docs f items h]; rfl)]
  simp only [run, runMaxProps, pyLen, Res.ok_bind, raise_ctx hc (c := .maxProperties) (by simp [ErrClass.all])]
  by_cases h : (kvs.length : Int) ≤ truncate q
  · rw [if_pos h, if_neg (by omega)]
  · rw [if_neg h, if_pos (by omega)]; rfl

example : Only [.minItems] [(c!"minItems", .num (.fin 1))] .minItems ∧
    Only [.maxItems] [(c!"maxItems", .num (.fin 1))] .maxItems ∧
    Only [.minProperties] [(c!"minProperties", .num (.fin 1))] .minProperties ∧
    Only [.maxProperties] [(c!"maxProperties", .num (.fin 1))] .maxProperties := by
  refine ⟨⟨by simp, by decide⟩, ⟨by simp, by decide⟩, ⟨by simp, by decide⟩, ⟨by simp, by decide⟩⟩

/-! ## C21 -/

/-- C21: `{uniqueItems: true}` accepts a list of scalars exactly if no two items are equal (in Python's sense);
otherwise the error is `unique_items_error`, at the index of an item that repeats an earlier one. -/
theorem C21_uniqueItems (hc : CtxOk ctx) (ho : Only voc items .uniqueItems) (xs : List Val)
    (h : dictGet c!"uniqueItems" items = some (.bool true)) (hs : ∀ x ∈ xs, x.Scalar) :
    (xs.Pairwise (fun a b => pyScalarEq a b = false) →
      validateN w docs voc (f + 2) (.obj items) (.list xs) ctx = .ok ()) ∧
    (¬ xs.Pairwise (fun a b => pyScalarEq a b = false) →
      ∃ i j a b, j < i ∧ xs[i]? = some a ∧ xs[j]? = some b ∧ pyScalarEq b a = true ∧
        validateN w docs voc (f + 2) (.obj items) (.list xs) ctx =
          rejected c!"unique_items_error" (ctx.path ++ natStr i)) := by
  rw [single_set w docs voc f items _ ctx .uniqueItems .uniqueItems ho rfl (dictHas_of_get h)
    (by simp [readKw, getKey_of_get h, view])]
  simp only [run, pyIter, Res.ok_bind]
  exact uniqueLoop_spec hc xs hs

/-- C21: `{uniqueItems: false}` accepts everything. -/
theorem C21_uniqueItems_false (ho : Only voc items .uniqueItems)
    (h : dictGet c!"uniqueItems" items = some (.bool false)) :
    validateN w docs voc (f + 2) (.obj items) v ctx = .ok () :=
  single_nop w docs voc f items v ctx .uniqueItems ho (by simp [readKw, getKey_of_get h, view])

example : Only [.uniqueItems] [(c!"uniqueItems", .bool true)] .uniqueItems ∧
    (∀ x ∈ [Val.int 1, .str c!"1", .null, .bool false], x.Scalar) ∧
    [Val.int 1, .str c!"1", .null, .bool false].Pairwise (fun a b => pyScalarEq a b = false) ∧
    ¬ [Val.int 1, .bool true].Pairwise (fun a b => pyScalarEq a b = false) := by
  refine ⟨⟨by simp, by decide⟩, by simp [Val.Scalar], by simp [pyScalarEq, exactVal], by simp [pyScalarEq, exactVal]⟩

end Verif.Props
