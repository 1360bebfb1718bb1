import Verif.Props.Scalar
import Verif.Props.Paths
import Verif.Proofs.Ends
import Verif.Props.Applicators
/-!
# Property C87: keyword values given by reference

`{"maximum": {"$ref": "#/limits/max"}}`: after loading, the value of the keyword is a `JsonReference`.  C66 is about subschemas by reference;
here the values are numbers, texts, booleans and arrays.
-/

namespace Verif.Props
open Verif

/-- The value of the keyword is a reference, and it leads to `x`. -/
def ByRef (docs : List Doc) (f : Nat) (items : List (Str × Node)) (k : Kw) (x : Node) : Prop :=
  ∃ n, dictGet k.key items = some n ∧ n.isRef = true ∧ view docs (f + 1) n = .ok x

/-- Raises something that is not a verdict on the value. -/
def Breaks (r : Res Unit) : Prop := ∃ e, r = .err e ∧ ∀ u, e ≠ .validation u

variable (w : World) (docs : List Doc) (voc : List Kw) (f : Nat) (items : List (Str × Node)) (v : Val) (ctx : Ctx)

theorem ref_kind {n : Node} (h : n.isRef = true) : ∃ o d p, n = .ref o d p := by
  cases n <;> simp [Node.isRef] at h
  exact ⟨_, _, _, rfl⟩

theorem single_breaks (k : Kw) (e : PyErr) (he : ∀ u, e ≠ .validation u) (ho : Only voc items k) (ha : k.isAssertion = true)
    (hp : dictHas k.key items = true) (hr : readKw w (view docs (f + 1)) (id : Node → Node) items k = .err e) :
    Breaks (validateN w docs voc (f + 2) (.obj items) v ctx) :=
  ⟨e, single_err w docs voc f items v ctx k e ho ha hp hr, he⟩

/-- Keywords that take an array of names or subschemas. -/
def listKeywords : List Kw := [.required, .allOf, .anyOf, .oneOf, .prefixItems, .items, .type]

/-- C87 fails for arrays: a keyword that takes an array raises an exception for every value, whatever the array, if it is given by reference. -/
theorem C87_lists_violated (k : Kw) (hk : k ∈ listKeywords) (ho : Only voc items k) (xs : List Node) (h : ByRef docs f items k (.arr xs)) :
    Breaks (validateN w docs voc (f + 2) (.obj items) v ctx) := by
  obtain ⟨n, hg, hr, hv⟩ := h
  obtain ⟨e, he, hne⟩ : ∃ e, seqOf n xs = .err e ∧ ∀ u, e ≠ .validation u := by
    rcases seqOf_cases n xs with ⟨-, h⟩ | ⟨-, h⟩
    · rw [hr] at h; cases h
    · exact h
  have ha : k.isAssertion = true := by
    simp only [listKeywords, List.mem_cons, List.not_mem_nil, or_false] at hk
    rcases hk with rfl | rfl | rfl | rfl | rfl | rfl | rfl <;> rfl
  refine single_breaks w docs voc f items v ctx k e hne ho ha (dictHas_of_get hg) ?_
  simp only [listKeywords, List.mem_cons, List.not_mem_nil, or_false] at hk
  rcases hk with rfl | rfl | rfl | rfl | rfl | rfl | rfl <;>
    simp only [Kw.key, Kw.keys, List.headD] at hg <;>
    simp only [readKw, subsKey, getKey_of_get hg, Res.ok_bind, hv, he, Res.err_bind]

/-- C87 fails for names of types: `type` given by reference to a text is refused, since the name taken is the printed reference. -/
theorem C87_type_violated (ho : Only voc items .type) (t : Str) (h : ByRef docs f items .type (.str t)) :
    validateN w docs voc (f + 2) (.obj items) v ctx = .err .schemaParse := by
  obtain ⟨n, hg, hr, hv⟩ := h
  obtain ⟨o, d, p, rfl⟩ := ref_kind hr
  simp only [Kw.key, Kw.keys, List.headD] at hg
  refine single_err w docs voc f items v ctx .type _ ho rfl (dictHas_of_get hg) ?_
  have hn : nodeStr w (.ref o d p) ∉ validTypes := by
    have hl : ∀ s ∈ validTypes, s.getLast? ≠ some ')' := by decide
    intro hm
    exact hl _ hm (by simp [nodeStr])
  simp [readKw, getKey_of_get hg, hv, hn]

/-- Keywords that take a whole number. -/
def countKeywords : List Kw := [.minLength, .maxLength, .minItems, .maxItems, .minProperties, .maxProperties]

/-- C87 fails for lengths and sizes: given by reference they raise `TypeError` for every value (`int` of a `JsonReference`). -/
theorem C87_counts_violated (k : Kw) (hk : k ∈ countKeywords) (ho : Only voc items k) (m : Num) (h : ByRef docs f items k (.num m)) :
    validateN w docs voc (f + 2) (.obj items) v ctx = .err .typeError := by
  obtain ⟨n, hg, hr, hv⟩ := h
  obtain ⟨o, d, p, rfl⟩ := ref_kind hr
  have ha : k.isAssertion = true := by
    simp only [countKeywords, List.mem_cons, List.not_mem_nil, or_false] at hk
    rcases hk with rfl | rfl | rfl | rfl | rfl | rfl <;> rfl
  refine single_err w docs voc f items v ctx k _ ho ha (dictHas_of_get hg) ?_
  simp only [countKeywords, List.mem_cons, List.not_mem_nil, or_false] at hk
  rcases hk with rfl | rfl | rfl | rfl | rfl | rfl <;>
    simp only [Kw.key, Kw.keys, List.headD] at hg <;>
    simp only [readKw, intKey, getKey_of_get hg, Res.ok_bind, hv, Res.err_bind]

/-- C87 fails for `multipleOf`: given by reference it gives no verdict, and `TypeError` for every number (`Decimal % JsonNumber`). -/
theorem C87_multipleOf_violated (ho : Only voc items .multipleOf) (m : Num) (h : ByRef docs f items .multipleOf (.num m)) :
    Breaks (validateN w docs voc (f + 2) (.obj items) v ctx) ∧
    ((∃ d, toDecimal w v = .ok d) → validateN w docs voc (f + 2) (.obj items) v ctx = .err .typeError) := by
  obtain ⟨n, hg, hr, hv⟩ := h
  simp only [Kw.key, Kw.keys, List.headD] at hg
  rw [single_set w docs voc f items v ctx .multipleOf (.held .multipleOf) ho rfl (dictHas_of_get hg)
    (by simp [readKw, numKey, getKey_of_get hg, hv, hr])]
  simp only [run, runHeld]
  constructor
  · cases hd : toDecimal w v with
    | ok d => exact ⟨_, rfl, by simp⟩
    | err e =>
      refine ⟨e, rfl, fun u hu => ?_⟩
      subst hu
      exact toDecimal_noVal w v u hd
    | timeout => exact absurd hd (toDecimal_fin w v)
  · rintro ⟨d, hd⟩
    rw [hd]; rfl

/-- The printed value of a finite Python number, booleans being 0 and 1. -/
def shownVal : Val → Option Rat
  | .bool b => some (if b then 1 else 0)
  | v => printedVal v

theorem shown_num {v : Val} {q : Rat} (h : shownVal v = some q) : (Operand.val v).num = .ok (.fin q) := by
  cases v with
  | bool b => simp only [shownVal, Option.some.injEq] at h; subst h; rfl
  | int i => simp only [shownVal, printedVal, Option.some.injEq] at h; subst h; rfl
  | dec d =>
    cases d <;> simp only [shownVal, printedVal, Option.some.injEq] at h
    · subst h; rfl
    · cases h
    · cases h
  | flt x =>
    cases x <;> simp only [shownVal, printedVal, Option.some.injEq] at h
    · subst h; rfl
    · cases h
    · cases h
  | _ => simp [shownVal, printedVal] at h

/-- `maximum` by reference with a finite bound `m`: a finite number is accepted exactly if its printed value is at most `m`.  Missing: the exact value
of a float, as it is where the bound stands in place (`C17_maximum_partial`, `C87_bound_violated`). -/
theorem C87_maximum_partial (hc : CtxOk ctx) (ho : Only voc items .maximum) (m q : Rat) (h : ByRef docs f items .maximum (.num (.fin m)))
    (hx : dictHas c!"exclusiveMaximum" items = false) (hv : shownVal v = some q) :
    validateN w docs voc (f + 2) (.obj items) v ctx = if q ≤ m then .ok () else rejected c!"maximum_error" ctx.path := by
  obtain ⟨n, hg, hr, hvw⟩ := h
  simp only [Kw.key, Kw.keys, List.headD] at hg
  have hx' : dictGet c!"exclusiveMaximum" items = none := by
    simpa [dictHas] using hx
  rw [single_set w docs voc f items v ctx .maximum (.held (.maximum (.fin m) false)) ho rfl (dictHas_of_get hg)
    (by simp [readKw, numKey, getKey_of_get hg, hvw, hr, hx', maxV])]
  simp only [run, runHeld, jnLt, shown_num hv, Res.ok_bind, Num.lt, Bool.false_eq_true, if_false,
    raise_ctx hc (c := .maximum) (by simp [ErrClass.all])]
  by_cases hq : q ≤ m
  · rw [if_pos hq]; simp [Rat.not_lt.2 hq]
  · rw [if_neg hq]; simp [Rat.not_le.1 hq]; rfl

/-- `exclusiveMaximum` by reference. -/
theorem C87_exclusiveMaximum_partial (hc : CtxOk ctx) (ho : Only voc items .exclusiveMaximum) (m q : Rat)
    (h : ByRef docs f items .exclusiveMaximum (.num (.fin m))) (hv : shownVal v = some q) :
    validateN w docs voc (f + 2) (.obj items) v ctx = if q < m then .ok () else rejected c!"maximum_error" ctx.path := by
  obtain ⟨n, hg, hr, hvw⟩ := h
  simp only [Kw.key, Kw.keys, List.headD] at hg
  rw [single_set w docs voc f items v ctx .exclusiveMaximum (.held (.maximum (.fin m) true)) ho rfl (dictHas_of_get hg)
    (by simp [readKw, getKey_of_get hg, hvw, hr, maxV])]
  simp only [run, runHeld, jnLe, shown_num hv, Res.ok_bind, Num.le, if_true,
    raise_ctx hc (c := .maximum) (by simp [ErrClass.all])]
  by_cases hq : q < m
  · rw [if_pos hq]; simp [Rat.not_le.2 hq]
  · rw [if_neg hq]; simp [Rat.not_lt.1 hq]; rfl

/-- `minimum` by reference. -/
theorem C87_minimum_partial (hc : CtxOk ctx) (ho : Only voc items .minimum) (m q : Rat) (h : ByRef docs f items .minimum (.num (.fin m)))
    (hx : dictHas c!"exclusiveMinimum" items = false) (hv : shownVal v = some q) :
    validateN w docs voc (f + 2) (.obj items) v ctx = if m ≤ q then .ok () else rejected c!"minimum_error" ctx.path := by
  obtain ⟨n, hg, hr, hvw⟩ := h
  simp only [Kw.key, Kw.keys, List.headD] at hg
  have hx' : dictGet c!"exclusiveMinimum" items = none := by
    simpa [dictHas] using hx
  rw [single_set w docs voc f items v ctx .minimum (.held (.minimum (.fin m) false)) ho rfl (dictHas_of_get hg)
    (by simp [readKw, numKey, getKey_of_get hg, hvw, hr, hx', minV])]
  simp only [run, runHeld, jnGt, shown_num hv, Res.ok_bind, Num.lt, Bool.false_eq_true, if_false,
    raise_ctx hc (c := .minimum) (by simp [ErrClass.all])]
  by_cases hq : m ≤ q
  · rw [if_pos hq]; simp [Rat.not_lt.2 hq]
  · rw [if_neg hq]; simp [Rat.not_le.1 hq]; rfl

/-- `exclusiveMinimum` by reference. -/
theorem C87_exclusiveMinimum_partial (hc : CtxOk ctx) (ho : Only voc items .exclusiveMinimum) (m q : Rat)
    (h : ByRef docs f items .exclusiveMinimum (.num (.fin m))) (hv : shownVal v = some q) :
    validateN w docs voc (f + 2) (.obj items) v ctx = if m < q then .ok () else rejected c!"minimum_error" ctx.path := by
  obtain ⟨n, hg, hr, hvw⟩ := h
  simp only [Kw.key, Kw.keys, List.headD] at hg
  rw [single_set w docs voc f items v ctx .exclusiveMinimum (.held (.minimum (.fin m) true)) ho rfl (dictHas_of_get hg)
    (by simp [readKw, getKey_of_get hg, hvw, hr, minV])]
  simp only [run, runHeld, jnGe, shown_num hv, Res.ok_bind, Num.le, if_true,
    raise_ctx hc (c := .minimum) (by simp [ErrClass.all])]
  by_cases hq : m < q
  · rw [if_pos hq]; simp [Rat.not_le.2 hq]
  · rw [if_neg hq]; simp [Rat.not_lt.1 hq]; rfl

/-- A value that is no number raises `TypeError` with a bound by reference. -/
theorem C87_bound_other (k : Kw) (hk : k ∈ [Kw.maximum, .minimum, .exclusiveMaximum, .exclusiveMinimum]) (ho : Only voc items k) (m : Num)
    (h : ByRef docs f items k (.num m)) (hx : dictHas c!"exclusiveMaximum" items = false ∨ k ≠ .maximum)
    (hn : dictHas c!"exclusiveMinimum" items = false ∨ k ≠ .minimum)
    (hv : v = .null ∨ (∃ s, v = .str s) ∨ (∃ xs, v = .list xs) ∨ ∃ kvs, v = .dict kvs) :
    validateN w docs voc (f + 2) (.obj items) v ctx = .err .typeError := by
  obtain ⟨n, hg, hr, hvw⟩ := h
  have ho' : (Operand.val v).num = .err .typeError := by
    rcases hv with rfl | ⟨_, rfl⟩ | ⟨_, rfl⟩ | ⟨_, rfl⟩ <;> rfl
  simp only [List.mem_cons, List.not_mem_nil, or_false] at hk
  rcases hk with rfl | rfl | rfl | rfl <;> simp only [Kw.key, Kw.keys, List.headD] at hg
  · have hx' : dictGet c!"exclusiveMaximum" items = none := by simpa [dictHas] using hx
    rw [single_set w docs voc f items v ctx .maximum (.held (.maximum m false)) ho rfl (dictHas_of_get hg)
      (by simp [readKw, numKey, getKey_of_get hg, hvw, hr, hx', maxV])]
    simp [run, runHeld, jnLt, ho']
  · have hx' : dictGet c!"exclusiveMinimum" items = none := by simpa [dictHas] using hn
    rw [single_set w docs voc f items v ctx .minimum (.held (.minimum m false)) ho rfl (dictHas_of_get hg)
      (by simp [readKw, numKey, getKey_of_get hg, hvw, hr, hx', minV])]
    simp [run, runHeld, jnGt, ho']
  · rw [single_set w docs voc f items v ctx .exclusiveMaximum (.held (.maximum m true)) ho rfl (dictHas_of_get hg)
      (by simp [readKw, getKey_of_get hg, hvw, hr, maxV])]
    simp [run, runHeld, jnLe, ho']
  · rw [single_set w docs voc f items v ctx .exclusiveMinimum (.held (.minimum m true)) ho rfl (dictHas_of_get hg)
      (by simp [readKw, getKey_of_get hg, hvw, hr, minV])]
    simp [run, runHeld, jnGe, ho']

theorem const_held (ho : Only voc items .const) (x : Node) (hs : x.Scalar) (h : ByRef docs f items .const x) :
    validateN w docs voc (f + 2) (.obj items) v ctx = runHeld w (.const x) v ctx := by
  obtain ⟨n, hg, hr, hvw⟩ := h
  simp only [Kw.key, Kw.keys, List.headD] at hg
  rw [single_set w docs voc f items v ctx .const (.held (.const x)) ho rfl (dictHas_of_get hg)
    (by cases x <;> simp_all [readKw, getKey_of_get hg, Node.Scalar])]
  rfl

/-- `const` by reference to null, a text or a finite number: a value that can be compared with it is accepted exactly if equal, floats by their
printed value.  Missing: booleans and values of another kind (`C87_const_violated`). -/
theorem C87_const_partial (hc : CtxOk ctx) (ho : Only voc items .const) :
    (ByRef docs f items .const .null → v.isBool = false →
      validateN w docs voc (f + 2) (.obj items) v ctx = if litEq .null v then .ok () else rejected c!"const_error" ctx.path) ∧
    (∀ s, ByRef docs f items .const (.str s) → v.isBool = false →
      validateN w docs voc (f + 2) (.obj items) v ctx = if litEq (.str s) v then .ok () else rejected c!"const_error" ctx.path) ∧
    ∀ m q, ByRef docs f items .const (.num (.fin m)) → printedVal v = some q →
      validateN w docs voc (f + 2) (.obj items) v ctx = if q = m then .ok () else rejected c!"const_error" ctx.path := by
  have he : raiseErr .constError ctx.path = .validation ⟨c!"const_error", ctx.path, []⟩ :=
    raise_ctx hc (c := .constError) (by simp [ErrClass.all]) []
  refine ⟨fun h hb => ?_, fun s h hb => ?_, fun m q h hq => ?_⟩
  · rw [const_held w docs voc f items v ctx ho _ (by trivial) h]
    simp only [runHeld, he]
    cases v <;> first | rfl | cases hb
  · rw [const_held w docs voc f items v ctx ho _ (by trivial) h]
    simp only [runHeld, he]
    cases v with
    | bool b => cases hb
    | str t => by_cases e : s = t <;> simp [nodeEqVal, litEq, Val.isBool, rejected, e]
    | _ => rfl
  · rw [const_held w docs voc f items v ctx ho _ (by trivial) h]
    have key : ∀ (b : Bool) (r : Rat), r = q → v.isBool = false → nodeEqVal (.num (.fin m)) v = .ok ((Num.fin m).eq (.fin r)) →
        runHeld w (.const (.num (.fin m))) v ctx = if q = m then .ok () else rejected c!"const_error" ctx.path := by
      intro b r hr hb hn
      subst hr
      simp only [runHeld, hb, he, hn, Num.eq, Bool.false_eq_true, if_false, Res.ok_bind]
      by_cases e : r = m
      · simp [e]
      · simp [e, Ne.symm e, rejected]
    cases v with
    | int i => simp only [printedVal, Option.some.injEq] at hq; exact key true _ hq rfl rfl
    | dec d =>
      cases d with
      | fin r => simp only [printedVal, Option.some.injEq] at hq; exact key true _ hq rfl rfl
      | _ => simp [printedVal] at hq
    | flt x =>
      cases x with
      | fin e s => simp only [printedVal, Option.some.injEq] at hq; exact key true _ hq rfl rfl
      | _ => simp [printedVal] at hq
    | _ => simp [printedVal] at hq

/-- C87 fails for `const`: by reference to a boolean `b` it never accepts; `b` itself is rejected and anything but a boolean raises `TypeError`.
With a number, anything but a number raises `TypeError`. -/
theorem C87_const_violated (hc : CtxOk ctx) (ho : Only voc items .const) :
    (∀ b c, ByRef docs f items .const (.bool b) → v = .bool c →
      validateN w docs voc (f + 2) (.obj items) v ctx = rejected c!"const_error" ctx.path) ∧
    (∀ b, ByRef docs f items .const (.bool b) → v.isBool = false → validateN w docs voc (f + 2) (.obj items) v ctx = .err .typeError) ∧
    ∀ m, ByRef docs f items .const (.num m) → (v = .null ∨ (∃ s, v = .str s) ∨ (∃ xs, v = .list xs) ∨ ∃ kvs, v = .dict kvs) →
      validateN w docs voc (f + 2) (.obj items) v ctx = .err .typeError := by
  have he : raiseErr .constError ctx.path = .validation ⟨c!"const_error", ctx.path, []⟩ :=
    raise_ctx hc (c := .constError) (by simp [ErrClass.all]) []
  refine ⟨fun b c h hb => ?_, fun b h hb => ?_, fun m h hv => ?_⟩
  · rw [const_held w docs voc f items v ctx ho _ (by trivial) h]
    subst hb
    simp only [runHeld, Val.isBool, if_true, he]; rfl
  · rw [const_held w docs voc f items v ctx ho _ (by trivial) h]
    cases v <;> simp_all [runHeld, Val.isBool, nodeEqVal]
  · rw [const_held w docs voc f items v ctx ho _ (by trivial) h]
    rcases hv with rfl | ⟨_, rfl⟩ | ⟨_, rfl⟩ | ⟨_, rfl⟩ <;> rfl

/-! ## Concrete schemas -/

/-- `{k: {"$ref": "#/x"}, "x": x}` -/
def givenRef (k : Kw) (x : Node) : List (Str × Node) := [(k.key, .ref [(c!"$ref", .str c!"#/x")] 0 [c!"x"]), (c!"x", x)]

/-- `{k: x, "x": x}` -/
def givenHere (k : Kw) (x : Node) : List (Str × Node) := [(k.key, x), (c!"x", x)]

theorem givenRef_leads (k : Kw) (hk : k.key ≠ c!"x") (x : Node) (hx : ∀ o d p, x ≠ .ref o d p) (ho : ∀ kvs, x ≠ .obj kvs) (f : Nat) :
    ByRef [⟨.obj (givenRef k x), []⟩] (f + 1) (givenRef k x) k x := by
  refine ⟨.ref [(c!"$ref", .str c!"#/x")] 0 [c!"x"], by simp [givenRef, dictGet], rfl, ?_⟩
  have hq : queryDoc (view [⟨.obj (givenRef k x), []⟩] (f + 1)) ⟨.obj (givenRef k x), []⟩ [c!"x"] = .ok x := by
    simp only [givenRef, queryDoc, queryLoop, view, queryStep, dictGet, Res.ok_bind, if_neg hk, if_true]
    rfl
  rw [view]
  simp only [List.getElem?_cons_zero, hq, Res.ok_bind]
  cases x <;> first | rfl | exact absurd rfl (hx _ _ _) | exact absurd rfl (ho _)

theorem given_only (k : Kw) (a b : Node) : Only [k] [(k.key, a), (c!"x", b)] k :=
  ⟨by simp, fun k' hk' _ _ => by simpa using hk'⟩

/-- C87 fails: `{"required": ["a"]}` accepts `{"a": null}`, `{"type": "null"}` accepts null, `{"minLength": 0}` and `{"const": "s"}`
accept `"s"`, `{"const": true}` accepts true; with the value of the keyword behind a reference all but `{"const": "s"}` do not. -/
theorem C87_violated (w : World) (f : Nat) :
    let ref k x v := validateN w [⟨.obj (givenRef k x), []⟩] [k] (f + 3) (.obj (givenRef k x)) v []
    let here k x v := validateN w [] [k] (f + 3) (.obj (givenHere k x)) v []
    (here .required (.arr [.str c!"a"]) (.dict [(c!"a", .null)]) = .ok () ∧ Breaks (ref .required (.arr [.str c!"a"]) (.dict [(c!"a", .null)]))) ∧
    (here .type (.str c!"null") .null = .ok () ∧ ref .type (.str c!"null") .null = .err .schemaParse) ∧
    (here .minLength (.num (.fin 0)) (.str c!"s") = .ok () ∧ ref .minLength (.num (.fin 0)) (.str c!"s") = .err .typeError) ∧
    (here .const (.bool true) (.bool true) = .ok () ∧ ref .const (.bool true) (.bool true) = rejected c!"const_error" []) ∧
    (here .const (.str c!"s") (.str c!"s") = .ok () ∧ ref .const (.str c!"s") (.str c!"s") = .ok ()) := by
  have hc : CtxOk [] := by intro k hk; simp at hk
  have on : ∀ k x, Only [k] (givenHere k x) k := fun k x => given_only k x x
  have or : ∀ k x, Only [k] (givenRef k x) k := fun k x => given_only k _ x
  refine ⟨⟨?_, ?_⟩, ⟨?_, ?_⟩, ⟨?_, ?_⟩, ⟨?_, ?_⟩, ?_, ?_⟩
  · exact (C26_required w [] [.required] (f + 1) (givenHere .required (.arr [.str c!"a"])) [] hc (on _ _) [c!"a"] rfl _).1
      (by simp)
  · exact C87_lists_violated w _ _ (f + 1) _ _ _ .required (by simp [listKeywords]) (or _ _) _
      (givenRef_leads .required (by decide) _ (by simp) (by simp) f)
  · exact (C14_type w [] [.type] (f + 1) (givenHere .type (.str c!"null")) .null [] hc (on _ _) [c!"null"] (.inl ⟨_, rfl, rfl⟩) (by decide)).trans
      (if_pos ⟨c!"null", by simp, by decide⟩)
  · exact C87_type_violated w _ _ (f + 1) _ _ _ (or _ _) _ (givenRef_leads .type (by decide) _ (by simp) (by simp) f)
  · exact (C19_minLength w [] [.minLength] (f + 1) (givenHere .minLength (.num (.fin 0))) [] hc (on _ _) 0 c!"s" rfl).trans
      (if_pos (by decide +kernel))
  · exact C87_counts_violated w _ _ (f + 1) _ _ _ .minLength (by simp [countKeywords]) (or _ _) _
      (givenRef_leads .minLength (by decide) _ (by simp) (by simp) f)
  · exact (C16_const w [] [.const] (f + 1) (givenHere .const (.bool true)) (.bool true) [] hc (on _ _) (.bool true) rfl trivial).trans rfl
  · exact (C87_const_violated w _ _ (f + 1) _ _ _ hc (or _ _)).1 true true
      (givenRef_leads .const (by decide) _ (by simp) (by simp) f) rfl
  · exact (C16_const w [] [.const] (f + 1) (givenHere .const (.str c!"s")) (.str c!"s") [] hc (on _ _) (.str c!"s") rfl trivial).trans rfl
  · exact ((C87_const_partial w _ _ (f + 1) _ _ _ hc (or _ _)).2.1 c!"s" (givenRef_leads .const (by decide) _ (by simp) (by simp) f) rfl).trans rfl

/-- C87 fails for bounds: with `maximum` 0.1 in place the float 0.1 is too big, since its exact value is above; by reference it is accepted. -/
theorem C87_bound_violated (w : World) (f : Nat) : let tenth : Val := .flt (.fin (3602879701896397 / 36028797018963968) (1 / 10))
    validateN w [] [.maximum] (f + 3) (.obj (givenHere .maximum (.num (.fin (1 / 10))))) tenth [] = rejected c!"maximum_error" [] ∧
    validateN w [⟨.obj (givenRef .maximum (.num (.fin (1 / 10)))), []⟩] [.maximum] (f + 3) (.obj (givenRef .maximum (.num (.fin (1 / 10))))) tenth [] = .ok () := by
  have hc : CtxOk [] := by intro k hk; simp at hk
  refine ⟨?_, ?_⟩
  · refine (C17_maximum_partial w [] [.maximum] (f + 1) _ _ _ hc (some (1 / 10)) none ?_ (3602879701896397 / 36028797018963968) rfl).2 ?_
    · exact ⟨by simp, by simp [givenHere, dictHas, dictGet, Kw.key, Kw.keys], by rintro k ⟨h, _, _⟩; simp at h; exact .inl h, rfl, rfl, by simp, by simp⟩
    · intro h
      have := h.1 _ rfl
      revert this
      simp
      decide +kernel
  · exact (C87_maximum_partial w _ _ (f + 1) (givenRef .maximum (.num (.fin (1 / 10))))
      (.flt (.fin (3602879701896397 / 36028797018963968) (1 / 10))) [] hc (given_only .maximum _ _) (1 / 10) (1 / 10)
      (givenRef_leads .maximum (by decide) _ (by simp) (by simp) f) (by rfl) rfl).trans (if_pos Rat.le_refl)

example (f : Nat) : ByRef [⟨.obj (givenRef .multipleOf (.num (.fin 2))), []⟩] (f + 1) (givenRef .multipleOf (.num (.fin 2))) .multipleOf (.num (.fin 2)) ∧
    Only [.multipleOf] (givenRef .multipleOf (.num (.fin 2))) .multipleOf :=
  ⟨givenRef_leads _ (by decide) _ (by simp) (by simp) f, given_only _ _ _⟩

end Verif.Props
