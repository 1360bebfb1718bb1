import Verif.Props.Applicators
import Verif.Props.Scalar
import Verif.Props.Resolver
/-!
# C17, C18, C22, C23, C50, C53: what is done where the properties fail

The theorems of these properties leave out some schemas and values, and witnesses show that the properties fail there.  Here the
outcome is determined for all of what was left out.
-/

namespace Verif.Props
open Verif

variable (w : World) (docs : List Doc) (voc : List Kw) (f : Nat) (items : List (Str × Node)) (v : Val) (ctx : Ctx)

/-! ## C17: `exclusiveMaximum: 1` next to `maximum` -/

/-- With `exclusiveMaximum: 1` next to `maximum` both bounds are strict: the only value judged wrongly is the maximum itself, if it is below 1. -/
theorem C17_maximum_one (hc : CtxOk ctx) (hv1 : .maximum ∈ voc) (hv2 : .exclusiveMaximum ∈ voc)
    (ho : ∀ k, Present voc items k → k = .maximum ∨ k = .exclusiveMaximum) (m : Rat) (hm : dictGet c!"maximum" items = some (.num (.fin m)))
    (he : dictGet c!"exclusiveMaximum" items = some (.num (.fin 1))) (q : Rat) (hv : exactVal v = some q) :
    validateN w docs voc (f + 2) (.obj items) v ctx = if q < m ∧ q < 1 then .ok () else rejected c!"maximum_error" ctx.path := by
  have hraise : raiseErr .maximum ctx.path = .validation ⟨c!"maximum_error", ctx.path, []⟩ :=
    raise_ctx hc (c := .maximum) (by simp [ErrClass.all]) []
  have hM : readKw w (view docs (f + 1)) (id : Node → Node) items .maximum = .ok (.set (.maximum (.fin m) true)) := by
    simp [readKw, numKey, getKey_of_get hm, he, view, eqTrue, Num.eq]
  have hE : readKw w (view docs (f + 1)) (id : Node → Node) items .exclusiveMaximum = .ok (.set (.maximum (.fin 1) true)) := by
    simp [readKw, getKey_of_get he, view]
  have hrun : ∀ m, run (validateN w docs voc (f + 1)) w (f + 1) (.maximum (.fin m) true) v ctx =
      if q < m then .ok () else .err (.validation ⟨c!"maximum_error", ctx.path, []⟩) := by
    intro m
    simp only [run, runMaximum, exactVal_num hv, hraise, Num.lt, Num.le]
    by_cases hq : q < m
    · simp [hq, Rat.not_le.2 hq]
    · simp [hq, Rat.not_lt.1 hq]
  have key := multi_set w docs voc f items v ctx (.validation ⟨c!"maximum_error", ctx.path, []⟩) (by
    intro k hk
    rcases ho k hk with rfl | rfl
    · exact .inr ⟨_, hM, by rw [hrun]; split <;> simp⟩
    · exact .inr ⟨_, hE, by rw [hrun]; split <;> simp⟩)
  have hiff : validateN w docs voc (f + 2) (.obj items) v ctx = .ok () ↔ q < m ∧ q < 1 := by
    rw [key.1]
    constructor
    · intro hall
      have h1 := hall .maximum _ ⟨hv1, rfl, dictHas_of_get hm⟩ hM
      have h2 := hall .exclusiveMaximum _ ⟨hv2, rfl, dictHas_of_get he⟩ hE
      rw [hrun] at h1 h2
      refine ⟨?_, ?_⟩
      · by_cases h : q < m
        · exact h
        · simp [h] at h1
      · by_cases h : q < 1
        · exact h
        · simp [h] at h2
    · rintro ⟨h1, h2⟩ k x hk hr
      rcases ho k hk with rfl | rfl
      · rw [hM] at hr; injection hr with hr; injection hr with hr
        rw [← hr, hrun, if_pos h1]
      · rw [hE] at hr; injection hr with hr; injection hr with hr
        rw [← hr, hrun, if_pos h2]
  split
  · next h => exact hiff.2 h
  · next h =>
    rcases key.2 with h1 | h1
    · exact absurd (hiff.1 h1) h
    · exact h1

/-- With `exclusiveMinimum: 1` next to `minimum` both bounds are strict: the only value judged wrongly is the minimum itself, if it is above 1. -/
theorem C17_minimum_one (hc : CtxOk ctx) (hv1 : .minimum ∈ voc) (hv2 : .exclusiveMinimum ∈ voc)
    (ho : ∀ k, Present voc items k → k = .minimum ∨ k = .exclusiveMinimum) (m : Rat) (hm : dictGet c!"minimum" items = some (.num (.fin m)))
    (he : dictGet c!"exclusiveMinimum" items = some (.num (.fin 1))) (q : Rat) (hv : exactVal v = some q) :
    validateN w docs voc (f + 2) (.obj items) v ctx = if m < q ∧ 1 < q then .ok () else rejected c!"minimum_error" ctx.path := by
  have hraise : raiseErr .minimum ctx.path = .validation ⟨c!"minimum_error", ctx.path, []⟩ :=
    raise_ctx hc (c := .minimum) (by simp [ErrClass.all]) []
  have hM : readKw w (view docs (f + 1)) (id : Node → Node) items .minimum = .ok (.set (.minimum (.fin m) true)) := by
    simp [readKw, numKey, getKey_of_get hm, he, view, eqTrue, Num.eq]
  have hE : readKw w (view docs (f + 1)) (id : Node → Node) items .exclusiveMinimum = .ok (.set (.minimum (.fin 1) true)) := by
    simp [readKw, getKey_of_get he, view]
  have hrun : ∀ m, run (validateN w docs voc (f + 1)) w (f + 1) (.minimum (.fin m) true) v ctx =
      if m < q then .ok () else .err (.validation ⟨c!"minimum_error", ctx.path, []⟩) := by
    intro m
    simp only [run, runMinimum, exactVal_num hv, hraise, Num.lt, Num.le]
    by_cases hq : m < q
    · simp [hq, Rat.not_le.2 hq]
    · simp [hq, Rat.not_lt.1 hq]
  have key := multi_set w docs voc f items v ctx (.validation ⟨c!"minimum_error", ctx.path, []⟩) (by
    intro k hk
    rcases ho k hk with rfl | rfl
    · exact .inr ⟨_, hM, by rw [hrun]; split <;> simp⟩
    · exact .inr ⟨_, hE, by rw [hrun]; split <;> simp⟩)
  have hiff : validateN w docs voc (f + 2) (.obj items) v ctx = .ok () ↔ m < q ∧ 1 < q := by
    rw [key.1]
    constructor
    · intro hall
      have h1 := hall .minimum _ ⟨hv1, rfl, dictHas_of_get hm⟩ hM
      have h2 := hall .exclusiveMinimum _ ⟨hv2, rfl, dictHas_of_get he⟩ hE
      rw [hrun] at h1 h2
      refine ⟨?_, ?_⟩
      · by_cases h : m < q
        · exact h
        · simp [h] at h1
      · by_cases h : 1 < q
        · exact h
        · simp [h] at h2
    · rintro ⟨h1, h2⟩ k x hk hr
      rcases ho k hk with rfl | rfl
      · rw [hM] at hr; injection hr with hr; injection hr with hr
        rw [← hr, hrun, if_pos h1]
      · rw [hE] at hr; injection hr with hr; injection hr with hr
        rw [← hr, hrun, if_pos h2]
  split
  · next h => exact hiff.2 h
  · next h =>
    rcases key.2 with h1 | h1
    · exact absurd (hiff.1 h1) h
    · exact h1

example : (∀ k, Present [.maximum, .exclusiveMaximum] [(c!"maximum", .num (.fin 0)), (c!"exclusiveMaximum", .num (.fin 1))] k →
    k = .maximum ∨ k = .exclusiveMaximum) ∧ exactVal (.int 0) = some 0 :=
  ⟨by rintro k ⟨h, _⟩; simpa using h, rfl⟩

/-! ## C18: 0, and quotients of 29 digits and more -/

/-- `multipleOf: 0`, and numbers whose quotient has more than 28 digits before the point: `decimal.InvalidOperation`, for multiples and others. -/
theorem C18_large (ho : Only voc items .multipleOf) (m q : Rat) (h : dictGet c!"multipleOf" items = some (.num (.fin m)))
    (hv : printedVal v = some q) (hl : m = 0 ∨ 10 ^ 28 ≤ q / m ∨ q / m ≤ -10 ^ 28) :
    validateN w docs voc (f + 2) (.obj items) v ctx = .err .invalidOperation := by
  rw [single_set w docs voc f items v ctx .multipleOf (.multipleOf (.fin m)) ho rfl (dictHas_of_get h)
    (by simp [readKw, numKey, getKey_of_get h, view])]
  simp only [run, runMultipleOf, printedVal_dec hv, Res.ok_bind, Num.rem]
  by_cases hm : m = 0
  · simp [hm]
  · have hb : (truncate (q / m)).natAbs ≥ 10 ^ 28 := by
      unfold truncate
      generalize q / m = x at hl
      have e : ((10 ^ 28 : Nat) : Int) = 10 ^ 28 := by decide
      rcases hl with hl | hl | hl
      · exact absurd hl hm
      · have h0 : 0 ≤ x := Rat.le_trans (by decide +kernel) hl
        rw [if_pos h0]
        have : (10 ^ 28 : Int) ≤ x.floor := by
          rw [Rat.le_floor_iff, show (((10 ^ 28 : Int)) : Rat) = 10 ^ 28 by decide +kernel]; exact hl
        omega
      · have h0 : ¬ 0 ≤ x := by
          intro h
          exact absurd (Rat.le_trans h hl) (by decide +kernel)
        rw [if_neg h0]
        have : x.ceil ≤ (-10 ^ 28 : Int) := by
          rw [Rat.ceil_le_iff, show (((-10 ^ 28 : Int)) : Rat) = -10 ^ 28 by decide +kernel]; exact hl
        omega
    rw [← trunc_eq] at hb
    simp only [if_neg hm, if_pos hb]
    rfl

example : printedVal (.int (10 ^ 28)) = some (10 ^ 28 : Rat) ∧ (10 ^ 28 : Rat) ≤ 10 ^ 28 / 1 ∧ (10 ^ 28 : Rat) = 1 * ((10 ^ 28 : Int) : Rat) :=
  ⟨by decide +kernel, by decide +kernel, by decide +kernel⟩

/-! ## C22: `maxContains: 0` -/

/-- With a `maxContains` between -1 and 1 only `minContains` is looked at. -/
theorem C22_zero (hc : CtxOk ctx) (ho : Only voc items .contains) (s : Node)
    (h : dictGet c!"contains" items = some s) (hobj : ∃ kvs, view docs (f + 1) s = .ok (.obj kvs))
    (mn : Option Rat) (mx : Rat) (hmn : dictGet c!"minContains" items = mn.map fun q => .num (.fin q))
    (hmx : dictGet c!"maxContains" items = some (.num (.fin mx))) (h0 : truncate mx = 0)
    (xs : List Val) (hd : ∀ x ∈ xs, Decides (validateN w docs voc (f + 1) s x [])) :
    validateN w docs voc (f + 2) (.obj items) (.list xs) ctx =
      if truncate (mn.getD 1) ≤ countOk (xs.map fun x => validateN w docs voc (f + 1) s x [])
      then .ok () else rejected c!"contains_error" ctx.path := by
  obtain ⟨kvs, hk⟩ := hobj
  have t1 : truncate 1 = 1 := by decide +kernel
  have hr : readKw w (view docs (f + 1)) (id : Node → Node) items .contains =
      .ok (.set (.contains s (truncate (mn.getD 1)) (some 0))) := by
    cases mn with
    | none =>
      simp only [Option.map] at hmn
      simp [readKw, subKey, getKey_of_get h, hk, dictHas, hmn, hmx, t1, intValueKey, getKey_of_get hmx, toInt_eq, h0]
    | some n =>
      simp only [Option.map] at hmn
      simp [readKw, subKey, getKey_of_get h, hk, dictHas, hmn, hmx, intValueKey, getKey_of_get hmn,
        getKey_of_get hmx, toInt_eq, h0]
  rw [single_set w docs voc f items _ ctx .contains _ ho rfl (dictHas_of_get h) hr]
  simp only [run, runContains, pyIter, Res.ok_bind, containsLoop_spec _ s xs 0 hd, Nat.zero_add]
  generalize countOk (xs.map fun x => validateN w docs voc (f + 1) s x []) = n
  rw [raise_ctx hc (c := .minContains) (by simp [ErrClass.all]), raise_ctx hc (c := .maxContains) (by simp [ErrClass.all])]
  by_cases h1 : truncate (mn.getD 1) ≤ n
  · rw [if_neg (by omega)]; simp [h1]
  · rw [if_pos (by omega), if_neg h1]; rfl

/-! ## C23: short lists, and both keywords -/

theorem spin_accepts (f : Nat) : spin f (.ok ()) = .timeout := by
  induction f with
  | zero => rfl
  | succ n ih => simpa [spin] using ih

/-- The loop over a list shorter than the schemas: after the elements the next schema is asked about null, for ever if it accepts. -/
theorem arrayLoop_short {α : Type} (rec : α → Val → Ctx → Res Unit) (f : Nat) (its : Option α) (ctx : Ctx) (ps : List α) (xs : List Val) (i : Nat)
    (p : α) (hp : ps[xs.length]? = some p) :
    arrayLoop rec (f + 1) its ctx i ps xs =
      firstFail (((ps.zip (xs.zipIdx i)).map fun p => rec p.1 p.2.1 (ctx ++ [natStr p.2.2])) ++
        [match rec p .null (ctx ++ [natStr (i + xs.length)]) with
          | .ok _ => .timeout
          | r => r]) := by
  induction xs generalizing ps i with
  | nil =>
    cases ps with
    | nil => simp at hp
    | cons q ps =>
      obtain rfl : q = p := by simpa using hp
      simp only [arrayLoop, List.length_nil, Nat.add_zero, List.zipIdx_nil, List.zip_nil_right, List.map_nil, List.nil_append]
      cases h : rec q .null (ctx ++ [natStr i]) with
      | ok u => simpa [firstFail] using spin_accepts (f + 1)
      | err e => rfl
      | timeout => rfl
  | cons x xs ih =>
    cases ps with
    | nil => simp at hp
    | cons q ps =>
      have hp' : ps[xs.length]? = some p := by simpa using hp
      have e : i + (x :: xs).length = i + 1 + xs.length := by simp; omega
      simp only [arrayLoop, List.zipIdx_cons, List.zip_cons_cons, List.map_cons, List.cons_append, firstFail, e]
      rw [ih ps (i + 1) hp']
      cases h : rec q x (ctx ++ [natStr i]) with
      | ok u => rfl
      | err e => rfl
      | timeout => rfl

/-- `{prefixItems: [S0, S1, ...]}` on a shorter list: first the elements there are; then the next schema is asked about null, at the index
after the last.  If it rejects null, so does the schema; if it accepts, validation never ends. -/
theorem C23_short (ho : Only voc items .prefixItems) (ps : List Node)
    (h : dictGet c!"prefixItems" items = some (.arr ps)) (xs : List Val) (p : Node) (hp : ps[xs.length]? = some p) :
    validateN w docs voc (f + 2) (.obj items) (.list xs) ctx =
      firstFail (((ps.zip xs.zipIdx).map fun p => validateN w docs voc (f + 1) p.1 p.2.1 (ctx ++ [natStr p.2.2])) ++
        [match validateN w docs voc (f + 1) p .null (ctx ++ [natStr xs.length]) with
          | .ok _ => .timeout
          | r => r]) := by
  rw [single_upd w docs voc f items _ ctx .prefixItems (.pre ps) [(c!"prefixItems", .array (some ps) none)] ho rfl
    (dictHas_of_get h) (by simp [readKw, subsKey, getKey_of_get h])
    (by simp [Upd.apply, dictSet, dictHas, dictGet]) (by simp [Upd.apply, dictSet, dictHas, dictGet])]
  simp only [runAll, run, Res.bind_unit, runArray, Option.getD_some, arrayLoop_short _ _ _ _ _ _ _ p hp, Nat.zero_add]

/-- So no list shorter than the schemas is ever accepted. -/
theorem C23_short_never (ho : Only voc items .prefixItems) (ps : List Node)
    (h : dictGet c!"prefixItems" items = some (.arr ps)) (xs : List Val) (hl : xs.length < ps.length) :
    validateN w docs voc f (.obj items) (.list xs) ctx ≠ .ok () := by
  match f with
  | 0 => simp [validateN]
  | 1 => simp [validateN, view]
  | f + 2 =>
    rw [C23_short w docs voc f items ctx ho ps h xs _ (List.getElem?_eq_getElem hl)]
    intro e
    rw [firstFail_ok] at e
    have := e _ (by simp; exact .inr rfl)
    revert this
    split
    · simp
    · next h => intro h'; exact h _ h'

example : Only [.prefixItems] [(c!"prefixItems", .arr [.bool true, .obj []])] .prefixItems ∧ [Node.bool true, .obj []][[Val.null].length]? = some (.obj []) :=
  ⟨⟨by simp, by decide⟩, rfl⟩

/-- The draft-4 form `{items: [S0, ...], additionalItems: A}` on a shorter list: the same. -/
theorem C23_tuple_short (ho : Only voc items .items) (ps : List Node)
    (h : dictGet c!"items" items = some (.arr ps)) (ad : Option Node) (ha : dictGet c!"additionalItems" items = ad)
    (has : ∀ s, ad = some s → IsSchema docs (f + 1) s) (xs : List Val) (p : Node) (hp : ps[xs.length]? = some p) :
    validateN w docs voc (f + 3) (.obj items) (.list xs) ctx =
      firstFail (((ps.zip xs.zipIdx).map fun p => validateN w docs voc (f + 2) p.1 p.2.1 (ctx ++ [natStr p.2.2])) ++
        [match validateN w docs voc (f + 2) p .null (ctx ++ [natStr xs.length]) with
          | .ok _ => .timeout
          | r => r]) := by
  have hr : ∃ its, readKw w (view docs (f + 2)) (id : Node → Node) items .items = .ok (.itemsArr ps its) := by
    cases ad with
    | none => exact ⟨none, by simp [readKw, getKey_of_get h, ha]⟩
    | some s =>
      rcases has s rfl with ⟨kvs, hk⟩ | ⟨b, rfl⟩
      · exact ⟨some s, by simp [readKw, getKey_of_get h, ha, hk]⟩
      · cases b
        · exact ⟨some (.bool false), by simp [readKw, getKey_of_get h, ha]⟩
        · exact ⟨none, by simp [readKw, getKey_of_get h, ha]⟩
  obtain ⟨its, hr⟩ := hr
  rw [single_upd w docs voc (f + 1) items _ ctx .items _ [(c!"items", .array (some ps) its)] ho rfl
    (dictHas_of_get h) hr (by simp [Upd.apply, arrayOf, dictGet, dictSet])
    (by simp [Upd.apply, arrayOf, dictGet, dictSet])]
  simp only [runAll, run, Res.bind_unit, runArray, Option.getD_some, arrayLoop_short _ _ _ _ _ _ _ p hp, Nat.zero_add]

/-- No keyword of `ks` is used. -/
def Unused (items : List (Str × Node)) (ks : List Kw) : Prop := ∀ k ∈ ks, k.isAssertion = true → dictHas k.key items = false

theorem loadAll_unused {ks : List Kw} (h : Unused items ks) (rest : List Kw) (vw : Node → Res Node) (d : Data Node) :
    loadAll w vw (id : Node → Node) items (ks ++ rest) d = loadAll w vw id items rest d := by
  induction ks with
  | nil => rfl
  | cons k ks ih =>
    rw [List.cons_append, loadAll, if_neg]
    · exact ih fun k hk => h k (by simp [hk])
    · intro hc
      simp only [Bool.and_eq_true] at hc
      rw [h k (by simp) hc.1] at hc
      simp at hc

/-- `items` before `prefixItems` in the vocabulary: with both in a schema every validation raises KeyError. -/
theorem C23_both_order {a b c : List Kw} (ha : Unused items a) (hb : Unused items b) (ps : List Node) (s : Node)
    (hp : dictGet c!"prefixItems" items = some (.arr ps)) (hi : dictGet c!"items" items = some s) (hs : IsSchema docs f s) :
    validateN w docs (a ++ .items :: (b ++ .prefixItems :: c)) (f + 2) (.obj items) v ctx = .err .keyError := by
  rw [validateN_obj, loadAll_unused w items ha, loadAll, if_pos (by simp [Kw.isAssertion, Kw.key, Kw.keys, dictHas_of_get hi]), applyKw_eq]
  have hr : ∃ its, readKw w (view docs (f + 1)) (id : Node → Node) items .items = .ok (.itemsOne its) := by
    rcases hs with ⟨kvs, hk⟩ | ⟨b, rfl⟩
    · exact ⟨some s, by simp [readKw, getKey_of_get hi, hk]⟩
    · exact ⟨_, by simp [readKw, getKey_of_get hi]; rfl⟩
  obtain ⟨its, hr⟩ := hr
  simp only [hr, Res.ok_bind, Upd.apply, loadAll_unused w items hb]
  rw [loadAll, if_pos (by simp [Kw.isAssertion, Kw.key, Kw.keys, dictHas_of_get hp]), applyKw_eq]
  simp [readKw, subsKey, getKey_of_get hp, Upd.apply, dictSet, dictHas, dictGet]

/-- `prefixItems` before `items`: `items` is applied from the first element on, after the prefix. -/
theorem C23_both {a b c : List Kw} (ha : Unused items a) (hb : Unused items b) (hc : Unused items c) (ps : List Node) (s : Node)
    (hp : dictGet c!"prefixItems" items = some (.arr ps)) (hi : dictGet c!"items" items = some s) (kvs : List (Str × Node))
    (hs : view docs (f + 1) s = .ok (.obj kvs)) (xs : List Val) (hl : ps.length ≤ xs.length) :
    let voc := a ++ .prefixItems :: (b ++ .items :: c)
    validateN w docs voc (f + 2) (.obj items) (.list xs) ctx =
      firstFail (((ps.zip xs.zipIdx).map fun p => validateN w docs voc (f + 1) p.1 p.2.1 (ctx ++ [natStr p.2.2])) ++
        xs.zipIdx.map fun p => validateN w docs voc (f + 1) s p.1 (ctx ++ [natStr p.2])) := by
  intro voc
  have hl' : loadAll w (view docs (f + 1)) (id : Node → Node) items voc [] =
      ([(c!"prefixItems", .array (some ps) none), (c!"items", .array none (some s))], .ok ()) := by
    rw [show voc = a ++ .prefixItems :: (b ++ .items :: c) from rfl, loadAll_unused w items ha, loadAll,
      if_pos (by simp [Kw.isAssertion, Kw.key, Kw.keys, dictHas_of_get hp]), applyKw_eq]
    have h1 : readKw w (view docs (f + 1)) (id : Node → Node) items .prefixItems = .ok (.pre ps) := by
      simp [readKw, subsKey, getKey_of_get hp]
    have h2 : readKw w (view docs (f + 1)) (id : Node → Node) items .items = .ok (.itemsOne (some s)) := by
      simp [readKw, getKey_of_get hi, hs]
    simp only [h1, Res.ok_bind, Upd.apply, dictHas, dictGet, dictSet, Option.isSome_none, Bool.false_eq_true, if_false, loadAll_unused w items hb]
    rw [loadAll, if_pos (by simp [Kw.isAssertion, Kw.key, Kw.keys, dictHas_of_get hi]), applyKw_eq]
    simp only [h2, Res.ok_bind]
    have := loadAll_unused w items hc [] (view docs (f + 1)) [(c!"prefixItems", .array (some ps) none), (c!"items", .array none (some s))]
    rw [List.append_nil] at this
    simp [Upd.apply, arrayOf, dictGet, dictSet, this, loadAll]
  rw [validateN_obj, hl']
  simp [runAll, run, Res.bind_unit, runArray, arrayLoop_eq _ _ _ _ _ _ _ hl, arrayLoop, itemsLoop_eq, firstFail_append]

example : Unused [(c!"prefixItems", .arr [.bool true]), (c!"items", .obj [])] [.type, .required] ∧ view [] 1 (.obj []) = .ok (.obj []) :=
  ⟨by intro k hk; simp at hk; rcases hk with rfl | rfl <;> decide, rfl⟩

/-! ## C53: answers that stay -/

open Resolver in
/-- The URI asked for, if it is such a call. -/
def asks : Op → Option Uri
  | .resolve u => some u
  | _ => none

open Resolver in
/-- The cache has `p` for `u`, behind at most `n` others. -/
def Holds (u : Uri) (p : Str) (n : Nat) (st : State) : Prop :=
  ∃ a b, st.cache = a ++ (u, p) :: b ∧ (∀ q ∈ a, q.1 ≠ u) ∧ a.length ≤ n

open Resolver in
theorem Holds.find {u : Uri} {p : Str} {n : Nat} {st : State} (h : Holds u p n st) : (st.cache.find? fun q => Uri.eq q.1 u) = some (u, p) := by
  obtain ⟨a, b, e, ha, _⟩ := h
  rw [e, List.find?_append]
  have : (a.find? fun q => Uri.eq q.1 u) = none := by
    rw [List.find?_eq_none]
    intro q hq h
    exact ha q hq (eq_iff.1 (by simpa using h))
  rw [this]
  have : Uri.eq u u = true := by simpa using eq_iff.2 (rfl : u = u)
  simp [this]

open Resolver in
theorem Holds.step {u : Uri} {p : Str} {n : Nat} {st : State} (h : Holds u p n st) (op : Op) (ho : ∀ k, op ≠ .others k)
    (hn : n + (asks op).toList.length ≤ 127) : Holds u p (n + (asks op).toList.length) (step st op).2 := by
  cases op with
  | others k => exact absurd rfl (ho k)
  | register s r => exact h
  | resolve v =>
    simp only [asks, Option.toList, List.length_cons, List.length_nil] at hn ⊢
    simp only [Resolver.step, Resolver.resolve]
    by_cases hv : v = u
    · subst hv
      rw [h.find]
      exact ⟨[], _, rfl, by simp, by simp⟩
    · obtain ⟨a, b, e, ha, hl⟩ := h
      split
      · rename_i q hq
        have h2 : q.1 = v := eq_iff.1 (by simpa using List.find?_some hq)
        refine ⟨q :: a.filter (fun q => !Uri.eq q.1 v), b.filter (fun q => !Uri.eq q.1 v), ?_, ?_, ?_⟩
        · simp only [e]
          have hne : Uri.eq u v = false := by
            cases hh : Uri.eq u v with
            | false => rfl
            | true => exact absurd (eq_iff.1 (by simpa using hh)).symm hv
          simp [hne]
        · intro x hx
          rcases List.mem_cons.1 hx with rfl | hx
          · rw [h2]; exact hv
          · exact ha x (List.mem_filter.1 hx).1
        · have := List.length_filter_le (fun q => !Uri.eq q.1 v) a
          simp only [List.length_cons]; omega
      · split
        · rename_i r hr
          refine ⟨(v, r) :: a, b.take (128 - (a.length + 2)), ?_, ?_, by simp; omega⟩
          · simp only [e]
            rw [show (v, r) :: (a ++ (u, p) :: b) = ((v, r) :: a ++ [(u, p)]) ++ b by simp, List.take_append]
            rw [List.take_of_length_le (by simp; omega)]
            simp
          · intro x hx
            rcases List.mem_cons.1 hx with rfl | hx
            · exact hv
            · exact ha x hx
        · exact ⟨a, b, e, ha, by omega⟩

open Resolver in
/-- C53 fails for every URI once it was answered: whatever is registered, the answer stays, at least until the 128th further question. -/
theorem C53_stale (later before : List Op) (u : Uri) {p : Str} (hp : (resolve u (exec before)).1 = .ok p) (ho : ∀ op ∈ later, ∀ k, op ≠ .others k)
    (hn : (later.filterMap asks).length ≤ 127) : (resolve u (exec (later ++ .resolve u :: before))).1 = .ok p := by
  suffices H : Holds u p (later.filterMap asks).length (exec (later ++ .resolve u :: before)) by
    rw [Resolver.resolve, H.find]
  induction later with
  | nil =>
    simp only [List.nil_append, exec, step]
    rw [Resolver.resolve] at hp ⊢
    split at hp
    · rename_i q hq
      have h2 : q.1 = u := eq_iff.1 (by simpa using List.find?_some hq)
      obtain ⟨q1, q2⟩ := q
      simp only at h2 hp
      injection hp with hp
      subst h2 hp
      exact ⟨[], _, rfl, by simp, by simp⟩
    · rename_i hq
      split at hp
      · rename_i r hr
        injection hp with hp
        subst hp
        simp only
        exact ⟨[], _, rfl, by simp, by simp⟩
      · rename_i hr
        exact absurd hp (hr _)
  | cons op later ih =>
    have e : (List.filterMap asks (op :: later)).length = (later.filterMap asks).length + (asks op).toList.length := by
      cases h : asks op <;> simp [h]
    rw [e] at hn ⊢
    have ih := ih (fun o h => ho o (by simp [h])) (by omega)
    exact ih.step op (ho op (by simp)) hn

/-- Two resolvers that answer differently. -/
example : (Resolver.resolve ⟨c!"x", ⟨[], c!"a", []⟩, c!"/s", [], []⟩ (Resolver.exec [.register c!"x" fun _ => .ok c!"/old"])).1 = .ok c!"/old" ∧
    expected [.register c!"x" (fun _ => .ok c!"/new"), .resolve ⟨c!"x", ⟨[], c!"a", []⟩, c!"/s", [], []⟩, .register c!"x" fun _ => .ok c!"/old"]
      ⟨c!"x", ⟨[], c!"a", []⟩, c!"/s", [], []⟩ = .ok c!"/new" := ⟨rfl, rfl⟩

/-! ## C50: bases without a slash in the path -/

open Rfc3986 UriSpec Uri Verif.Pointer in
/-- C50 fails for every relative path and every base whose path has no slash: the last character of the base's path is cut off, and a
slash and the relative path are put behind it. -/
theorem C50_relative_cut (ip : IpRe) {s p : Str} {q f : Option Str} {base : Uri} (hp : Parts s none none p q f) (hne : p ≠ [])
    (hs : p.head? ≠ some '/') (hb : '/' ∉ base.path) :
    resolveText ip base s
      = .ok { base with path := normalFor base (base.path.dropLast ++ '/' :: p), query := pctUpper (q.getD []), fragment := pctUpper (f.getD []) } := by
  obtain ⟨h1, h2⟩ := reference ip hp
  have hu : upToLastSlash base.path = base.path.dropLast := by simp [upToLastSlash, hb]
  simp only [resolveText, h1, Res.ok_bind, Uri.resolve, h2, Bool.false_eq_true, if_false, if_neg hne, if_neg hs, copyWith, Uri.authorityOr,
    Option.map_some, Option.getD_some, pctUpper_idem, normalFor, hu]
  by_cases hs : base.scheme = [] <;> simp [hs]

/-! ## C50: absolute URIs with a path RFC 3986 does not allow -/

open Rfc3986 UriSpec Uri Re in
theorem abempty_only {s t : Str} (h : Lang abemptyRe s t) : ∃ xs : List Str, (∀ x ∈ xs, Enc SegChar x) ∧ s = (xs.map ('/' :: ·)).flatten ++ t := by
  generalize hr : abemptyRe = r at h
  induction h with
  | starNil => exact ⟨[], by simp, rfl⟩
  | starCons h1 _ _ _ ih =>
    have hr' := hr
    simp only [abemptyRe] at hr'
    cases hr'
    obtain ⟨xs, h2, rfl⟩ := ih hr
    rw [lang_seq] at h1
    obtain ⟨v, h3, h4⟩ := h1
    rw [lang_chr] at h3
    obtain ⟨T, rfl, hT⟩ := (lang_encs lang_pchar).1 h4
    exact ⟨T :: xs, by simpa using ⟨hT, h2⟩, by rw [h3]; simp⟩
  | _ => simp [abemptyRe] at hr

open Rfc3986 UriSpec Uri Re in
theorem enc_noSlash {x : Str} (h : Enc SegChar x) : '/' ∉ x := by
  intro hm
  have := authC_iff.1 (enc_auth h '/' hm)
  exact this (by decide)

open Rfc3986 UriSpec Uri Re Verif.Pointer in
/-- A text `scheme://…/…` that is taken for absolute has a legal path, up to a newline at the end. -/
theorem absolute_only {x a p : Str} (hx : SchemeText x) (ha : ∀ c ∈ a, c ∉ c!"\\/?#") (hp : p.head? = some '/') (hq : '?' ∉ p)
    (h : (pyMatch absoluteMatcher (x ++ c!"://" ++ (a ++ p))).isSome = true) : LegalPath p ∨ ∃ p', p = p' ++ ['\n'] ∧ LegalPath p' := by
  have colon : ∀ {y : Str}, SchemeText y → ':' ∉ y := by
    intro y hy hm
    have := scheme_chars hy ':' hm
    revert this; decide
  rw [run_ne_nil_iff plain_absolute] at h
  obtain ⟨t, h⟩ := h
  simp only [absoluteMatcher, seqs, lang_seq] at h
  obtain ⟨s1, h1, s2, h2, s3, h3, s4, h4, h5⟩ := h
  obtain ⟨x', e, hx'⟩ := lang_scheme.1 h1
  rw [lang_chr] at h2
  subst h2
  have e2 : s2 = c!"//" ++ (a ++ p) := by
    have k1 := strSplit_append (colon hx) (b := c!"//" ++ (a ++ p))
    have k2 := strSplit_append (colon hx') (b := s2)
    have e' : x ++ ':' :: (c!"//" ++ (a ++ p)) = x' ++ ':' :: s2 := by simpa using e
    rw [e', k2] at k1
    have : x' = x := (List.cons.inj k1).1
    subst this
    simpa using (List.append_cancel_left e').symm
  subst e2
  have noPlus : ∀ {r u : Str}, ¬ Lang rootlessRe ('/' :: r) u := by
    intro r u hl
    simp only [rootlessRe, lang_seq] at hl
    obtain ⟨v, hv, _⟩ := hl
    obtain ⟨T, eT, hT, hE⟩ := (lang_encs1 lang_pchar).1 hv
    cases T with
    | nil => exact hT rfl
    | cons c T =>
      simp only [List.cons_append, List.cons.injEq] at eT
      exact enc_noSlash hE (by simp [← eT.1])
  have hend : ∀ {r : Str}, s3 = '/' :: r → False := by
    rintro r rfl
    rcases lang_opt.1 h4 with h4 | h4
    · simp at h4
    · subst h4
      have := (lang_eol.1 h5).2
      simp at this
  simp only [hierPartRe, alts, seqs, lang_alt, lang_seq] at h3
  rcases h3 with ⟨s5, h6, s6, h7, h8⟩ | ⟨s5, h6, h7⟩ | h7 | h7
  · rw [lang_lit] at h6
    have h6 : s5 = a ++ p := (List.append_cancel_left h6).symm
    subst h6
    obtain ⟨A, eA, hA⟩ := lang_star_cls.1 h7
    obtain ⟨xs, hxs, rfl⟩ := abempty_only h8
    have hA' : '/' ∉ A := fun hm => authC_iff.1 (hA _ hm) (by decide)
    have ha' : '/' ∉ a := fun hm => ha _ hm (by decide)
    have hqa : '?' ∉ a := fun hm => ha _ hm (by decide)
    have h9 : s3 = [] ∨ s3 = ['\n'] := by
      rcases lang_opt.1 h4 with h4 | h4
      · rw [lang_seq] at h4
        obtain ⟨v, h4, _⟩ := h4
        rw [lang_chr] at h4
        have : '?' ∈ a ++ p := by rw [eA, h4]; simp
        rcases List.mem_append.1 this with h | h
        · exact absurd h hqa
        · exact absurd h hq
      · subst h4; exact (lang_eol.1 h5).2
    obtain ⟨p0, rfl⟩ : ∃ p0, p = '/' :: p0 := by
      cases p with
      | nil => simp at hp
      | cons c p0 => simp at hp; exact ⟨p0, by rw [hp]⟩
    cases xs with
    | nil =>
      have : '/' ∈ A ++ s3 := by
        have : '/' ∈ a ++ '/' :: p0 := by simp
        rw [eA] at this; simpa using this
      rcases List.mem_append.1 this with h | h
      · exact absurd h hA'
      · rcases h9 with rfl | rfl <;> simp at h
    | cons y ys =>
      have eA' : a ++ '/' :: p0 = A ++ '/' :: (y ++ ((ys.map ('/' :: ·)).flatten ++ s3)) := by simpa using eA
      have k1 := strSplit_append ha' (b := p0)
      have k2 := strSplit_append hA' (b := y ++ ((ys.map ('/' :: ·)).flatten ++ s3))
      rw [eA', k2] at k1
      have : A = a := (List.cons.inj k1).1
      subst this
      have ep : '/' :: p0 = (((y :: ys).map ('/' :: ·)).flatten) ++ s3 := by simpa using List.append_cancel_left eA'
      have legal : LegalPath (((y :: ys).map ('/' :: ·)).flatten) := by
        have ej : ((y :: ys).map ('/' :: ·)).flatten = strJoin c!"/" ([] :: y :: ys) := by rw [join_slash]; rfl
        rw [ej]
        intro z hz
        rw [strSplit_join (by simp) (by
          intro w hw
          rcases List.mem_cons.1 hw with rfl | hw
          · simp
          · exact enc_noSlash (hxs w hw))] at hz
        rcases List.mem_cons.1 hz with rfl | hz
        · exact .nil
        · exact hxs z hz
      rcases h9 with rfl | rfl
      · left; rw [ep, List.append_nil]; exact legal
      · right; exact ⟨_, ep, legal⟩
  · rw [lang_chr] at h6
    have h6 : s5 = '/' :: (a ++ p) := by simpa using h6.symm
    subst h6
    rcases lang_opt.1 h7 with h7 | h7
    · exact absurd h7 noPlus
    · exact (hend h7).elim
  · exact absurd h7 noPlus
  · simp at h7

open Rfc3986 UriSpec Uri in
/-- C50 fails for every absolute URI whose path, from the slash behind the authority on, RFC 3986 does not allow (a newline at the end aside):
scheme and authority are dropped, and the path is taken for one on the base. -/
theorem C50_illegal (ip : IpRe) {s x p : Str} {au q f : Option Str} {u : Uri} (base : Uri) (hp : Parts s (some x) au p q f) (h : parse ip s = .ok u)
    (hs : u.path.head? = some '/') (hl : ¬ LegalPath u.path) (hl' : ∀ p', u.path = p' ++ ['\n'] → ¬ LegalPath p') :
    resolveText ip base s = .ok { base with path := normalFor base u.path, query := u.query, fragment := u.fragment } := by
  have hbase := (C49_base ip (Made.parse h)).1
  have h0 := h
  rw [Uri.parse_parts ip hp, Res.bind_eq_ok] at h
  obtain ⟨a', ha, h⟩ := h
  simp only [Option.isSome_some, if_true, Option.getD_some, Res.ok.injEq] at h
  have hsx : SchemeText x := by obtain ⟨_, _, _, _, h1, _⟩ := hp; exact h1.1
  have hq : ∀ c ∈ p, c ≠ '?' ∧ c ≠ '#' := by obtain ⟨_, _, _, _, _, _, h3, _⟩ := hp; exact h3.2.1
  have hlow := Uri.lower_scheme hsx
  have hne : lower x ≠ [] := by obtain ⟨a, r, e, _⟩ := hlow; rw [e]; simp
  have habs : isAbsolute ip u = .ok false := by
    simp only [isAbsolute, hbase, Res.ok_bind, Res.ok.injEq]
    cases hm : (Re.pyMatch absoluteMatcher (text { u with query := [], fragment := [] })).isSome with
    | false => rfl
    | true =>
      exfalso
      subst h
      rw [Uri.text_eq] at hm
      simp only [if_neg hne, if_true, List.append_nil] at hm
      have := absolute_only hlow (Uri.authText_authC ip (Uri.auth_sound ip ha)) hs (by
        intro hm'
        rcases normPath_mem hm' with h | h | h
        · exact absurd h (by decide)
        · exact (hq _ h).1 rfl
        · exact absurd h (by decide)) hm
      rcases this with h | ⟨p', e, h⟩
      · exact hl h
      · exact hl' p' e h
  have hpn : u.path ≠ [] := by intro e; rw [e] at hs; simp at hs
  have hqf : pctUpper u.query = u.query ∧ pctUpper u.fragment = u.fragment := by subst h; exact ⟨pctUpper_idem _, pctUpper_idem _⟩
  simp only [resolveText, h0, Res.ok_bind, Uri.resolve, habs, Bool.false_eq_true, if_false, if_neg hpn, if_pos hs, copyWith, Uri.authorityOr,
    Option.map_some, Option.getD_some, hqf.1, hqf.2, normalFor]
  by_cases hs : base.scheme = [] <;> simp [hs]

open Rfc3986 UriSpec Uri Re Verif.Pointer in
/-- The path of `http://b/x y` is not legal. -/
example : ¬ LegalPath c!"/x y" ∧ ∀ p', c!"/x y" = p' ++ ['\n'] → ¬ LegalPath p' := by
  refine ⟨fun h => ?_, fun p' e => ?_⟩
  · have := enc_mem (h c!"x y" (by decide)) (c := ' ') (by decide)
    rcases this with (h | h | h) | h | h
    · exact absurd (regC_iff.2 h) (by decide)
    · exact absurd h (by decide)
    · exact absurd h (by decide)
    · exact absurd h (by decide)
    · exact absurd (hex_iff.2 h) (by decide)
  · have := congrArg List.getLast? e
    simp at this

end Verif.Props
