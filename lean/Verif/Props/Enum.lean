import Verif.Proofs.EnumAll
import Verif.Props.Scalar
/-!
# C84: `enum` and `const` with arrays and objects

`SameJson` (Spec/Validate.lean) is JSON equality.  `Comparable` leaves out what the code cannot compare: a number or boolean of the
schema below the top level against something of another kind, and floats that print differently from their value.
-/

namespace Verif.Props
open Verif

variable (w : World) (docs : List Doc) (voc : List Kw) (f : Nat) (items : List (Str × Node)) (v : Val) (ctx : Ctx)

open Classical in
/-- C84, weaker: `{enum: [...]}` with arrays and objects of any depth accepts exactly the values equal to a member, if the members are
scalars or comparable with the value.  Missing: the others, see `C84_raises_violated` and `C84_boolean_violated`. -/
theorem C84_enum_partial (hc : CtxOk ctx) (ho : Only voc items .enum) (xs : List Node)
    (h : dictGet c!"enum" items = some (.arr xs)) (hs : ∀ x ∈ xs, x.Scalar ∨ Comparable x v) :
    validateN w docs voc (f + 2) (.obj items) v ctx =
      if ∃ x ∈ xs, SameJson x v then .ok () else rejected c!"enum_error" ctx.path := by
  rw [single_set w docs voc f items v ctx .enum (.enum xs) ho rfl (dictHas_of_get h)
    (by simp [readKw, getKey_of_get h, view])]
  simp only [run, runEnum_all v ctx xs hs, raise_ctx hc (c := .enumError) (by simp [ErrClass.all])]
  rfl

/-- Instance: `{"a": [1, null]}` is a member of `enum: [[], {"a": [1, null]}]`, and `{"a": [2, null]}` is not. -/
example : let x : Node := .obj [(c!"a", .arr [.num (.fin 1), .null])]
    let v (i : Int) : Val := .dict [(c!"a", .list [.int i, .null])]
    (∀ i, Comparable (.arr []) (v i) ∧ Comparable x (v i)) ∧ SameJson x (v 1) ∧ ¬ SameJson x (v 2) ∧ ∀ i, ¬ SameJson (.arr []) (v i) := by
  have items : ∀ (i : Int), Comparable (.arr [.num (.fin 1), .null]) (.list [.int i, .null]) := by
    intro i
    refine .arr _ _ ?_
    rintro ys ⟨⟩ _ n x y h1 h2
    match n with
    | 0 => cases h1; cases h2; exact .int _ _
    | 1 => cases h1; exact .null _
    | n + 2 => cases h1
  have obj : ∀ (i : Int), Comparable (.obj [(c!"a", .arr [.num (.fin 1), .null])]) (.dict [(c!"a", .list [.int i, .null])]) := by
    intro i
    refine .obj _ _ (by simp) (by rintro _ ⟨⟩; simp) ?_
    rintro kws ⟨⟩ k x y h1 h2
    have e : k = c!"a" := by
      simp only [dictGet] at h1
      split at h1
      · next e => exact e.symm
      · cases h1
    subst e; cases h1; cases h2
    exact items i
  refine ⟨fun i => ⟨.arr _ _ (by rintro ys ⟨⟩), obj i⟩, ?_, ?_, ?_⟩
  · refine .obj _ _ (fun k => by simp [dictHas, dictGet]; split <;> rfl) fun k x y h1 h2 => ?_
    have e : k = c!"a" := by
      simp only [dictGet] at h1
      split at h1
      · next e => exact e.symm
      · cases h1
    subst e; cases h1; cases h2
    refine .arr _ _ rfl fun n x y h1 h2 => ?_
    match n with
    | 0 => cases h1; cases h2; exact .scalar (by simp [litEq])
    | 1 => cases h1; cases h2; exact .scalar rfl
    | n + 2 => cases h1
  · intro H
    cases H with
    | scalar h => cases h
    | obj _ _ _ h =>
      cases h c!"a" _ _ rfl rfl with
      | scalar h => cases h
      | arr _ _ _ h =>
        cases h 0 _ _ rfl rfl with
        | scalar h => simp only [litEq, decide_eq_true_eq] at h; exact absurd h (by decide +kernel)
  · intro i H
    cases H with
    | scalar h => cases h

/-- C84 fails: a text where the schema has a number raises `TypeError` instead of `ValidationError`, and so does a number where it has a
boolean. -/
theorem C84_raises_violated :
    validateN w docs [.enum] (f + 2) (.obj [(c!"enum", .arr [.arr [.num (.fin 1)]])]) (.list [.str c!"a"]) ctx = .err .typeError ∧
    validateN w docs [.enum] (f + 2) (.obj [(c!"enum", .arr [.arr [.bool true]])]) (.list [.int 1]) ctx = .err .typeError := by
  constructor <;>
  · rw [single_set w docs [.enum] f _ _ ctx .enum _ ⟨by simp, by decide⟩ rfl rfl rfl]
    rfl

/-- C84 fails: below the top level `true` is taken for 1. -/
theorem C84_boolean_violated :
    validateN w docs [.enum] (f + 2) (.obj [(c!"enum", .arr [.arr [.num (.fin 1)]])]) (.list [.bool true]) ctx = .ok () ∧
    ¬ SameJson (.arr [.num (.fin 1)]) (.list [.bool true]) := by
  constructor
  · rw [single_set w docs [.enum] f _ _ ctx .enum _ ⟨by simp, by decide⟩ rfl rfl rfl]
    simp [run, runEnum, enumIn, rawEqVal, nodeEqVal, listEqVal, Num.eq, Node.isBool, Val.isBool, eqNat, Val.num?]
  · intro H
    cases H with
    | scalar h => cases h
    | arr _ _ _ h =>
      cases h 0 _ _ rfl rfl with
      | scalar h => cases h

/-- C84 fails: a `const` that is an array or an object is refused, whatever the value. -/
theorem C84_const_violated (ho : Only voc items .const) (x : Node) (h : dictGet c!"const" items = some x)
    (hx : (∃ xs, x = .arr xs) ∨ ∃ kvs, x = .obj kvs) : validateN w docs voc (f + 2) (.obj items) v ctx = .err .schemaParse := by
  refine single_err w docs voc f items v ctx .const _ ho rfl (dictHas_of_get h) ?_
  rcases hx with ⟨xs, rfl⟩ | ⟨kvs, rfl⟩ <;> simp [readKw, getKey_of_get h, view]

example : Only [.const] [(c!"const", .arr [])] .const := ⟨by simp, by decide⟩

end Verif.Props
