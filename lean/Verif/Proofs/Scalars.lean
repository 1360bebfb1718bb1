import Verif.Proofs.Single
import Verif.Spec.Validate
import Verif.Proofs.Decimal
/-! # Lemmas for the scalar keywords -/

set_option linter.unusedSimpArgs false

namespace Verif

theorem typeName_mem (v : Val) (ts : List Str) :
    (typeName v ∈ ts ∨ (typeName v = c!"integer" ∧ c!"number" ∈ ts)) ↔ ∃ t ∈ ts, t ∈ typeNamesOf v := by
  cases v <;> simp [typeName, typeNamesOf]
  constructor
  · rintro (h | h)
    · exact ⟨_, h, Or.inl rfl⟩
    · exact ⟨_, h, Or.inr rfl⟩
  · rintro ⟨t, h, e | e⟩ <;> subst e <;> simp [h]

theorem litEq_spec (n : Node) (hn : n.Scalar) (v : Val) :
    litEq n v = true ↔ rawEqVal n v = .ok true ∧ n.isBool = v.isBool := by
  cases n with
  | null => cases v <;> simp [litEq, rawEqVal, Node.isBool, Val.isBool]
  | bool b =>
    cases v with
    | bool c => cases b <;> cases c <;> simp [litEq, rawEqVal, Node.isBool, Val.isBool, numEqVal, Val.num?, Num.eq]
    | _ => simp [litEq, rawEqVal, Node.isBool, Val.isBool, numEqVal]
  | num m =>
    cases v with
    | bool c => cases m <;> simp [litEq, Node.isBool, Val.isBool]
    | int i => cases m <;> simp [litEq, rawEqVal, Node.isBool, Val.isBool, numEqVal, Val.num?, Num.eq]
    | flt x => cases m <;> cases x <;>
        simp [litEq, rawEqVal, Node.isBool, Val.isBool, numEqVal, Val.num?, Num.eq, Flt.exactNum]
    | dec x => cases m <;> cases x <;>
        simp [litEq, rawEqVal, Node.isBool, Val.isBool, numEqVal, Val.num?, Num.eq]
    | _ => cases m <;> simp [litEq, rawEqVal, Node.isBool, Val.isBool, numEqVal, Val.num?, Num.eq]
  | str s => cases v <;> simp [litEq, rawEqVal, Node.isBool, Val.isBool]
  | arr => simp [Node.Scalar] at hn
  | obj => simp [Node.Scalar] at hn
  | ref => simp [Node.Scalar] at hn

theorem rawEqVal_total (n : Node) (hn : n.Scalar) (v : Val) : ∃ b, rawEqVal n v = .ok b := by
  cases n with
  | null => cases v <;> simp [rawEqVal]
  | str s => cases v <;> simp [rawEqVal]
  | arr => simp [Node.Scalar] at hn
  | obj => simp [Node.Scalar] at hn
  | ref => simp [Node.Scalar] at hn
  | _ => simp [rawEqVal]

theorem enumLoop_eq (v : Val) (ctx : Ctx) (xs : List Node) (h : ∀ x ∈ xs, x.Scalar) :
    enumLoop v ctx xs = if xs.any (litEq · v) then .ok () else .err (raiseErr .enumError ctx.path) := by
  induction xs with
  | nil => rfl
  | cons x xs ih =>
    have ih' := ih fun y hy => h y (by simp [hy])
    obtain ⟨b, hb⟩ := rawEqVal_total x (h x (by simp)) v
    have hl := litEq_spec x (h x (by simp)) v
    rw [hb] at hl
    rw [enumLoop, hb, List.any_cons]
    cases b <;> cases hx : x.isBool <;> cases hv : v.isBool <;> cases e : litEq x v <;> simp_all

theorem enumIn_eq (v : Val) (xs : List Node) (h : ∀ x ∈ xs, x.Scalar) (hv : v.isBool = false)
    (hx : ∀ x ∈ xs, x.isBool = true → rawEqVal x v = .ok false) :
    enumIn v xs = .ok (xs.any (litEq · v)) := by
  induction xs with
  | nil => rfl
  | cons x xs ih =>
    have ih' := ih (fun y hy => h y (by simp [hy])) fun y hy => hx y (by simp [hy])
    obtain ⟨b, hb⟩ := rawEqVal_total x (h x (by simp)) v
    have hl := litEq_spec x (h x (by simp)) v
    have hx' := hx x (by simp)
    rw [hb] at hl hx'
    rw [enumIn, hb, List.any_cons]
    cases b <;> cases hxb : x.isBool <;> cases e : litEq x v <;> simp_all

theorem runEnum_eq (v : Val) (ctx : Ctx) (xs : List Node) (h : ∀ x ∈ xs, x.Scalar) :
    runEnum xs v ctx = if xs.any (litEq · v) then .ok () else .err (raiseErr .enumError ctx.path) := by
  unfold runEnum
  by_cases h1 : (v.isBool && !(xs.any Node.isBool)) = true
  · rw [if_pos h1]
    simp only [Bool.and_eq_true, Bool.not_eq_true', List.any_eq_false] at h1
    have : xs.any (litEq · v) = false := by
      rw [List.any_eq_false]; intro x hx hl
      have := ((litEq_spec x (h x hx) v).1 hl).2
      rw [h1.1] at this; exact h1.2 x hx this
    rw [this]; rfl
  · rw [if_neg h1]
    by_cases h2 : ((xs.any Node.isBool && eqNat v 1) || eqNat v 0) = true
    · rw [if_pos h2, enumLoop_eq v ctx xs h]
    · rw [if_neg h2]
      have hv : v.isBool = false := by
        cases v with
        | bool b => cases b <;> simp_all [eqNat, Val.num?, Num.eq, Val.isBool]
        | _ => rfl
      have hx : ∀ x ∈ xs, x.isBool = true → rawEqVal x v = .ok false := by
        intro x hx hb
        have hany : xs.any Node.isBool = true := List.any_eq_true.2 ⟨x, hx, hb⟩
        rw [hany] at h2
        cases x with
        | bool b =>
          simp only [rawEqVal, Res.ok.injEq, numEqVal]
          simp only [eqNat, Bool.true_and, Bool.or_eq_true, not_or, Bool.not_eq_true] at h2
          cases hn : v.num? with
          | none => rfl
          | some m =>
            rw [hn] at h2
            cases m with
            | fin q =>
              simp only [Num.eq, decide_eq_false_iff_not] at h2 ⊢
              intro e; subst e; cases b <;> simp at h2
            | _ => rfl
        | _ => simp [Node.isBool] at hb
      simp only [enumIn_eq v xs h hv hx, Res.ok_bind]

theorem runConst_eq (n : Node) (hn : n.Scalar) (v : Val) (ctx : Ctx) :
    runConst n v ctx = if litEq n v then .ok () else .err (raiseErr .constError ctx.path) := by
  obtain ⟨b, hb⟩ := rawEqVal_total n hn v
  have hl := litEq_spec n hn v
  rw [hb] at hl
  unfold runConst
  rw [hb]
  cases b <;> cases hx : n.isBool <;> cases hv : v.isBool <;> cases e : litEq n v <;> simp_all

theorem exactVal_num {v : Val} {q : Rat} (h : exactVal v = some q) : v.num? = some (.fin q) := by
  cases v with
  | flt x => cases x <;> simp_all [exactVal, Val.num?, Flt.exactNum]
  | dec x => cases x <;> simp_all [exactVal, Val.num?]
  | _ => simp_all [exactVal, Val.num?]

theorem printedVal_dec {w : World} {v : Val} {q : Rat} (h : printedVal v = some q) : toDecimal w v = .ok (.fin q) := by
  cases v with
  | flt x => cases x <;> simp_all [printedVal, toDecimal, Flt.shownNum]
  | dec x => cases x <;> simp_all [printedVal, toDecimal]
  | _ => simp_all [printedVal, toDecimal]

theorem rem_zero_iff (q m : Rat) (hm : m ≠ 0) :
    q - m * ((q / m).num.tdiv (q / m).den : Int) = 0 ↔ ∃ k : Int, q = m * k := by
  constructor
  · intro h
    refine ⟨(q / m).num.tdiv (q / m).den, ?_⟩
    generalize ((q / m).num.tdiv (q / m).den) = k at h ⊢
    grind
  · rintro ⟨k, rfl⟩
    have : m * (k : Rat) / m = (k : Rat) := by grind
    rw [this]; simp [Int.tdiv_one]; grind

theorem trunc_eq (q : Rat) : q.num.tdiv q.den = truncate q := by
  unfold truncate
  split
  · rename_i h
    rw [Rat.floor_def]
    rw [Int.tdiv_eq_ediv_of_nonneg (Rat.num_nonneg.2 h)]
  · rename_i h
    have h : q < 0 := Rat.not_le.1 h
    have hn : q.num < 0 := by
      have := mt Rat.num_nonneg.1 (Rat.not_le.2 h); omega
    rw [Rat.ceil_eq_neg_floor_neg, Rat.floor_def]
    have e : q.num = -(-q.num) := by omega
    rw [e, Int.neg_tdiv, Int.tdiv_eq_ediv_of_nonneg (by omega)]
    simp

theorem coarse_scaled (j : Int) (n : Nat) (h : n ≤ 1000026) : Coarse (j * Num.pow10 (-n)) := by
  obtain ⟨d, hd⟩ := Nat.exists_eq_add_of_le h
  refine ⟨j * (10 ^ d : Nat), ?_⟩
  rw [Rat.intCast_mul, show (((10 ^ d : Nat) : Int) : Rat) = Num.pow10 d by rw [Num.pow10_nat]; rfl]
  rw [show (-(n : Int)) = d + -1000026 by omega, Num.pow10_add]
  grind

theorem truncate_mag (x : Rat) : Num.mag (x - truncate x) ≤ Num.mag x := by
  unfold truncate
  split
  · next h =>
    have h1 := Rat.floor_le x
    have h2 : (0 : Int) ≤ x.floor := Rat.le_floor_iff.2 (by simpa using h)
    have h3 : (0 : Rat) ≤ (x.floor : Rat) := by exact_mod_cast h2
    unfold Num.mag; split <;> split <;> grind
  · next h =>
    have h0 : 0 ≤ -x := by grind
    have h1 := Rat.floor_le (-x)
    have h2 : (0 : Int) ≤ (-x).floor := Rat.le_floor_iff.2 (by simpa using h0)
    have h3 : (0 : Rat) ≤ ((-x).floor : Rat) := by exact_mod_cast h2
    rw [Rat.ceil_eq_neg_floor_neg, Rat.intCast_neg]
    unfold Num.mag; split <;> split <;> grind

theorem rem_mag (q m : Rat) (hm : m ≠ 0) : Num.mag (q - m * (truncate (q / m) : Rat)) ≤ Num.mag q := by
  have e1 : q - m * (truncate (q / m) : Rat) = (q / m - truncate (q / m)) * m := by grind
  have e2 : q = q / m * m := by grind
  have h := truncate_mag (q / m)
  rw [e1]
  generalize q / m = x at *
  subst e2
  rcases (by grind : m < 0 ∨ 0 < m) with h0 | h0
  · have e3 : ∀ y : Rat, Num.mag (y * m) = Num.mag y * -m := by
      intro y
      rw [← Num.mag_mul_pos y (p := -m) (by grind)]
      unfold Num.mag; split <;> split <;> grind
    rw [e3, e3]
    exact Rat.mul_le_mul_of_nonneg_right h (by grind)
  · rw [Num.mag_mul_pos _ h0, Num.mag_mul_pos _ h0]
    exact Rat.mul_le_mul_of_nonneg_right h (Rat.le_of_lt h0)

theorem toInt_eq (q : Rat) : Num.toInt (.fin q) = .ok (truncate q) := by
  rw [Num.toInt, trunc_eq]

theorem decide_beq (a b : Bool) : decide (a = b) = (a == b) := by cases a <;> cases b <;> rfl

theorem scalarEq_eq (a b : Val) (ha : a.Scalar) (hb : b.Scalar) : scalarEq a b = pyScalarEq a b := by
  cases a with
  | null => cases b <;> simp_all [scalarEq, pyScalarEq, Val.num?, exactVal]
  | str s => cases b <;> simp_all [scalarEq, pyScalarEq, Val.num?, exactVal]
  | list => simp [Val.Scalar] at ha
  | dict => simp [Val.Scalar] at ha
  | bool x => cases b with
    | flt y => cases y <;> simp_all [scalarEq, pyScalarEq, Val.num?, exactVal, Num.eq, Flt.exactNum, Val.Scalar, decide_beq]
    | dec y => cases y <;> simp_all [scalarEq, pyScalarEq, Val.num?, exactVal, Num.eq, Val.Scalar]
    | _ => simp_all [scalarEq, pyScalarEq, Val.num?, exactVal, Num.eq]
  | int x => cases b with
    | flt y => cases y <;> simp_all [scalarEq, pyScalarEq, Val.num?, exactVal, Num.eq, Flt.exactNum, Val.Scalar, decide_beq]
    | dec y => cases y <;> simp_all [scalarEq, pyScalarEq, Val.num?, exactVal, Num.eq, Val.Scalar]
    | _ => simp_all [scalarEq, pyScalarEq, Val.num?, exactVal, Num.eq]
  | flt x => cases x <;> cases b with
    | flt y => cases y <;> simp_all [scalarEq, pyScalarEq, Val.num?, exactVal, Num.eq, Flt.exactNum, Val.Scalar, decide_beq]
    | dec y => cases y <;> simp_all [scalarEq, pyScalarEq, Val.num?, exactVal, Num.eq, Flt.exactNum, Val.Scalar, decide_beq]
    | _ => simp_all [scalarEq, pyScalarEq, Val.num?, exactVal, Num.eq, Flt.exactNum, Val.Scalar, decide_beq]
  | dec x => cases x <;> cases b with
    | flt y => cases y <;> simp_all [scalarEq, pyScalarEq, Val.num?, exactVal, Num.eq, Flt.exactNum, Val.Scalar, decide_beq]
    | dec y => cases y <;> simp_all [scalarEq, pyScalarEq, Val.num?, exactVal, Num.eq, Flt.exactNum, Val.Scalar, decide_beq]
    | _ => simp_all [scalarEq, pyScalarEq, Val.num?, exactVal, Num.eq, Flt.exactNum, Val.Scalar, decide_beq]

theorem scalar_hashable {v : Val} (h : v.Scalar) : hashable v = true := by
  cases v <;> simp_all [Val.Scalar, hashable]

theorem truncate_bound (q : Rat) (h1 : -10 ^ 28 < q) (h2 : q < 10 ^ 28) : (truncate q).natAbs < 10 ^ 28 := by
  unfold truncate
  split
  · rename_i h
    have a : 0 ≤ q.floor := Rat.le_floor_iff.2 (by simpa using h)
    have b : q.floor < 10 ^ 28 := by
      rw [Rat.floor_lt_iff, show ((10 ^ 28 : Int) : Rat) = 10 ^ 28 from by decide +kernel]; exact h2
    omega
  · rename_i h
    have h : q < 0 := Rat.not_le.1 h
    have a : q.ceil ≤ 0 := Rat.ceil_le_iff.2 (by simpa using Rat.le_of_lt h)
    have b : -10 ^ 28 < q.ceil := by
      rw [Rat.lt_ceil_iff, show ((-10 ^ 28 : Int) : Rat) = -10 ^ 28 from by decide +kernel]; exact h1
    omega

theorem Num.eq_symm (a b : Num) : a.eq b = b.eq a := by
  cases a <;> cases b <;> simp only [Num.eq] <;> rw [decide_eq_decide] <;> exact eq_comm

theorem pyScalarEq_symm (a b : Val) (ha : a.Scalar) (hb : b.Scalar) : pyScalarEq a b = pyScalarEq b a := by
  rw [← scalarEq_eq a b ha hb, ← scalarEq_eq b a hb ha]
  cases a <;> cases b <;> simp only [scalarEq, Val.num?]
  case str.str s t => rw [Bool.eq_iff_iff]; simp only [beq_iff_eq]; exact eq_comm
  all_goals exact Num.eq_symm _ _

theorem uniqueLoop_gen {ctx : Ctx} (hc : CtxOk ctx) (pre xs seen : List Val) (hs : ∀ x ∈ xs, x.Scalar)
    (hp : ∀ x ∈ pre, x.Scalar) (hm : ∀ x, x ∈ seen ↔ x ∈ pre)
    (hpw : pre.Pairwise (fun a b => pyScalarEq a b = false)) :
    ((pre ++ xs).Pairwise (fun a b => pyScalarEq a b = false) → uniqueLoop ctx seen pre.length xs = .ok ()) ∧
    (¬ (pre ++ xs).Pairwise (fun a b => pyScalarEq a b = false) →
      ∃ i j a b, j < i ∧ (pre ++ xs)[i]? = some a ∧ (pre ++ xs)[j]? = some b ∧ pyScalarEq b a = true ∧
        uniqueLoop ctx seen pre.length xs = rejected c!"unique_items_error" (ctx.path ++ natStr i)) := by
  induction xs generalizing pre seen with
  | nil => simp [uniqueLoop, hpw]
  | cons x xs ih =>
    have hx : x.Scalar := hs x (by simp)
    rw [uniqueLoop, scalar_hashable hx]
    by_cases hany : seen.any (scalarEq x) = true
    · obtain ⟨y, hy, e⟩ := List.any_eq_true.1 hany
      have hy' : y ∈ pre := (hm y).1 hy
      rw [scalarEq_eq x y hx (hp y hy'), pyScalarEq_symm x y hx (hp y hy')] at e
      have nopw : ¬ (pre ++ x :: xs).Pairwise (fun a b => pyScalarEq a b = false) := by
        intro h
        have := (List.pairwise_append.1 h).2.2 y hy' x (by simp)
        rw [e] at this; cases this
      refine ⟨fun h => absurd h nopw, fun _ => ?_⟩
      obtain ⟨j, hj, ej⟩ := List.getElem_of_mem hy'
      refine ⟨pre.length, j, x, y, hj, by simp, by rw [List.getElem?_append_left hj, List.getElem?_eq_getElem hj, ej], e, ?_⟩
      simp only [Bool.not_true, Bool.false_eq_true, if_false, hany, if_true]
      rw [raiseErr_ok _ (by simp [ErrClass.all]) _ _ (noBrace_append hc.path (toDigits_noBrace _))]; rfl
    · have hnew : ∀ y ∈ pre, pyScalarEq y x = false := by
        intro y hy
        cases e : pyScalarEq y x with
        | false => rfl
        | true =>
          refine absurd (List.any_eq_true.2 ⟨y, (hm y).2 hy, ?_⟩) hany
          rw [scalarEq_eq x y hx (hp y hy), pyScalarEq_symm x y hx (hp y hy)]; exact e
      have ih' := ih (pre ++ [x]) (x :: seen) (fun y hy => hs y (by simp [hy]))
        (by intro y hy; rcases List.mem_append.1 hy with h | h
            · exact hp y h
            · simp at h; subst h; exact hx)
        (by intro y; simp [hm y, or_comm])
        (by rw [List.pairwise_append]; refine ⟨hpw, by simp, ?_⟩; intro a ha b hb; simp at hb; subst hb; exact hnew a ha)
      simp only [List.append_assoc, List.singleton_append, List.length_append, List.length_singleton] at ih'
      simp only [Bool.not_true, Bool.false_eq_true, if_false, hany]
      exact ih'

theorem uniqueLoop_spec {ctx : Ctx} (hc : CtxOk ctx) (xs : List Val) (hs : ∀ x ∈ xs, x.Scalar) :
    (xs.Pairwise (fun a b => pyScalarEq a b = false) → uniqueLoop ctx [] 0 xs = .ok ()) ∧
    (¬ xs.Pairwise (fun a b => pyScalarEq a b = false) →
      ∃ i j a b, j < i ∧ xs[i]? = some a ∧ xs[j]? = some b ∧ pyScalarEq b a = true ∧
        uniqueLoop ctx [] 0 xs = rejected c!"unique_items_error" (ctx.path ++ natStr i)) := by
  simpa using uniqueLoop_gen hc [] xs [] hs (by simp) (by simp) (by simp)

end Verif
