import Verif.Proofs.Types
/-! # Properties C05, C07, C08, C09: wrapped values -/

namespace Verif.Props
open Verif

/-! ## C05 -/

/-- C05: wrapping plain data succeeds (`wrap` is total) and the wrapped value compares equal to the data, without
raising, whichever side it is on (`v == node` runs the same method). -/
theorem C05_wrapped_equals_source (v : Val) (h : v.Plain) : nodeEqVal (wrap v) v = .ok true := wrapped_node v h

/-- Instance: a nested document with a float whose printed value differs from its exact one. -/
example : (Val.dict [(c!"a", .list [.null, .bool true, .int 1, .flt (.fin (3602879701896397 / 2 ^ 55) (1 / 10))]),
    (c!"b", .dict [])]).Plain := by
  simp [Val.Plain, Val.PlainD, Val.PlainL, Flt.notNaN]

/-! ## C07 -/

/-- C07: each comparison of a finite `JsonNumber` with a finite number answers as exact arithmetic does. -/
theorem C07_comparisons_exact (p q : Rat) (o : Operand) (h : opVal o = some q) :
    jnEq (.fin p) o = .ok (decide (p = q)) ∧ jnLt (.fin p) o = .ok (decide (p < q)) ∧
    jnLe (.fin p) o = .ok (decide (p ≤ q)) ∧ jnGt (.fin p) o = .ok (decide (q < p)) ∧
    jnGe (.fin p) o = .ok (decide (q ≤ p)) := by
  simp [jnEq, jnLt, jnLe, jnGt, jnGe, opVal_num h, Num.eq, Num.lt, Num.le]

/-- C07: exactly one of `<`, `==`, `>` holds, and `<=`, `>=` are the unions. -/
theorem C07_trichotomy (p q : Rat) (o : Operand) (h : opVal o = some q) :
    ∃ lt eq gt : Bool, jnLt (.fin p) o = .ok lt ∧ jnEq (.fin p) o = .ok eq ∧ jnGt (.fin p) o = .ok gt ∧
      jnLe (.fin p) o = .ok (lt || eq) ∧ jnGe (.fin p) o = .ok (gt || eq) ∧
      ((lt = true ∧ eq = false ∧ gt = false) ∨ (lt = false ∧ eq = true ∧ gt = false) ∨
        (lt = false ∧ eq = false ∧ gt = true)) := by
  obtain ⟨h1, h2, h3, h4, h5⟩ := C07_comparisons_exact p q o h
  refine ⟨_, _, _, h2, h1, h4, ?_, ?_, ?_⟩
  · rw [h3, ← Bool.decide_or]; congr 2
    rw [Rat.le_iff_lt_or_eq]
  · rw [h5, ← Bool.decide_or]; congr 2
    rw [Rat.le_iff_lt_or_eq, eq_comm (a := q)]
  · by_cases hl : p < q
    · left; simp [hl, Rat.ne_of_lt hl, Rat.not_lt.2 (Rat.le_of_lt hl)]
    · rcases Rat.le_iff_lt_or_eq.1 (Rat.not_lt.1 hl) with h | h
      · right; right; simp [h, Rat.ne_of_gt h, hl]
      · right; left; subst h; simp [Rat.lt_irrefl]

/-- C07: the order is transitive through any chain of wrapped numbers, also for infinities. -/
theorem C07_transitive (a b c : Num) (h1 : jnLe a (.node (.num b)) = .ok true)
    (h2 : jnLe b (.node (.num c)) = .ok true) : jnLe a (.node (.num c)) = .ok true := by
  simp only [jnLe, Operand.num, Res.ok_bind] at *
  cases a <;> cases b <;> cases c <;> simp_all [Num.le]
  · exact Rat.le_trans h1 h2
  · rcases h1 with h1 | h1 <;> simp_all

example : opVal (.val (.flt (.fin (3602879701896397 / 2 ^ 55) (1 / 10)))) = some (1 / 10) := rfl

/-- C07: a comparison with something that is not a number raises `TypeError`. -/
theorem C07_non_numbers (n : Num) (o : Operand) (h : ¬ isNumber o) :
    jnEq n o = .err .typeError ∧ jnLt n o = .err .typeError ∧ jnLe n o = .err .typeError ∧
    jnGt n o = .err .typeError ∧ jnGe n o = .err .typeError := by
  have : o.num = .err .typeError := by
    cases o with
    | node x => cases x <;> simp_all [isNumber, Operand.num]
    | val x => cases x <;> simp_all [isNumber, Operand.num]
  simp [jnEq, jnLt, jnLe, jnGt, jnGe, this]

example : ¬ isNumber (.val (.str c!"1")) := by simp [isNumber]

/-! ## C08 -/

/-- C08: from any dictionary, every sequence of operations answers as the insertion-ordered map does. -/
theorem C08_object_is_map (d : List (Str × Val)) (hd : (d.map Prod.fst).Nodup) (ops : List ObjOp) :
    objRun (wrapDict d) ops = (OMap.ofDict d).run ops := by
  have h0 : MapRel (wrapDict d) (OMap.ofDict d) := by
    have e : (wrapDict d).map Prod.fst = d.map Prod.fst := by rw [wrapDict_eq_map, List.map_map]; rfl
    exact ⟨e ▸ hd, e.symm, fun k => (dictGet_wrapDict k d).symm⟩
  generalize wrapDict d = x at h0
  generalize OMap.ofDict d = m at h0
  induction ops generalizing x m with
  | nil => rfl
  | cons o ops ih =>
    obtain ⟨h1, h2⟩ := mapRel_step x m h0 o
    simp only [objRun, OMap.run]
    rw [h1, ih _ _ h2]

example : ([(c!"a", Val.int 1), (c!"b", .null)].map Prod.fst).Nodup := by decide
example : (OMap.ofDict [(c!"a", Val.int 1), (c!"b", .null)]).run [.del c!"zz", .del c!"a", .set c!"a" (.val .null), .keys]
    = [.ok .none, .ok .none, .ok .none, .ok (.keys [c!"b", c!"a"])] := by rfl

/-! ## C09 -/

/-- C09 fails: comparing a wrapped number with a wrapped string raises, although the other order answers. -/
theorem C09_equality_total_violated :
    ¬ (∀ a b : Node, a.RefFree → b.RefFree → (∃ r, nodeEq a b = .ok r) ∧ nodeEq a b = nodeEq b a) := by
  intro h
  obtain ⟨⟨r, h1⟩, _⟩ := h (.num (.fin 1)) (.str c!"a") trivial trivial
  simp [nodeEq] at h1

/-- C09 fails for symmetry alone: one order answers `False`, the other raises. -/
theorem C09_equality_symmetric_violated :
    nodeEq (.str c!"a") (.num (.fin 1)) = .ok false ∧ nodeEq (.num (.fin 1)) (.str c!"a") = .err .typeError ∧
    nodeEq .null (.bool true) = .ok false ∧ nodeEq (.bool true) .null = .err .typeError := by
  simp [nodeEq]

/-- C09, weaker: a comparison either answers or raises `TypeError`; "equal" is symmetric; and whenever both orders
answer they agree.  Missing: mixed-type comparisons, which raise in one or both orders. -/
theorem C09_equality_partial (a b : Node) (ha : a.RefFree) (hb : b.RefFree) :
    ((∃ r, nodeEq a b = .ok r) ∨ nodeEq a b = .err .typeError) ∧
    (nodeEq a b = .ok true → nodeEq b a = .ok true) ∧
    (∀ r s, nodeEq a b = .ok r → nodeEq b a = .ok s → r = s) := by
  refine ⟨nodeEq_cases a b ha hb, nodeEq_true_symm a b ha hb, ?_⟩
  intro r s h1 h2
  cases r <;> cases s
  · rfl
  · have := nodeEq_true_symm b a hb ha h2; simp [h1] at this
  · have := nodeEq_true_symm a b ha hb h1; simp [h2] at this
  · rfl

example : (Node.obj [(c!"a", .arr [.num (.fin 1), .null]), (c!"b", .str c!"x")]).RefFree := by
  simp [Node.RefFree, Node.RefFreeD, Node.RefFreeL]

end Verif.Props
