import Verif.Proofs.Compare
/-! # Property C81: the order of wrapped values -/

namespace Verif.Props
open Verif

/-- C81, weaker: on values of one shape the four comparisons and `==` answer by the one order `Before`, of which exactly one holds, and
which is transitive.  Missing: values of different types, see `C81_kinds` and `C81_mirror_violated`. -/
theorem C81_order_partial (s : Shape) (a b : Node) (ha : HasShape s a) (hb : HasShape s b) :
    (∃ r, nodeCmp .lt a b = .ok r ∧ (r = true ↔ Before a b)) ∧
    (∃ r, nodeCmp .le a b = .ok r ∧ (r = true ↔ Before a b ∨ a = b)) ∧
    (∃ r, nodeCmp .gt a b = .ok r ∧ (r = true ↔ Before b a)) ∧
    (∃ r, nodeCmp .ge a b = .ok r ∧ (r = true ↔ Before b a ∨ a = b)) ∧
    (∃ r, nodeEq a b = .ok r ∧ (r = true ↔ a = b)) ∧
    ((Before a b ∧ a ≠ b ∧ ¬ Before b a) ∨ (¬ Before a b ∧ a = b ∧ ¬ Before b a) ∨ (¬ Before a b ∧ a ≠ b ∧ Before b a)) := by
  have h3 := ord_three s a b ha hb
  have l : Before a b ↔ ord a b = .lt := ⟨ord_of_before, h3.1⟩
  have e : a = b ↔ ord a b = .eq := ⟨by rintro rfl; exact ord_refl a, h3.2.1⟩
  have g : Before b a ↔ ord a b = .gt := by
    refine ⟨fun h => ?_, h3.2.2⟩
    cases hc : ord a b with
    | gt => rfl
    | eq => have := e.2 hc; subst this; have := ord_of_before h; rw [hc] at this; cases this
    | lt =>
      exfalso
      have k := ord_three s b a hb ha
      have h1 := ord_of_before h
      have h2 := l.2 hc
      exact absurd h1 (by
        intro _
        have t := ord_of_before (before_trans s a b a ha hb ha h2 h)
        rw [ord_refl] at t; cases t)
  simp only [nodeCmp_ord s _ a b ha hb, nodeEq_ord s a b ha hb, Res.ok.injEq, exists_eq_left', ne_eq]
  rw [l, e, g]
  cases ord a b <;> simp [CmpOp.holds]

/-- C81: the order is transitive. -/
theorem C81_transitive (s : Shape) (a b c : Node) (ha : HasShape s a) (hb : HasShape s b) (hc : HasShape s c) (h1 : Before a b)
    (h2 : Before b c) : Before a c := before_trans s a b c ha hb hc h1 h2

/-- C81: plain data on the right give the same answers as the wrapped data. -/
theorem C81_plain (s : Shape) (op : CmpOp) (a : Node) (v : Val) (ha : HasShape s a) (hv : HasShape s (wrap v)) :
    nodeCmpVal op a v = nodeCmp op a (wrap v) := cmpVal_wrap s op a v ha hv

/-- Instance: `[[1, 2]] < [[1, 3], []]`, arrays of arrays of numbers. -/
example : HasShape (.array (.array .number)) (wrap (.list [.list [.int 1, .int 3], .list []])) ∧
    Before (wrap (.list [.list [.int 1, .int 2]])) (wrap (.list [.list [.int 1, .int 3], .list []])) := by
  constructor
  · refine .array _ _ ?_
    intro x hx
    simp [wrap, wrapList] at hx
    rcases hx with rfl | rfl
    · refine .array _ _ ?_
      intro x hx
      simp at hx
      rcases hx with rfl | rfl <;> exact .number _ (by simp)
    · exact .array _ _ (by simp)
  · simp only [wrap, wrapList]
    exact .item [] _ _ (.item [.num (.fin 1)] [] [] (.number (.fin _ _ (by decide +kernel))))

/-- The kind of a value. -/
def kindOf : Node → Kind
  | .null => .null
  | .bool _ => .boolean
  | .num _ => .number
  | .str _ => .string
  | .arr _ => .array
  | .obj _ | .ref .. => .object

/-- C81: values of different kinds raise `TypeError`, except a boolean on the left of a number; so do null and objects. -/
theorem C81_kinds (op : CmpOp) (a b : Node) (ha : a.RefFree) (hb : b.RefFree)
    (h : kindOf a ≠ kindOf b ∨ kindOf a = .null ∨ kindOf a = .object) (hx : ¬ (kindOf a = .boolean ∧ kindOf b = .number)) :
    nodeCmp op a b = .err .typeError := by
  cases a <;> cases b <;> first | (simp [kindOf] at h; done) | (simp [kindOf] at hx; done) | (exact ha.elim) | (exact hb.elim) |
    (cases op <;> rfl)

/-- C81 fails: `JsonBoolean < JsonNumber` answers while the mirrored comparison raises `TypeError`. -/
theorem C81_mirror_violated : nodeCmp .lt (.bool true) (.num (.fin 2)) = .ok true ∧
    nodeCmp .gt (.num (.fin 2)) (.bool true) = .err .typeError ∧ nodeEq (.bool true) (.num (.fin 1)) = .err .typeError := by
  decide +kernel

/-- C81 fails for NaN: every comparison raises. -/
theorem C81_nan_violated (op : CmpOp) (n : Num) : nodeCmp op (.num n) (.num .nan) = .err .invalidOperation := by
  cases op <;> cases n <;> rfl

end Verif.Props
