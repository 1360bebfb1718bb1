import Verif.Model.Arith
import Verif.Proofs.Arith
import Verif.Proofs.Types
import Verif.Proofs.Scalars
/-! # Properties C79, C80: adding wrapped numbers, and `int` of them -/

namespace Verif.Props
open Verif

/-! ## C79 -/

theorem add_fin (p q : Rat) : Num.add (.fin p) (.fin q) = (do .ok (.fin (← Num.fix (p + q)))) := rfl

theorem jnAdd_fin (p q : Rat) (o : Operand) (h : opVal o = some q) : jnAdd (.fin p) o = (do .ok (.fin (← Num.fix (p + q)))) := by
  have hn := opVal_num h
  unfold jnAdd
  split
  · next d =>
    simp only [Operand.num, Res.ok.injEq] at hn
    rw [hn, add_fin, Rat.add_comm]
  · rw [hn, Res.ok_bind, add_fin]

/-- C79: the sum is the exact sum rounded to 28 digits, to the nearest and a tie to the even digit; too large sums raise
`decimal.Overflow`. -/
theorem C79_sum (p q : Rat) (o : Operand) (h : opVal o = some q) :
    (TooLarge (p + q) → jnAdd (.fin p) o = .err .decimalOverflow) ∧
    (¬ TooLarge (p + q) → ∃ r, jnAdd (.fin p) o = .ok (.fin r) ∧ Rounds (p + q) r ∧ ∀ t, Rounds (p + q) t → t = r) := by
  rw [jnAdd_fin p q o h]
  by_cases h0 : p + q = 0
  · rw [h0, Num.fix_zero]
    refine ⟨fun hl => ?_, fun _ => ⟨0, rfl, Num.rounds_zero, fun t ht => Num.rounds_unique ht Num.rounds_zero⟩⟩
    exfalso
    unfold TooLarge at hl
    have p := Num.pow10_pos 999972
    have e : Num.mag 0 = 0 := rfl
    rw [e] at hl
    have : 0 < (10 ^ 28 - 1 / 2) * Num.pow10 999972 := Rat.mul_pos (by decide +kernel) p
    grind
  · rw [Num.fix_rounded h0]
    have R := Num.rounded_spec h0
    constructor
    · intro hl; rw [if_pos ((Num.tooLarge_iff h0).2 hl)]; rfl
    · intro hl
      rw [if_neg fun hh => hl ((Num.tooLarge_iff h0).1 hh)]
      exact ⟨_, rfl, R, fun t ht => Num.rounds_unique ht R⟩

/-- C79, weaker: where the exact sum has at most 28 digits, it is the result.  Missing: sums of more digits, see `C79_exact_violated`, and
plain numbers on the left, see `C79_left_violated`. -/
theorem C79_exact_partial (p q : Rat) (o : Operand) (h : opVal o = some q) (hd : Digits28 (p + q)) (hs : Num.mag (p + q) < Num.pow10 1000000) :
    jnAdd (.fin p) o = .ok (.fin (p + q)) := by
  by_cases hl : TooLarge (p + q)
  · exfalso
    have := (Num.tooLarge_iff (q := p + q) (by
      intro h0
      rw [h0] at hl
      unfold TooLarge at hl
      have p := Num.pow10_pos 999972
      have e : Num.mag 0 = 0 := rfl
      rw [e] at hl
      have : 0 < (10 ^ 28 - 1 / 2) * Num.pow10 999972 := Rat.mul_pos (by decide +kernel) p
      grind)).2 hl
    by_cases h0 : p + q = 0
    · rw [h0] at this hs
      have e : Num.rounded 0 = 0 := Num.rounds_unique (s := 0) (by
        have : Num.rounded 0 = 0 := by decide +kernel
        rw [this]; exact Num.rounds_zero) Num.rounds_zero
      rw [e] at this
      grind
    · rw [Num.rounds_unique (Num.rounded_spec h0) (Num.rounds_self hd)] at this
      grind
  · obtain ⟨r, hr, hR, _⟩ := (C79_sum p q o h).2 hl
    rw [hr, Num.rounds_unique hR (Num.rounds_self hd)]

/-- Instance: 0.1 + 0.2 is 0.3, with a float on the right. -/
example : opVal (.val (.flt (.fin (3602879701896397 / 2 ^ 54) (1 / 5)))) = some (1 / 5) ∧ Digits28 (1 / 10 + 1 / 5) ∧
    Num.mag (1 / 10 + 1 / 5) < Num.pow10 1000000 := by
  refine ⟨rfl, ⟨3, -1, by decide +kernel, by decide, by omega⟩, ?_⟩
  have h := Num.pow10_mono (show 0 ≤ 1000000 by omega)
  rw [Num.pow10_zero] at h
  have e : Num.mag (1 / 10 + 1 / 5) = 3 / 10 := by decide +kernel
  rw [e]; grind

/-- C79: adding is commutative, also for infinities and NaN. -/
theorem C79_commutative (a b : Num) : jnAdd a (.node (.num b)) = jnAdd b (.node (.num a)) := by
  simp only [jnAdd, Operand.num, Res.ok_bind]
  cases a <;> cases b <;> simp [Num.add, Rat.add_comm]
  next s t => cases s <;> cases t <;> rfl

/-- C79: a larger summand gives no smaller sum. -/
theorem C79_monotone (p p' q r r' : Rat) (o : Operand) (h : opVal o = some q) (hp : p ≤ p') (h1 : jnAdd (.fin p) o = .ok (.fin r))
    (h2 : jnAdd (.fin p') o = .ok (.fin r')) : r ≤ r' := by
  have R : ∀ p r, jnAdd (.fin p) o = .ok (.fin r) → Rounds (p + q) r := by
    intro p r hr
    have := C79_sum p q o h
    by_cases hl : TooLarge (p + q)
    · rw [this.1 hl] at hr; cases hr
    · obtain ⟨t, ht, hR, _⟩ := this.2 hl
      rw [ht] at hr; cases hr; exact hR
  have a := R p r h1
  have b := R p' r' h2
  by_cases hc : r ≤ r'
  · exact hc
  exfalso
  have n1 := a.near r' b.digits
  have n2 := b.near r a.digits
  have e : p + q = p' + q := by
    unfold Num.mag at n1 n2
    grind
  rw [e] at a
  exact hc (by rw [Num.rounds_unique a b]; exact Rat.le_refl)

example : jnAdd (.fin 1) (.val (.int 2)) = .ok (.fin 3) ∧ jnAdd (.fin 2) (.val (.int 2)) = .ok (.fin 4) := by
  have h := Num.pow10_mono (show 1 ≤ 1000000 by omega)
  rw [Num.pow10_one] at h
  refine ⟨?_, ?_⟩
  · have := C79_exact_partial 1 2 (.val (.int 2)) rfl ⟨3, 0, by rw [Num.pow10_zero]; decide +kernel, by decide, by omega⟩ (by
      have e : Num.mag (1 + 2) = 3 := by decide +kernel
      rw [e]; grind)
    rw [this]; decide +kernel
  · have := C79_exact_partial 2 2 (.val (.int 2)) rfl ⟨4, 0, by rw [Num.pow10_zero]; decide +kernel, by decide, by omega⟩ (by
      have e : Num.mag (2 + 2) = 4 := by decide +kernel
      rw [e]; grind)
    rw [this]; decide +kernel

/-- C79: adding something that is not a number raises `TypeError`. -/
theorem C79_non_numbers (n : Num) (o : Operand) (h : ¬ isNumber o) : jnAdd n o = .err .typeError := by
  cases o with
  | node x => cases x <;> simp_all [isNumber, Operand.num, jnAdd]
  | val x => cases x <;> simp_all [isNumber, Operand.num, jnAdd]

example : ¬ isNumber (.node (.str c!"1")) := by simp [isNumber]

theorem small_not_tooLarge (q : Rat) (h : Num.mag q ≤ 10 ^ 29) : ¬ TooLarge q := by
  intro hl
  unfold TooLarge at hl
  have h1 := Num.pow10_mono (show 28 ≤ 999972 by omega)
  rw [Num.pow10_28] at h1
  have h2 := Rat.mul_le_mul_of_nonneg_left h1 (show (0 : Rat) ≤ 10 ^ 28 - 1 / 2 by decide +kernel)
  have h3 : (10 ^ 29 : Rat) < (10 ^ 28 - 1 / 2) * 10 ^ 28 := by decide +kernel
  grind

theorem sum_small (p q r : Rat) (h0 : p + q ≠ 0) (hm : Num.mag (p + q) ≤ 10 ^ 29) (hr : Num.rounded (p + q) = r) :
    jnAdd (.fin p) (.node (.num (.fin q))) = .ok (.fin r) := by
  obtain ⟨t, ht, _, hu⟩ := (C79_sum p q (.node (.num (.fin q))) rfl).2 (small_not_tooLarge _ hm)
  rw [ht, ← hu _ (Num.rounded_spec h0), hr]

/-- C79 fails for sums of more than 28 digits: 10^28 + 1 is 10^28. -/
theorem C79_exact_violated : jnAdd (.fin (10 ^ 28)) (.node (.num (.fin 1))) = .ok (.fin (10 ^ 28)) ∧ (10 ^ 28 + 1 : Rat) ≠ 10 ^ 28 := by
  exact ⟨sum_small _ _ _ (by decide +kernel) (by decide +kernel) (by decide +kernel), by decide +kernel⟩

/-- C79 fails: adding is not associative. -/
theorem C79_associative_violated : ∃ a b c ab bc l r : Num, jnAdd a (.node (.num b)) = .ok ab ∧ jnAdd ab (.node (.num c)) = .ok l ∧
    jnAdd b (.node (.num c)) = .ok bc ∧ jnAdd a (.node (.num bc)) = .ok r ∧ l ≠ r := by
  refine ⟨.fin (10 ^ 28), .fin 5, .fin 5, .fin (10 ^ 28), .fin 10, .fin (10 ^ 28), .fin (10 ^ 28 + 10), ?_, ?_, ?_, ?_, by decide +kernel⟩ <;>
    exact sum_small _ _ _ (by decide +kernel) (by decide +kernel) (by decide +kernel)

/-- C79 fails with a plain number on the left: `1 + JsonNumber(2)` raises `TypeError`, though `JsonNumber(2) + 1` is 3. -/
theorem C79_left_violated : (∀ v n, pyAdd (.val v) n = .err .typeError) ∧ jnAdd (.fin 2) (.val (.int 1)) = .ok (.fin 3) := by
  refine ⟨fun _ _ => rfl, ?_⟩
  have := sum_small 2 1 3 (by decide +kernel) (by decide +kernel) (by decide +kernel)
  exact this

/-! ## C80 -/

/-- C80: `int(number)` drops the digits after the point; of NaN and of infinities it raises. -/
theorem C80_int : (∀ q : Rat, ∃ k : Int, jnInt (.fin q) = .ok k ∧ Num.mag k ≤ Num.mag q ∧ Num.mag (q - k) < 1 ∧ 0 ≤ k * q) ∧
    (∀ s, jnInt (.inf s) = .err .overflowError) ∧ jnInt .nan = .err .valueError := by
  refine ⟨fun q => ⟨truncate q, toInt_eq q, ?_⟩, fun _ => rfl, rfl⟩
  unfold truncate
  split
  · next h =>
    have h1 := Rat.floor_le q
    have h2 := Rat.lt_floor_add_one q
    rw [Rat.intCast_add] at h2
    have h3 : (0 : Int) ≤ q.floor := Rat.le_floor_iff.2 (by simpa using h)
    have h4 : (0 : Rat) ≤ (q.floor : Rat) := by exact_mod_cast h3
    refine ⟨?_, ?_, Rat.mul_nonneg h4 h⟩
    · unfold Num.mag; split <;> split <;> grind
    · unfold Num.mag; split <;> grind
  · next h =>
    have h0 : 0 ≤ -q := by grind
    have h1 := Rat.floor_le (-q)
    have h2 := Rat.lt_floor_add_one (-q)
    rw [Rat.intCast_add] at h2
    have h3 : (0 : Int) ≤ (-q).floor := Rat.le_floor_iff.2 (by simpa using h0)
    have h4 : (0 : Rat) ≤ ((-q).floor : Rat) := by exact_mod_cast h3
    rw [Rat.ceil_eq_neg_floor_neg, Rat.intCast_neg]
    refine ⟨?_, ?_, ?_⟩
    · unfold Num.mag; split <;> split <;> grind
    · unfold Num.mag; split <;> grind
    · have := Rat.mul_nonneg h4 h0
      grind

example : jnInt (.fin (-7 / 2)) = .ok (-3) := by decide +kernel

end Verif.Props
