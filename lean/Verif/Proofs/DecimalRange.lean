import Verif.Py.DecimalText
import Verif.Spec.DecimalRange
/-! # The range of `Decimal(text)` -/

namespace Verif.Props
open Verif Verif.DecimalText

theorem zeros_split (ds : Str) : ∃ z, (∀ c ∈ z, c = '0') ∧ ds = z ++ ds.dropWhile (fun c => c == '0') ∧
    ∀ c, (ds.dropWhile fun c => c == '0').head? = some c → c ≠ '0' := by
  induction ds with
  | nil => exact ⟨[], by simp, rfl, by simp⟩
  | cons d ds ih =>
    by_cases h : d = '0'
    · obtain ⟨z, h1, h2, h3⟩ := ih
      subst h
      refine ⟨'0' :: z, fun c hc => ?_, ?_, ?_⟩
      · rcases List.mem_cons.1 hc with rfl | hc
        · rfl
        · exact h1 c hc
      · rw [List.dropWhile_cons_of_pos (by simp), List.cons_append, ← h2]
      · rw [List.dropWhile_cons_of_pos (by simp)]; exact h3
    · refine ⟨[], by simp, by rw [List.dropWhile_cons_of_neg (by simpa using h)]; rfl, ?_⟩
      rw [List.dropWhile_cons_of_neg (by simpa using h)]
      intro c hc
      simp at hc
      exact hc ▸ h

/-- The first digit that counts. -/
theorem coeff_first (ds : Str) (h : ds ≠ []) : ∃ z c r, ds = z ++ c :: r ∧ (c ≠ '0' ∨ r = []) ∧ coeffLen ds = r.length + 1 ∧
    ∀ z' c' r', ds = z' ++ c' :: r' → (c' ≠ '0' ∨ r' = []) → r'.length ≤ r.length := by
  obtain ⟨z, h1, h2, h3⟩ := zeros_split ds
  unfold coeffLen
  generalize ds.dropWhile (fun c => c == '0') = w at *
  cases w with
  | nil =>
    simp only [List.append_nil] at h2
    obtain ⟨a, c, e⟩ : ∃ a c, z = a ++ [c] := by
      rcases List.eq_nil_or_concat z with e | ⟨a, c, e⟩
      · exact absurd (h2.trans e) h
      · exact ⟨a, c, by simpa using e⟩
    refine ⟨a, c, [], by rw [h2, e], .inr rfl, by simp, fun z' c' r' e' hc => ?_⟩
    rcases hc with hc | hc
    · exact absurd (h1 c' (by rw [← h2, e']; simp)) hc
    · simp [hc]
  | cons c r =>
    refine ⟨z, c, r, h2, .inl (h3 c rfl), by simp, fun z' c' r' e' hc => ?_⟩
    rcases hc with hc | hc
    · rw [h2] at e'
      rcases List.append_eq_append_iff.1 e' with ⟨a, ha, hb⟩ | ⟨a, ha, hb⟩
      · have := congrArg List.length hb
        simp at this
        omega
      · cases a with
        | nil => simp at hb; rw [← hb.2]; exact Nat.le_refl _
        | cons y a =>
          rw [List.cons_append] at hb
          obtain ⟨e1, _⟩ := List.cons.inj hb
          exact absurd (h1 c' (by rw [ha, e1]; simp)) hc
    · simp [hc]

theorem fits_iff (i f : Str) (x : Int) (h : i ≠ [] ∨ f ≠ []) : fits i f x = true ↔ DecimalRange i f x := by
  have h' : i ++ f ≠ [] := by
    rcases h with h | h <;> simp [h]
  obtain ⟨z, c, r, e, hc, hl, hmax⟩ := coeff_first (i ++ f) h'
  unfold fits DecimalRange maxPrec maxEmax minEtiny
  simp only [Bool.and_eq_true, decide_eq_true_eq, hl]
  constructor
  · rintro ⟨⟨⟨h1, h2⟩, h3⟩, h4⟩
    refine ⟨by omega, h3, fun z' c' r' e' hc' => ?_⟩
    have := hmax z' c' r' e' hc'
    omega
  · rintro ⟨h1, h2, h3⟩
    have := h3 z c r e hc
    omega

end Verif.Props
