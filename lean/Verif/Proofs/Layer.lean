import Verif.Proofs.Satisfies
import Verif.Props.Scalar
import Verif.Props.Enum
import Verif.Props.Applicators
/-! # One object schema: each keyword group judges as `Layer` says -/

namespace Verif
open Verif.Props

theorem jsonTypes_cases {v : Val} {t : Str} (h : t ∈ jsonTypesOf v) :
    t ∈ typeNamesOf v ∨ t = c!"integer" ∧ c!"number" ∈ typeNamesOf v := by
  unfold jsonTypesOf at h
  rcases List.mem_append.1 h with h | h
  · exact .inl h
  · right
    split at h
    · split at h <;> simp_all [typeNamesOf]
    · split at h <;> simp_all [typeNamesOf]
    · simp at h

theorem schemaTypeNames_strs (ts : List Str) : schemaTypeNames (.arr (ts.map .str)) = ts := by
  simp only [schemaTypeNames]
  induction ts with
  | nil => rfl
  | cons t ts ih => rw [List.map_cons, List.filterMap_cons]; simp only [ih]

theorem truncate_int (k : Int) : truncate (k : Rat) = k := by
  unfold truncate; split <;> simp

theorem rat_lt_iff (p q : Rat) : p < q ↔ p ≤ q ∧ p ≠ q := Rat.lt_iff_le_and_ne

theorem int_le_rat (k : Int) (n : Nat) : k ≤ (n : Int) ↔ (k : Rat) ≤ (n : Rat) := by
  rw [← Rat.intCast_natCast, Rat.intCast_le_intCast]
theorem nat_le_rat (k : Int) (n : Nat) : (n : Int) ≤ k ↔ (n : Rat) ≤ (k : Rat) := by
  rw [← Rat.intCast_natCast, Rat.intCast_le_intCast]

section
variable {w : World} {docs : List Doc} {voc : List Kw} {f : Nat} {its : List (Str × Node)} {v : Val} {ctx : Ctx}
  {fit sat : Node → Val → Prop}

set_option quotPrecheck false in
local notation "R" G => validateN w docs voc (f + 3) (Node.obj (List.filter (fun p => decide (p.1 ∈ G)) its)) v ctx

theorem j_type (hr : Recog voc its) (hc : CtxOk ctx) (F : FitLayer w fit sat its v) :
    Judges (R [c!"type"]) (∀ n, dictGet c!"type" its = some n → ∃ t ∈ schemaTypeNames n, t ∈ jsonTypesOf v) := by
  refine judge_one hr .type c!"type" rfl rfl _ (fun h => by simp [h]) fun n hn itsG ho hg => ?_
  obtain ⟨ts, hts, hn', hint⟩ := F.type n hn
  have hT : TypeNames itsG ts := by
    rcases hn' with rfl | ⟨t, rfl, rfl⟩
    · exact .inr hg
    · exact .inl ⟨t, rfl, hg⟩
  have hS : schemaTypeNames n = ts := by
    rcases hn' with rfl | ⟨t, rfl, rfl⟩
    · exact schemaTypeNames_strs ts
    · rfl
  rw [C14_type w docs voc (f + 1) itsG v ctx hc ho ts hT hts]
  refine Judges.ite.congr ?_
  simp only [hn, Option.some.injEq, forall_eq', hS]
  constructor
  · rintro ⟨t, ht, h⟩; exact ⟨t, ht, by simp [jsonTypesOf, h]⟩
  · rintro ⟨t, ht, h⟩
    rcases jsonTypes_cases h with h' | ⟨rfl, h'⟩
    · exact ⟨t, ht, h'⟩
    · rcases hint ht h with h2 | h2
      · exact ⟨_, ht, h2⟩
      · exact ⟨_, h2, h'⟩

open Classical in
theorem j_enum (hr : Recog voc its) (hc : CtxOk ctx) (F : FitLayer w fit sat its v) :
    Judges (R [c!"enum"]) (∀ xs, dictGet c!"enum" its = some (.arr xs) → ∃ x ∈ xs, SameJson x v) := by
  refine judge_one hr .enum c!"enum" rfl rfl _ (fun h => by simp [h]) fun n hn itsG ho hg => ?_
  obtain ⟨xs, rfl, hs⟩ := F.enum n hn
  rw [C84_enum_partial w docs voc (f + 1) itsG v ctx hc ho xs hg hs]
  exact Judges.ite.congr (by simp [hn])

theorem j_const (hr : Recog voc its) (hc : CtxOk ctx) (F : FitLayer w fit sat its v) :
    Judges (R [c!"const"]) (∀ x, dictGet c!"const" its = some x → SameJson x v) := by
  refine judge_one hr .const c!"const" rfl rfl _ (fun h => by simp [h]) fun n hn itsG ho hg => ?_
  rw [C16_const w docs voc (f + 1) itsG v ctx hc ho n hg (F.const n hn)]
  exact Judges.ite.congr (by simp [hn, sameJson_scalar (F.const n hn)])

theorem numVal_exact {q : Rat} (h : numVal v = some q) : exactVal v = some q := by
  cases v <;> simp_all [numVal, exactVal] <;> rename_i x <;> cases x <;> simp_all

theorem j_maximum (hr : Recog voc its) (hc : CtxOk ctx) (F : FitLayer w fit sat its v) :
    Judges (R [c!"maximum", c!"exclusiveMaximum"])
      ((∀ q m, numVal v = some q → dictGet c!"maximum" its = some (.num (.fin m)) →
        q ≤ m ∧ (dictGet c!"exclusiveMaximum" its = some (.bool true) → q ≠ m)) ∧
      ∀ q m, numVal v = some q → dictGet c!"exclusiveMaximum" its = some (.num (.fin m)) → q < m) := by
  have gM := get_group (its := its) (G := [c!"maximum", c!"exclusiveMaximum"]) (s := c!"maximum") (by simp)
  have gE := get_group (its := its) (G := [c!"maximum", c!"exclusiveMaximum"]) (s := c!"exclusiveMaximum") (by simp)
  have honly : ∀ k, Present voc (its.filter fun p => p.1 ∈ [c!"maximum", c!"exclusiveMaximum"]) k →
      k = .maximum ∨ k = .exclusiveMaximum := by
    intro k hk
    have := (has_group hk.2.2).1
    revert this; cases k <;> simp [Kw.key, Kw.keys]
  have hrG := hr.group [c!"maximum", c!"exclusiveMaximum"]
  by_cases hnone : dictGet c!"maximum" its = none ∧ dictGet c!"exclusiveMaximum" its = none
  · refine .ok (none_present _ _ _ _ _ _ _ fun k hk ha => ?_) (by simp [hnone])
    cases hh : dictHas k.key (its.filter fun p => p.1 ∈ [c!"maximum", c!"exclusiveMaximum"]) with
    | false => rfl
    | true =>
      have h2 := (has_group hh).2
      rcases honly k ⟨hk, ha, hh⟩ with rfl | rfl
      · simp [dictHas, Kw.key, Kw.keys, hnone.1] at h2
      · simp [dictHas, Kw.key, Kw.keys, hnone.2] at h2
  · obtain ⟨q, hq, _⟩ : PlainNumber v := by
      cases h1 : dictGet c!"maximum" its with
      | some n => exact (F.maximum n h1).2
      | none =>
        cases h2 : dictGet c!"exclusiveMaximum" its with
        | some n => exact (F.exclusiveMaximum n h2).1
        | none => exact absurd ⟨h1, h2⟩ hnone
    obtain ⟨mx, hmx⟩ : ∃ mx : Option Rat, dictGet c!"maximum" its = mx.map fun m => .num (.fin m) := by
      cases h1 : dictGet c!"maximum" its with
      | none => exact ⟨none, rfl⟩
      | some n => obtain ⟨⟨m, rfl⟩, _⟩ := F.maximum n h1; exact ⟨some m, rfl⟩
    obtain ⟨ex, hex, hb, hone⟩ : ∃ ex : Option (Bool ⊕ Rat), dictGet c!"exclusiveMaximum" its = ex.map exclNode ∧
        (∀ b, ex = some (.inl b) → dictGet c!"maximum" its ≠ none) ∧
        (ex = some (.inr 1) → dictGet c!"maximum" its = none) := by
      cases h1 : dictGet c!"exclusiveMaximum" its with
      | none => exact ⟨none, rfl, by simp, by simp⟩
      | some n =>
        rcases (F.exclusiveMaximum n h1).2 with ⟨⟨b, rfl⟩, h⟩ | ⟨m, rfl, h⟩
        · exact ⟨some (.inl b), rfl, fun _ _ => h, by simp⟩
        · exact ⟨some (.inr m), rfl, by simp, by simpa using h⟩
    have hU : UpperSchema voc (its.filter fun p => p.1 ∈ [c!"maximum", c!"exclusiveMaximum"]) mx ex :=
      ⟨fun h => hrG .maximum rfl h, fun h => hrG .exclusiveMaximum rfl h, honly, gM.trans hmx, gE.trans hex,
        fun b h => by have := hb b h; rw [hmx] at this; cases mx <;> simp_all,
        fun h => by have := hone h; rw [hmx] at this; cases mx <;> simp_all⟩
    have key := C17_maximum_partial w docs voc (f + 1) _ v ctx hc mx ex hU q (numVal_exact hq)
    refine (Judges.of key.1 key.2).congr ?_
    simp only [UpperOk, hq, hmx, hex, Option.some.injEq, forall_eq']
    cases mx <;> rcases ex with _ | (_ | _) | x <;> simp [exclNode, rat_lt_iff]

theorem j_minimum (hr : Recog voc its) (hc : CtxOk ctx) (F : FitLayer w fit sat its v) :
    Judges (R [c!"minimum", c!"exclusiveMinimum"])
      ((∀ q m, numVal v = some q → dictGet c!"minimum" its = some (.num (.fin m)) →
        m ≤ q ∧ (dictGet c!"exclusiveMinimum" its = some (.bool true) → m ≠ q)) ∧
      ∀ q m, numVal v = some q → dictGet c!"exclusiveMinimum" its = some (.num (.fin m)) → m < q) := by
  have gM := get_group (its := its) (G := [c!"minimum", c!"exclusiveMinimum"]) (s := c!"minimum") (by simp)
  have gE := get_group (its := its) (G := [c!"minimum", c!"exclusiveMinimum"]) (s := c!"exclusiveMinimum") (by simp)
  have honly : ∀ k, Present voc (its.filter fun p => p.1 ∈ [c!"minimum", c!"exclusiveMinimum"]) k →
      k = .minimum ∨ k = .exclusiveMinimum := by
    intro k hk
    have := (has_group hk.2.2).1
    revert this; cases k <;> simp [Kw.key, Kw.keys]
  have hrG := hr.group [c!"minimum", c!"exclusiveMinimum"]
  by_cases hnone : dictGet c!"minimum" its = none ∧ dictGet c!"exclusiveMinimum" its = none
  · refine .ok (none_present _ _ _ _ _ _ _ fun k hk ha => ?_) (by simp [hnone])
    cases hh : dictHas k.key (its.filter fun p => p.1 ∈ [c!"minimum", c!"exclusiveMinimum"]) with
    | false => rfl
    | true =>
      have h2 := (has_group hh).2
      rcases honly k ⟨hk, ha, hh⟩ with rfl | rfl
      · simp [dictHas, Kw.key, Kw.keys, hnone.1] at h2
      · simp [dictHas, Kw.key, Kw.keys, hnone.2] at h2
  · obtain ⟨q, hq, _⟩ : PlainNumber v := by
      cases h1 : dictGet c!"minimum" its with
      | some n => exact (F.minimum n h1).2
      | none =>
        cases h2 : dictGet c!"exclusiveMinimum" its with
        | some n => exact (F.exclusiveMinimum n h2).1
        | none => exact absurd ⟨h1, h2⟩ hnone
    obtain ⟨mx, hmx⟩ : ∃ mx : Option Rat, dictGet c!"minimum" its = mx.map fun m => .num (.fin m) := by
      cases h1 : dictGet c!"minimum" its with
      | none => exact ⟨none, rfl⟩
      | some n => obtain ⟨⟨m, rfl⟩, _⟩ := F.minimum n h1; exact ⟨some m, rfl⟩
    obtain ⟨ex, hex, hb, hone⟩ : ∃ ex : Option (Bool ⊕ Rat), dictGet c!"exclusiveMinimum" its = ex.map exclNode ∧
        (∀ b, ex = some (.inl b) → dictGet c!"minimum" its ≠ none) ∧
        (ex = some (.inr 1) → dictGet c!"minimum" its = none) := by
      cases h1 : dictGet c!"exclusiveMinimum" its with
      | none => exact ⟨none, rfl, by simp, by simp⟩
      | some n =>
        rcases (F.exclusiveMinimum n h1).2 with ⟨⟨b, rfl⟩, h⟩ | ⟨m, rfl, h⟩
        · exact ⟨some (.inl b), rfl, fun _ _ => h, by simp⟩
        · exact ⟨some (.inr m), rfl, by simp, by simpa using h⟩
    have hU : LowerSchema voc (its.filter fun p => p.1 ∈ [c!"minimum", c!"exclusiveMinimum"]) mx ex :=
      ⟨fun h => hrG .minimum rfl h, fun h => hrG .exclusiveMinimum rfl h, honly, gM.trans hmx, gE.trans hex,
        fun b h => by have := hb b h; rw [hmx] at this; cases mx <;> simp_all,
        fun h => by have := hone h; rw [hmx] at this; cases mx <;> simp_all⟩
    have key := C17_minimum_partial w docs voc (f + 1) _ v ctx hc mx ex hU q (numVal_exact hq)
    refine (Judges.of key.1 key.2).congr ?_
    simp only [LowerOk, hq, hmx, hex, Option.some.injEq, forall_eq']
    cases mx <;> rcases ex with _ | (_ | _) | x <;> simp [exclNode, rat_lt_iff]

theorem j_multipleOf (hr : Recog voc its) (hc : CtxOk ctx) (F : FitLayer w fit sat its v) :
    Judges (R [c!"multipleOf"]) (∀ q m, numVal v = some q → dictGet c!"multipleOf" its = some (.num (.fin m)) →
      ∃ k : Int, q = m * k) := by
  refine judge_one hr .multipleOf c!"multipleOf" rfl rfl _ (fun h => by simp [h]) fun n hn itsG ho hg => ?_
  obtain ⟨m, q, rfl, hm, hq, hp, h1, h2, h3, h4, h5⟩ := F.multipleOf n hn
  have key := C18_multipleOf_partial w docs voc (f + 1) itsG v ctx hc ho m q hg hm hp h1 h2 h3 h4 h5
  exact (Judges.of key.1 key.2).congr (by simp [hn, hq])

theorem j_minLength (hr : Recog voc its) (hc : CtxOk ctx) (F : FitLayer w fit sat its v) :
    Judges (R [c!"minLength"]) (∀ s m, v = .str s → dictGet c!"minLength" its = some (.num (.fin m)) → m ≤ s.length) := by
  refine judge_one hr .minLength c!"minLength" rfl rfl _ (fun h => by simp [h]) fun n hn itsG ho hg => ?_
  obtain ⟨⟨k, rfl⟩, s, rfl⟩ := F.minLength n hn
  rw [C19_minLength w docs voc (f + 1) itsG ctx hc ho k s hg]
  refine Judges.ite.congr ?_
  rw [truncate_int, int_le_rat]
  constructor
  · intro h t m e e'
    cases e; rw [hn] at e'; cases e'; exact h
  · intro h; exact h s k rfl hn

theorem j_maxLength (hr : Recog voc its) (hc : CtxOk ctx) (F : FitLayer w fit sat its v) :
    Judges (R [c!"maxLength"]) (∀ s m, v = .str s → dictGet c!"maxLength" its = some (.num (.fin m)) → (s.length : Rat) ≤ m) := by
  refine judge_one hr .maxLength c!"maxLength" rfl rfl _ (fun h => by simp [h]) fun n hn itsG ho hg => ?_
  obtain ⟨⟨k, rfl⟩, s, rfl⟩ := F.maxLength n hn
  rw [C19_maxLength w docs voc (f + 1) itsG ctx hc ho k s hg]
  refine Judges.ite.congr ?_
  rw [truncate_int, nat_le_rat]
  constructor
  · intro h t m e e'
    cases e; rw [hn] at e'; cases e'; exact h
  · intro h; exact h s k rfl hn

theorem j_minItems (hr : Recog voc its) (hc : CtxOk ctx) (F : FitLayer w fit sat its v) :
    Judges (R [c!"minItems"]) (∀ xs m, v = .list xs → dictGet c!"minItems" its = some (.num (.fin m)) → m ≤ xs.length) := by
  refine judge_one hr .minItems c!"minItems" rfl rfl _ (fun h => by simp [h]) fun n hn itsG ho hg => ?_
  obtain ⟨⟨k, rfl⟩, s, rfl⟩ := F.minItems n hn
  rw [C20_minItems w docs voc (f + 1) itsG ctx hc ho k s hg]
  refine Judges.ite.congr ?_
  rw [truncate_int, int_le_rat]
  constructor
  · intro h t m e e'
    cases e; rw [hn] at e'; cases e'; exact h
  · intro h; exact h s k rfl hn

theorem j_maxItems (hr : Recog voc its) (hc : CtxOk ctx) (F : FitLayer w fit sat its v) :
    Judges (R [c!"maxItems"]) (∀ xs m, v = .list xs → dictGet c!"maxItems" its = some (.num (.fin m)) → (xs.length : Rat) ≤ m) := by
  refine judge_one hr .maxItems c!"maxItems" rfl rfl _ (fun h => by simp [h]) fun n hn itsG ho hg => ?_
  obtain ⟨⟨k, rfl⟩, s, rfl⟩ := F.maxItems n hn
  rw [C20_maxItems w docs voc (f + 1) itsG ctx hc ho k s hg]
  refine Judges.ite.congr ?_
  rw [truncate_int, nat_le_rat]
  constructor
  · intro h t m e e'
    cases e; rw [hn] at e'; cases e'; exact h
  · intro h; exact h s k rfl hn

theorem j_minProperties (hr : Recog voc its) (hc : CtxOk ctx) (F : FitLayer w fit sat its v) :
    Judges (R [c!"minProperties"]) (∀ kvs m, v = .dict kvs → dictGet c!"minProperties" its = some (.num (.fin m)) → m ≤ kvs.length) := by
  refine judge_one hr .minProperties c!"minProperties" rfl rfl _ (fun h => by simp [h]) fun n hn itsG ho hg => ?_
  obtain ⟨⟨k, rfl⟩, s, rfl⟩ := F.minProperties n hn
  rw [C20_minProperties w docs voc (f + 1) itsG ctx hc ho k s hg]
  refine Judges.ite.congr ?_
  rw [truncate_int, int_le_rat]
  constructor
  · intro h t m e e'
    cases e; rw [hn] at e'; cases e'; exact h
  · intro h; exact h s k rfl hn

theorem j_maxProperties (hr : Recog voc its) (hc : CtxOk ctx) (F : FitLayer w fit sat its v) :
    Judges (R [c!"maxProperties"]) (∀ kvs m, v = .dict kvs → dictGet c!"maxProperties" its = some (.num (.fin m)) → (kvs.length : Rat) ≤ m) := by
  refine judge_one hr .maxProperties c!"maxProperties" rfl rfl _ (fun h => by simp [h]) fun n hn itsG ho hg => ?_
  obtain ⟨⟨k, rfl⟩, s, rfl⟩ := F.maxProperties n hn
  rw [C20_maxProperties w docs voc (f + 1) itsG ctx hc ho k s hg]
  refine Judges.ite.congr ?_
  rw [truncate_int, nat_le_rat]
  constructor
  · intro h t m e e'
    cases e; rw [hn] at e'; cases e'; exact h
  · intro h; exact h s k rfl hn

end

end Verif
