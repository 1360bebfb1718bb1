import Verif.Proofs.Scalars
import Verif.Proofs.Types
import Verif.Proofs.Dict
/-! # Lemmas for `enum` with arrays and objects -/

namespace Verif

theorem sameJson_scalar {x : Node} (hx : x.Scalar) (v : Val) : SameJson x v ↔ litEq x v = true := by
  refine ⟨fun h => ?_, .scalar⟩
  cases h with
  | scalar h => exact h
  | arr => exact hx.elim
  | obj => exact hx.elim

theorem litEq_composite {x : Node} {v : Val} (hx : ¬ x.Scalar) : litEq x v = false := by
  cases x with
  | arr | obj | ref => rfl
  | _ => exact absurd trivial hx

/-- What a comparison answers. -/
def Answers (r : Res Bool) (P : Prop) : Prop := ∃ b, r = .ok b ∧ (b = true ↔ P)

theorem Answers.true {P : Prop} (h : P) : Answers (.ok true) P := ⟨_, rfl, by simp [h]⟩
theorem Answers.false {P : Prop} (h : ¬ P) : Answers (.ok false) P := ⟨_, rfl, by simp [h]⟩

theorem listEq_answers (S : Node → Val → Prop) : ∀ (xs : List Node) (ys : List Val), xs.length = ys.length →
    (∀ (i : Nat) x y, xs[i]? = some x → ys[i]? = some y → Answers (nodeEqVal x y) (S x y)) →
    Answers (listEqVal xs ys) (∀ (i : Nat) x y, xs[i]? = some x → ys[i]? = some y → S x y)
  | [], _, _, _ => by rw [listEqVal]; exact .true (by simp)
  | _ :: _, [], h, _ => by simp at h
  | x :: xs, y :: ys, hl, h => by
    rw [listEqVal]
    obtain ⟨b, hb, hs⟩ := h 0 x y rfl rfl
    rw [hb, Res.ok_bind]
    cases b with
    | false => exact .false fun H => by simpa using hs.2 (H 0 x y rfl rfl)
    | true =>
      obtain ⟨c, hc, hr⟩ := listEq_answers S xs ys (by simpa using hl) fun i x y h1 h2 => h (i + 1) x y (by simpa using h1) (by simpa using h2)
      refine ⟨c, by simpa using hc, hr.trans ⟨fun H i a b h1 h2 => ?_, fun H i a b h1 h2 => H (i + 1) a b (by simpa using h1) (by simpa using h2)⟩⟩
      cases i with
      | zero => cases h1; cases h2; exact hs.1 rfl
      | succ i => exact H i a b (by simpa using h1) (by simpa using h2)

theorem dictEq_answers (S : Node → Val → Prop) (kws : List (Str × Val)) : ∀ (kvs : List (Str × Node)),
    (∀ k x, (k, x) ∈ kvs → ∀ y, dictGet k kws = some y → Answers (nodeEqVal x y) (S x y)) →
    Answers (dictEqVal kvs kws) (∀ k x, (k, x) ∈ kvs → ∃ y, dictGet k kws = some y ∧ S x y)
  | [], _ => by rw [dictEqVal]; exact .true (by simp)
  | (k, x) :: kvs, h => by
    rw [dictEqVal]
    cases hk : dictGet k kws with
    | none => exact .false fun H => by obtain ⟨y, h1, _⟩ := H k x (by simp); rw [hk] at h1; cases h1
    | some y =>
      obtain ⟨b, hb, hs⟩ := h k x (by simp) y hk
      simp only [hb, Res.ok_bind]
      cases b with
      | false =>
        refine .false fun H => ?_
        obtain ⟨z, h1, h2⟩ := H k x (by simp)
        rw [hk] at h1; cases h1; simpa using hs.2 h2
      | true =>
        obtain ⟨c, hc, hr⟩ := dictEq_answers S kws kvs fun k x hx => h k x (by simp [hx])
        refine ⟨c, by simpa using hc, hr.trans ⟨fun H k' x' hx => ?_, fun H k' x' hx => H k' x' (by simp [hx])⟩⟩
        rcases List.mem_cons.1 hx with e | e
        · cases e; exact ⟨y, hk, hs.1 rfl⟩
        · exact H k' x' e

/-- Comparable data are compared as JSON. -/
theorem eqVal_answers {x : Node} {v : Val} (h : Comparable x v) : Answers (nodeEqVal x v) (SameJson x v) := by
  induction h with
  | null v => rw [sameJson_scalar (by trivial)]; cases v <;> (simp only [nodeEqVal]; refine ⟨_, rfl, ?_⟩; simp [litEq])
  | str s v => rw [sameJson_scalar (by trivial)]; cases v <;> (simp only [nodeEqVal]; refine ⟨_, rfl, ?_⟩; simp [litEq])
  | bool b c => rw [nodeEqVal, sameJson_scalar (by trivial)]; refine ⟨_, rfl, ?_⟩; simp [litEq]
  | int n i => rw [nodeEqVal, sameJson_scalar (by trivial)]; refine ⟨_, rfl, ?_⟩; cases n <;> simp [litEq, Num.eq]
  | dec n m => rw [nodeEqVal, sameJson_scalar (by trivial)]; refine ⟨_, rfl, ?_⟩; cases n <;> cases m <;> simp [litEq, Num.eq]
  | flt n x h =>
    rw [nodeEqVal, sameJson_scalar (by trivial), ← h]
    refine ⟨_, rfl, ?_⟩; cases n <;> cases x <;> simp [litEq, Num.eq, Flt.exactNum]
  | arr xs v _ ih =>
    have hne : ∀ ys, v = .list ys → ¬ xs.length = ys.length → ¬ SameJson (.arr xs) v := by
      rintro ys rfl hl H
      cases H with
      | scalar h => cases h
      | arr _ _ hl' => exact hl hl'
    cases v with
    | list ys =>
      simp only [nodeEqVal]
      split
      · next hl =>
        obtain ⟨b, hb, hs⟩ := listEq_answers SameJson xs ys hl (ih ys rfl hl)
        refine ⟨b, hb, hs.trans ⟨fun H => .arr _ _ hl H, fun H => ?_⟩⟩
        cases H with
        | scalar h => cases h
        | arr _ _ _ h => exact h
      · next hl => exact .false (hne ys rfl hl)
    | _ =>
      simp only [nodeEqVal]
      refine .false fun H => ?_
      cases H with
      | scalar h => cases h
  | obj kvs v hn hd _ ih =>
    cases v with
    | dict kws =>
      simp only [nodeEqVal]
      have hd' := hd kws rfl
      split
      · next hl =>
        obtain ⟨b, hb, hs⟩ := dictEq_answers SameJson kws kvs fun k x hx y hy => ih kws rfl k x y (dictGet_of_mem hn hx) hy
        refine ⟨b, hb, hs.trans ⟨fun H => ?_, fun H => ?_⟩⟩
        · have sub : ∀ k ∈ kvs.map Prod.fst, k ∈ kws.map Prod.fst := by
            intro k hk
            obtain ⟨⟨k', x⟩, hx, rfl⟩ := List.mem_map.1 hk
            obtain ⟨y, hy, _⟩ := H k' x hx
            exact List.mem_map.2 ⟨_, dictGet_mem hy, rfl⟩
          have sup := subset_of_length hn sub (by simp [hl])
          refine .obj _ _ (fun k => ?_) fun k x y h1 h2 => ?_
          · rw [Bool.eq_iff_iff, dictHas_iff, dictHas_iff]
            exact ⟨sub k, sup k⟩
          · obtain ⟨z, h3, h4⟩ := H k x (dictGet_mem h1)
            rw [h2] at h3; cases h3; exact h4
        · cases H with
          | scalar h => cases h
          | obj _ _ hk h =>
            intro k x hx
            have : dictHas k kws = true := by rw [← hk k, dictHas_iff]; exact List.mem_map.2 ⟨_, hx, rfl⟩
            obtain ⟨y, hy⟩ := Option.isSome_iff_exists.1 this
            exact ⟨y, hy, h k x y (dictGet_of_mem hn hx) hy⟩
      · next hl =>
        refine .false fun H => hl ?_
        cases H with
        | scalar h => cases h
        | obj _ _ hk _ =>
          have e : ∀ k, k ∈ kvs.map Prod.fst ↔ k ∈ kws.map Prod.fst := by
            intro k
            rw [← dictHas_iff, ← dictHas_iff, hk k]
          have h1 := hn.length_le_of_subset fun k hk => (e k).1 hk
          have h2 := hd'.length_le_of_subset fun k hk => (e k).2 hk
          simp only [List.length_map] at h1 h2
          omega
    | _ =>
      simp only [nodeEqVal]
      refine .false fun H => ?_
      cases H with
      | scalar h => cases h

/-- A member of `enum` that can be compared with a value: a scalar, or a composite that is comparable. -/
theorem rawEq_answers {x : Node} {v : Val} (h : x.Scalar ∨ Comparable x v) :
    ∃ b, rawEqVal x v = .ok b ∧ (SameJson x v ↔ b = true ∧ x.isBool = v.isBool) := by
  by_cases hx : x.Scalar
  · obtain ⟨b, hb⟩ := rawEqVal_total x hx v
    refine ⟨b, hb, ?_⟩
    rw [sameJson_scalar hx, litEq_spec x hx v, hb]; simp
  · obtain ⟨b, hb, hs⟩ := eqVal_answers (h.resolve_left hx)
    have e : rawEqVal x v = nodeEqVal x v := by
      cases x with
      | arr | obj | ref => rfl
      | _ => exact absurd trivial hx
    have hb' : SameJson x v → x.isBool = v.isBool := by
      intro H
      cases H with
      | scalar h => rw [litEq_composite hx] at h; cases h
      | _ => rfl
    exact ⟨b, e.trans hb, by rw [hs]; exact ⟨fun h => ⟨h, hb' h⟩, fun h => h.1⟩⟩

open Classical in
theorem runEnum_all (v : Val) (ctx : Ctx) (xs : List Node) (h : ∀ x ∈ xs, x.Scalar ∨ Comparable x v) :
    runEnum xs v ctx = if ∃ x ∈ xs, SameJson x v then .ok () else .err (raiseErr .enumError ctx.path) := by
  have loop : enumLoop v ctx xs = if ∃ x ∈ xs, SameJson x v then .ok () else .err (raiseErr .enumError ctx.path) := by
    induction xs with
    | nil => simp [enumLoop]
    | cons x xs ih =>
      have ih' := ih fun y hy => h y (by simp [hy])
      obtain ⟨b, hb, hs⟩ := rawEq_answers (h x (by simp))
      rw [enumLoop, hb]
      simp only [List.mem_cons, exists_eq_or_imp, hs]
      cases b <;> cases hx : x.isBool <;> cases hv : v.isBool <;> simp_all
  unfold runEnum
  by_cases h1 : (v.isBool && !(xs.any Node.isBool)) = true
  · rw [if_pos h1, if_neg]
    rintro ⟨x, hx, hs⟩
    obtain ⟨b, _, hs'⟩ := rawEq_answers (h x hx)
    simp only [Bool.and_eq_true, Bool.not_eq_true', List.any_eq_false] at h1
    have := (hs'.1 hs).2
    rw [h1.1] at this; exact h1.2 x hx this
  · rw [if_neg h1]
    by_cases h2 : ((xs.any Node.isBool && eqNat v 1) || eqNat v 0) = true
    · rw [if_pos h2, loop]
    · rw [if_neg h2]
      have hv : v.isBool = false := by
        cases v with
        | bool b => cases b <;> simp_all [eqNat, Val.num?, Num.eq, Val.isBool]
        | _ => rfl
      have hx : ∀ x ∈ xs, x.isBool = true → rawEqVal x v = .ok false := by
        intro x hx hb
        have hany : xs.any Node.isBool = true := List.any_eq_true.2 ⟨x, hx, hb⟩
        rw [hany] at h2
        cases x with
        | bool b =>
          simp only [rawEqVal, Res.ok.injEq, numEqVal]
          simp only [eqNat, Bool.true_and, Bool.or_eq_true, not_or, Bool.not_eq_true] at h2
          cases hn : v.num? with
          | none => rfl
          | some m =>
            rw [hn] at h2
            cases m with
            | fin q =>
              simp only [Num.eq, decide_eq_false_iff_not] at h2 ⊢
              intro e; subst e; cases b <;> simp at h2
            | _ => rfl
        | _ => simp [Node.isBool] at hb
      have inn : enumIn v xs = .ok (decide (∃ x ∈ xs, SameJson x v)) := by
        clear loop h1 h2
        induction xs with
        | nil => simp [enumIn]
        | cons x xs ih =>
          have ih' := ih (fun y hy => h y (by simp [hy])) fun y hy => hx y (by simp [hy])
          obtain ⟨b, hb, hs⟩ := rawEq_answers (h x (by simp))
          have hx' := hx x (by simp)
          rw [hb] at hx'
          rw [enumIn, hb]
          simp only [List.mem_cons, exists_eq_or_imp, hs]
          cases b <;> cases hxb : x.isBool <;> simp_all
      simp only [inn, Res.ok_bind]
      by_cases hp : ∃ x ∈ xs, SameJson x v <;> simp [hp]

end Verif
