import Verif.Proofs.Complaint
import Verif.Proofs.Scalars
import Verif.Proofs.Formats
/-!
# What the validators complain about (C98)
-/

namespace Verif.Spec
open Verif Props

theorem raiseErr_eq {c : ErrClass} {p d : Str} {e : VErr} (h : raiseErr c p d = .validation e) : e = ⟨c.code, p, d⟩ := by
  unfold raiseErr at h
  split at h
  · rename_i e' he
    exact absurd (h ▸ he) (fmtGo_val _ _ _ e)
  · simp at h; exact h.symm

theorem typeNoPath_eq {e : VErr} (h : raiseTypeNoPath = .validation e) : e = ⟨c!"type_error", [], []⟩ := by
  unfold raiseTypeNoPath at h
  split at h
  · rename_i e' he
    exact absurd (h ▸ he) (fmtGo_val _ _ _ e)
  · simp at h; exact h.symm

theorem attempt_none {r : Res Unit} (h : attempt r = .ok none) : r = .ok () := by
  unfold attempt at h
  split at h <;> simp_all

theorem lt_before {a b : Num} (h : a.lt b = .ok true) : NumBefore a b := by
  cases a <;> cases b <;> simp [Num.lt] at h
  · exact .fin _ _ h
  · subst h; exact .high _
  · subst h; exact .low _
  · obtain ⟨rfl, rfl⟩ := h; exact .ends

theorem le_before {a b : Num} (h : a.le b = .ok true) : NumBefore a b ∨ a = b := by
  cases a <;> cases b <;> simp [Num.le] at h
  · rename_i p q
    by_cases e : p = q
    · exact .inr (by rw [e])
    · exact .inl (.fin _ _ (by grind))
  · subst h; exact .inl (.high _)
  · subst h; exact .inl (.low _)
  · rename_i s t
    cases s <;> cases t <;> simp at h
    · exact .inr rfl
    · exact .inl .ends
    · exact .inr rfl

theorem before_trunc {l : Nat} {m : Rat} (h : (l : Int) < m.num.tdiv m.den) : (l : Rat) < m := by
  rw [trunc_eq, truncate] at h
  split at h
  · rename_i h0
    have h1 := Rat.floor_le m
    have h2 : (((l : Int) : Rat)) < (m.floor : Rat) := by exact_mod_cast h
    have h3 : ((l : Int) : Rat) = (l : Rat) := rfl
    grind
  · rename_i h0
    have h1 : m.ceil ≤ 0 := by
      rw [Rat.ceil_eq_neg_floor_neg]
      have : (0 : Int) ≤ (-m).floor := Rat.le_floor_iff.2 (by simp; grind)
      omega
    omega

theorem trunc_before {l : Nat} {m : Rat} (h : m.num.tdiv m.den < (l : Int)) : m < (l : Rat) := by
  have h3 : ((l : Int) : Rat) = (l : Rat) := rfl
  rw [trunc_eq, truncate] at h
  split at h
  · rename_i h0
    have h1 := Rat.lt_floor (x := m)
    have h2 : ((m.floor + 1 : Int) : Rat) ≤ ((l : Int) : Rat) := by exact_mod_cast h
    simp only [Rat.intCast_add] at h2
    grind
  · rename_i h0
    have : (0 : Rat) ≤ (l : Rat) := by rw [← h3]; exact_mod_cast Int.natCast_nonneg l
    grind

section
variable {w : World} {v : Val} {ctx : Ctx} {e : VErr}

theorem enum_says {xs : List Node} (h : runEnum xs v ctx = .err (.validation e)) :
    e = ⟨c!"enum_error", ctx.path, []⟩ ∧ ∀ x ∈ xs, x.Scalar ∨ Comparable x v → ¬ SameJson x v := by
  have hl : ∀ xs, enumLoop v ctx xs = .err (.validation e) →
      e = ⟨c!"enum_error", ctx.path, []⟩ ∧ ∀ x ∈ xs, x.Scalar ∨ Comparable x v → ¬ SameJson x v := by
    intro xs
    induction xs with
    | nil => intro h; exact ⟨raiseErr_eq (by simpa [enumLoop] using h), by simp⟩
    | cons x xs ih =>
      intro h
      rcases bind_err.1 h with h | ⟨b, hb, h⟩
      · exact absurd h (rawEqVal_noVal _ _ e)
      · have key : enumLoop v ctx xs = .err (.validation e) ∧ ¬ (b = true ∧ x.isBool = v.isBool) := by
          cases b
          · exact ⟨by simpa using h, by simp⟩
          · simp only [if_true] at h
            cases hx : x.isBool <;> cases hv : v.isBool <;> simp [hx, hv] at h ⊢ <;> exact h
        obtain ⟨he, hr⟩ := ih key.1
        refine ⟨he, fun y hy hc hs => ?_⟩
        rcases List.mem_cons.1 hy with rfl | hy
        · obtain ⟨b', hb', hs'⟩ := rawEq_answers hc
          rw [hb] at hb'; cases hb'
          exact key.2 (hs'.1 hs)
        · exact hr y hy hc hs
  have hi : ∀ xs, enumIn v xs = .ok false → ∀ x ∈ xs, x.Scalar ∨ Comparable x v → ¬ SameJson x v := by
    intro xs
    induction xs with
    | nil => intro h; simp
    | cons x xs ih =>
      intro h
      obtain ⟨b, hb, h⟩ := Res.bind_eq_ok.1 h
      cases b
      · intro y hy hc hs
        rcases List.mem_cons.1 hy with rfl | hy
        · obtain ⟨b', hb', hs'⟩ := rawEq_answers hc
          rw [hb] at hb'; cases hb'
          exact absurd (hs'.1 hs).1 (by simp)
        · exact ih (by simpa using h) y hy hc hs
      · simp at h
  have hn : ∀ xs, NoVal (enumIn v xs) := by
    intro vals
    induction vals with
    | nil => exact NoVal.ok _
    | cons x xs ih =>
      refine NoVal.bind' (rawEqVal_noVal _ _) fun a => ?_
      split
      · exact NoVal.ok _
      · exact ih
  unfold runEnum at h
  simp only at h
  split at h
  · rename_i hc
    simp only [Bool.and_eq_true, Bool.not_eq_true', List.any_eq_false] at hc
    refine ⟨raiseErr_eq (by simpa using h), fun x hx hr hs => ?_⟩
    obtain ⟨b, hb, hs'⟩ := rawEq_answers hr
    have := (hs'.1 hs).2
    rw [hc.1] at this
    exact hc.2 x hx this
  · split at h
    · exact hl xs h
    · rcases bind_err.1 h with h | ⟨b, hb, h⟩
      · exact absurd h (hn _ e)
      · cases b
        · exact ⟨raiseErr_eq (by simpa using h), hi xs hb⟩
        · simp at h

theorem const_says {x : Node} (hx : x.Scalar) (h : runConst x v ctx = .err (.validation e)) :
    e = ⟨c!"const_error", ctx.path, []⟩ ∧ ¬ SameJson x v := by
  obtain ⟨b, hb, hs⟩ := rawEq_answers (x := x) (v := v) (.inl hx)
  unfold runConst at h
  rw [hb] at h
  cases hx : x.isBool <;> cases hv : v.isBool <;> cases b <;> simp [hx, hv] at h hs <;> exact ⟨raiseErr_eq h, hs⟩

theorem heldConst_says {x : Node} (hx : x.Scalar) (h : runHeld w (.const x) v ctx = .err (.validation e)) :
    e = ⟨c!"const_error", ctx.path, []⟩ ∧ (¬ SameJson x v ∨ (∃ b, v = .bool b) ∨ ∃ e s, v = .flt (.fin e s) ∧ e ≠ s) := by
  unfold runHeld at h
  simp only at h
  split at h
  · refine ⟨raiseErr_eq (by simpa using h), .inr (.inl ?_)⟩
    cases v <;> first | exact ⟨_, rfl⟩ | cases ‹Val.isBool _ = true›
  · rename_i hv
    rcases bind_err.1 h with h | ⟨b, hb, h⟩
    · exact absurd h (nodeEqVal_noVal _ _ e)
    · cases b
      · refine ⟨raiseErr_eq (by simpa using h), ?_⟩
        rw [sameJson_scalar hx]
        cases x <;> cases v <;> simp_all [nodeEqVal, litEq, Val.isBool, Node.Scalar]
        · rename_i n _ _
          cases n <;> simp_all [Num.eq]
        · rename_i n x _
          cases n <;> cases x <;> simp_all [Num.eq, Flt.shownNum]
          rename_i q a b
          by_cases e : a = b
          · subst e; exact .inl (by simpa using h)
          · exact .inr ⟨a, b, ⟨rfl, rfl⟩, e⟩
        · rename_i n d _
          cases n <;> cases d <;> simp_all [Num.eq]
      · simp at h

theorem required_says : ∀ {ks : List Str}, runRequired v ctx ks = .err (.validation e) → ∃ d ∈ ks, Lacks v d ∧ e = ⟨c!"required_property_error", ctx.path, d⟩
  | [], h => by cases h
  | k :: ks, h => by
    rcases bind_err.1 h with h | ⟨b, hb, h⟩
    · exact absurd h (pyIn_noVal _ _ e)
    · cases b
      · refine ⟨k, .head _, ?_, raiseErr_eq (by simpa using h)⟩
        cases v <;> simp only [pyIn, Res.ok.injEq] at hb <;> try cases hb
        · refine .str ?_
          rintro ⟨a, b, rfl⟩
          have := (Formats.strContains_iff (s := a ++ k ++ b) (sub := k)).2 ⟨a, b, by simp⟩
          rw [hb] at this; cases this
        · rename_i xs
          refine .list fun hm => ?_
          rw [List.any_eq_false] at hb
          exact hb _ hm (by simp)
        · rename_i kvs
          refine .dict fun hm => ?_
          have := dictHas_iff.2 hm
          rw [hb] at this; cases this
      · obtain ⟨d, hd, hr⟩ := required_says (ks := ks) (by simpa using h)
        exact ⟨d, .tail _ hd, hr⟩

theorem depRequired_says {kvs : List (Str × Val)} : ∀ {m : List (Str × List Str)}, depRequiredLoop kvs ctx m = .err (.validation e) →
    ∃ k ds d, (k, ds) ∈ m ∧ d ∈ ds ∧ k ∈ kvs.map Prod.fst ∧ d ∉ kvs.map Prod.fst ∧ e = ⟨c!"dependent_error", ctx.path, d⟩
  | [], h => by cases h
  | (k, is) :: m, h => by
    have hi : ∀ is, depRequiredItems kvs ctx is = .err (.validation e) → ∃ d ∈ is, d ∉ kvs.map Prod.fst ∧ e = ⟨c!"dependent_error", ctx.path, d⟩ := by
      intro is
      induction is with
      | nil => intro h; cases h
      | cons i is ih =>
        intro h
        simp only [depRequiredItems] at h
        split at h
        · obtain ⟨d, hd, hr⟩ := ih h
          exact ⟨d, .tail _ hd, hr⟩
        · rename_i hn
          exact ⟨i, .head _, fun hm => hn (dictHas_iff.2 hm), raiseErr_eq (by simpa using h)⟩
    simp only [depRequiredLoop] at h
    have rest : depRequiredLoop kvs ctx m = .err (.validation e) →
        ∃ k' ds d, (k', ds) ∈ (k, is) :: m ∧ d ∈ ds ∧ k' ∈ kvs.map Prod.fst ∧ d ∉ kvs.map Prod.fst ∧ e = ⟨c!"dependent_error", ctx.path, d⟩ := by
      intro h
      obtain ⟨k', ds, d, h1, h2⟩ := depRequired_says h
      exact ⟨k', ds, d, .tail _ h1, h2⟩
    split at h
    · rename_i hk
      rcases bind_err.1 h with h | ⟨_, _, h⟩
      · obtain ⟨d, hd, h1, h2⟩ := hi is h
        exact ⟨k, is, d, .head _, hd, dictHas_iff.1 hk, h1, h2⟩
      · exact rest h
    · exact rest h

theorem scalarEq_true {a b : Val} (h : scalarEq a b = true) : pyScalarEq a b = true := by
  rw [← scalarEq_eq a b ?_ ?_]
  · exact h
  · cases a with
    | list => cases b <;> simp [scalarEq, Val.num?] at h
    | dict => cases b <;> simp [scalarEq, Val.num?] at h
    | flt x => cases x <;> first | trivial | (cases b <;> simp [scalarEq, Val.num?, Flt.exactNum, Num.eq] at h)
    | dec x => cases x <;> first | trivial | (cases b <;> simp [scalarEq, Val.num?, Num.eq] at h)
    | _ => trivial
  · cases b with
    | list => cases a <;> simp [scalarEq, Val.num?] at h
    | dict => cases a <;> simp [scalarEq, Val.num?] at h
    | flt x =>
      cases x <;> first | trivial | (cases a <;> simp [scalarEq, Val.num?, Flt.exactNum] at h <;> simp [Num.eq] at h)
    | dec x => cases x <;> first | trivial | (cases a <;> simp [scalarEq, Val.num?] at h <;> simp [Num.eq] at h)
    | _ => trivial

theorem unique_says {full : List Val} : ∀ {xs seen : List Val} {i : Nat}, (∀ j : Nat, full[i + j]? = xs[j]?) → (∀ y ∈ seen, ∃ j < i, full[j]? = some y) →
    uniqueLoop ctx seen i xs = .err (.validation e) → ∃ j k a b, j < k ∧ full[j]? = some a ∧ full[k]? = some b ∧ pyScalarEq b a = true ∧
      e = ⟨c!"unique_items_error", ctx.path ++ natStr k, []⟩
  | [], seen, i, hf, hs, h => by cases h
  | x :: xs, seen, i, hf, hs, h => by
    simp only [uniqueLoop] at h
    have hx : full[i]? = some x := by simpa using hf 0
    split at h
    · cases h
    · split at h
      · rename_i hany
        obtain ⟨a, ha, he⟩ := List.any_eq_true.1 hany
        obtain ⟨j, hj, hja⟩ := hs a ha
        exact ⟨j, i, a, x, hj, hja, hx, scalarEq_true he, raiseErr_eq (by simpa using h)⟩
      · refine unique_says (xs := xs) (seen := x :: seen) (i := i + 1) ?_ ?_ h
        · intro j
          rw [show i + 1 + j = i + (j + 1) by omega, hf]; simp
        · intro y hy
          rcases List.mem_cons.1 hy with rfl | hy
          · exact ⟨i, by omega, hx⟩
          · obtain ⟨j, hj, e⟩ := hs y hy
            exact ⟨j, by omega, e⟩

theorem multipleOf_says {m : Num} (h : runMultipleOf w m v ctx = .err (.validation e)) :
    e = ⟨c!"multiple_of_error", ctx.path, []⟩ ∧ NotMultiple w v m := by
  rcases bind_err.1 h with h | ⟨d, hd, h⟩
  · exact absurd h (toDecimal_noVal _ _ e)
  rcases bind_err.1 h with h | ⟨r, hr, h⟩
  · exact absurd h (rem_noVal _ _ e)
  split at h
  · cases h
  rename_i hne
  refine ⟨raiseErr_eq (by simpa using h), d, ?_, ?_⟩
  · unfold toDecimal at hd
    split at hd
    · cases hd; exact .dec _
    · cases hd; exact .int _
    · cases hd; exact .flt _
    · split at hd
      · rename_i hp; cases hd; exact .str hp
      · cases hd
    · cases hd
  · cases d with
    | nan => exact .inl rfl
    | inf s => cases m <;> simp [Num.rem] at hr; exact .inr (.inl rfl)
    | fin q =>
      have fix0 : ∀ {x : Rat}, Num.fix x = .ok 0 ∨ x ≠ 0 := by
        intro x
        by_cases hx : x = 0
        · exact .inl (by rw [hx]; rfl)
        · exact .inr hx
      cases m with
      | nan => exact .inr (.inl rfl)
      | inf s =>
        refine .inr (.inr ⟨q, rfl, ?_, .inl ⟨s, rfl⟩⟩)
        rintro rfl
        simp only [Num.rem, show Num.fix 0 = .ok 0 from rfl, Res.ok_bind, Res.ok.injEq] at hr
        subst hr
        exact hne (by decide)
      | fin b =>
        simp only [Num.rem] at hr
        split at hr
        · cases hr
        · rename_i hb
          split at hr
          · cases hr
          · have no : ¬ ∃ k : Int, q = b * k := by
              intro hk
              rw [(rem_zero_iff q b hb).2 hk, show Num.fix 0 = .ok 0 from rfl] at hr
              cases hr
              exact hne (by decide)
            refine .inr (.inr ⟨q, rfl, ?_, .inr ⟨b, rfl, no⟩⟩)
            rintro rfl
            exact no ⟨0, by grind⟩

end

section
variable {α : Type} {rec : α → Val → Ctx → Res Unit} {w : World} {v : Val} {ctx : Ctx} {e : VErr}

theorem oneOf_one : ∀ {xs : List α} {n m : Nat} {last l : Option VErr}, oneOfLoop rec v ctx n last xs = .ok (m, l) → n < m →
    ∃ (j : Nat) (t : α), xs[j]? = some t ∧ rec t v ctx = .ok ()
  | [], n, m, last, l, h, hn => by cases h; omega
  | a :: xs, n, m, last, l, h, hn => by
    simp only [oneOfLoop] at h
    obtain ⟨r, hr, h⟩ := Res.bind_eq_ok.1 h
    cases r with
    | none => exact ⟨0, a, rfl, attempt_none hr⟩
    | some e' =>
      obtain ⟨j, t, h1, h2⟩ := oneOf_one h hn
      exact ⟨j + 1, t, by simpa using h1, h2⟩

theorem oneOf_two : ∀ {xs : List α} {n m : Nat} {last l : Option VErr}, oneOfLoop rec v ctx n last xs = .ok (m, l) → n + 1 < m →
    ∃ (i j : Nat) (s t : α), i < j ∧ xs[i]? = some s ∧ xs[j]? = some t ∧ rec s v ctx = .ok () ∧ rec t v ctx = .ok ()
  | [], n, m, last, l, h, hn => by cases h; omega
  | a :: xs, n, m, last, l, h, hn => by
    simp only [oneOfLoop] at h
    obtain ⟨r, hr, h⟩ := Res.bind_eq_ok.1 h
    cases r with
    | none =>
      obtain ⟨j, t, h1, h2⟩ := oneOf_one h hn
      exact ⟨0, j + 1, a, t, by omega, rfl, by simpa using h1, attempt_none hr, h2⟩
    | some e' =>
      obtain ⟨i, j, s, t, h0, h1, h2, h3⟩ := oneOf_two h hn
      exact ⟨i + 1, j + 1, s, t, by omega, by simpa using h1, by simpa using h2, h3⟩

theorem patternLoop_true {k : Str} {x : Val} : ∀ {ps : List (Str × α)} {b : Bool}, patternLoop rec w k x ctx true ps = .ok b → b = true
  | [], b, h => by cases h; rfl
  | (p, a) :: ps, b, h => by
    simp only [patternLoop] at h
    split at h
    · cases h
    · split at h
      · obtain ⟨_, _, h⟩ := Res.bind_eq_ok.1 h
        exact patternLoop_true h
      · exact patternLoop_true h

theorem patternLoop_false {k : Str} {x : Val} : ∀ {ps : List (Str × α)}, patternLoop rec w k x ctx false ps = .ok false →
    ∀ p a m, (p, a) ∈ ps → w.search p = some m → m k = false
  | [], h, p, a, m, hp, _ => by cases hp
  | (p', a') :: ps, h, p, a, m, hp, hm => by
    simp only [patternLoop] at h
    split at h
    · cases h
    · rename_i m' hm'
      split at h
      · obtain ⟨_, _, h⟩ := Res.bind_eq_ok.1 h
        cases patternLoop_true h
      · rename_i hk
        rcases List.mem_cons.1 hp with e | hp
        · cases e
          rw [hm] at hm'; cases hm'
          simpa using hk
        · exact patternLoop_false h p a m hp hm

theorem patternLoop_says {k : Str} {x : Val} : ∀ {ps : List (Str × α)} {ev : Bool}, patternLoop rec w k x ctx ev ps = .err (.validation e) →
    ∃ p a m, (p, a) ∈ ps ∧ w.search p = some m ∧ m k = true ∧ rec a x ctx = .err (.validation e)
  | [], ev, h => by cases h
  | (p', a') :: ps, ev, h => by
    simp only [patternLoop] at h
    have tl : ∀ ev, patternLoop rec w k x ctx ev ps = .err (.validation e) →
        ∃ p a m, (p, a) ∈ (p', a') :: ps ∧ w.search p = some m ∧ m k = true ∧ rec a x ctx = .err (.validation e) := by
      intro ev h
      obtain ⟨p, a, m, h1, h2⟩ := patternLoop_says h
      exact ⟨p, a, m, .tail _ h1, h2⟩
    split at h
    · cases h
    · rename_i m hm
      split at h
      · rename_i hk
        rcases bind_err.1 h with h | ⟨_, _, h⟩
        · exact ⟨p', a', m, .head _, hm, hk, h⟩
        · exact tl _ h
      · exact tl _ h

/-- What `ObjectValidator` complains about. -/
inductive ItemSays {α : Type} (rec : α → Val → Ctx → Res Unit) (w : World) (o : ObjV α) (k : Str) (x : Val) (ctx : Ctx) (e : VErr) : Prop
  | name {n : α} (h : o.names = some n) (hr : rec n (.str k) (ctx ++ [k]) = .err (.validation e))
  | prop {p : α} (h : dictGet k o.props = some p) (hr : rec p x (ctx ++ [k]) = .err (.validation e))
  | pattern {ps : List (Str × α)} {p : Str} {a : α} {m : Str → Bool} (h : o.patterns = some ps) (hp : (p, a) ∈ ps) (hm : w.search p = some m) (hk : m k = true)
    (hr : rec a x (ctx ++ [k]) = .err (.validation e))
  | rest (hp : dictGet k o.props = none) (hq : ∀ ps p a m, o.patterns = some ps → (p, a) ∈ ps → w.search p = some m → m k = false)
    (h : (o.additional = some .fail ∨ o.unevaluated = true) ∧ e = ⟨c!"error", Ctx.path (ctx ++ [k]), []⟩ ∨
      ∃ a, o.additional = some (.lazy a) ∧ rec a x (ctx ++ [k]) = .err (.validation e))

theorem objectItem_says {o : ObjV α} {k : Str} {x : Val} (h : objectItem rec w o k x ctx = .err (.validation e)) : ItemSays rec w o k x ctx e := by
  have fin : ∀ ev : Bool, (ev = false → ∀ ps p a m, o.patterns = some ps → (p, a) ∈ ps → w.search p = some m → m k = false) → dictGet k o.props = none →
      (if ev = true then Res.ok () else match o.additional with
        | some .fail => .err (raisePlain (Ctx.path (ctx ++ [k])))
        | some (.lazy a) => rec a x (ctx ++ [k])
        | none => if o.unevaluated then .err (raisePlain (Ctx.path (ctx ++ [k]))) else .ok ()) = .err (.validation e) →
      ItemSays rec w o k x ctx e := by
    intro ev hev hp h
    split at h
    · cases h
    · rename_i hne
      simp only [Bool.not_eq_true] at hne
      refine .rest hp (hev hne) ?_
      split at h
      · rename_i ha
        simp only [raisePlain, Res.err.injEq, PyErr.validation.injEq] at h
        exact .inl ⟨.inl ha, h.symm⟩
      · rename_i a ha
        exact .inr ⟨a, ha, h⟩
      · split at h
        · rename_i hu
          simp only [raisePlain, Res.err.injEq, PyErr.validation.injEq] at h
          exact .inl ⟨.inr hu, h.symm⟩
        · cases h
  have main : ∀ g : Res Unit, (g = .ok () ∨ ∃ n, o.names = some n ∧ g = rec n (.str k) (ctx ++ [k])) → (g >>= fun _ => match dictGet k o.props with
      | some p => rec p x (ctx ++ [k])
      | none => (match o.patterns with
        | some ps => patternLoop rec w k x (ctx ++ [k]) false ps
        | none => .ok false) >>= fun ev => if ev = true then Res.ok () else match o.additional with
          | some .fail => .err (raisePlain (Ctx.path (ctx ++ [k])))
          | some (.lazy a) => rec a x (ctx ++ [k])
          | none => if o.unevaluated then .err (raisePlain (Ctx.path (ctx ++ [k]))) else .ok ()) = .err (.validation e) →
      ItemSays rec w o k x ctx e := by
    intro g hg h
    rcases bind_err.1 h with h | ⟨_, _, h⟩
    · rcases hg with rfl | ⟨n, hn, rfl⟩
      · cases h
      · exact .name hn h
    · cases hp : dictGet k o.props with
      | some p => rw [hp] at h; exact .prop hp h
      | none =>
        rw [hp] at h
        simp only at h
        rcases bind_err.1 h with h | ⟨ev, hev, h⟩
        · cases hps : o.patterns with
          | none => rw [hps] at h; cases h
          | some ps =>
            rw [hps] at h
            obtain ⟨p, a, m, h1, h2, h3, h4⟩ := patternLoop_says h
            exact .pattern hps h1 h2 h3 h4
        · refine fin ev ?_ hp h
          rintro rfl ps p a m hps hpa hm
          rw [hps] at hev
          exact patternLoop_false hev p a m hpa hm
  unfold objectItem at h
  cases hn : o.names with
  | none =>
    apply main (.ok ()) (.inl rfl)
    rw [hn] at h
    cases hps : o.patterns <;> rw [hps] at h <;> exact h
  | some n =>
    apply main _ (.inr ⟨n, hn, rfl⟩)
    rw [hn] at h
    cases hps : o.patterns <;> rw [hps] at h <;> exact h

theorem objectLoop_says {o : ObjV α} : ∀ {kvs : List (Str × Val)}, objectLoop rec w o ctx kvs = .err (.validation e) →
    ∃ k x, (k, x) ∈ kvs ∧ ItemSays rec w o k x ctx e
  | [], h => by cases h
  | (k, x) :: r, h => by
    simp only [objectLoop] at h
    rcases bind_err.1 h with h | ⟨_, _, h⟩
    · exact ⟨k, x, .head _, objectItem_says h⟩
    · obtain ⟨k', x', h1, h2⟩ := objectLoop_says h
      exact ⟨k', x', .tail _ h1, h2⟩

end

/-! ## All of them -/

section
variable (w : World) (docs : List Doc) (voc : List Kw)

/-- The code accepts the value. -/
def Passes (s : Node) (y : Val) : Prop := ∃ f ctx, validateN w docs voc f s y ctx = .ok ()

/-- The code rejects the value. -/
def Rejects (s : Node) (y : Val) : Prop := ∃ f ctx e, validateN w docs voc f s y ctx = .err (.validation e)

/-- The code accepts the value as an item for `contains`: it begins a new path. -/
def CountsIn (s : Node) (y : Val) : Prop := ∃ f, validateN w docs voc f s y [] = .ok ()

/-- The path of the error, for a complaint at `r` within `q`: an index of `uniqueItems` is added without a dot, and `items` forgets the path for what is not a
list. -/
def PathOf (q r : List Str) (e : VErr) : Prop :=
  e.path = strJoin c!"." (q ++ r) ∨ (e.code = c!"unique_items_error" ∧ ∃ i, r = [natStr i] ∧ e.path = strJoin c!"." q ++ natStr i) ∨
    (e.code = c!"type_error" ∧ r = [] ∧ e.path = [])

variable {w docs voc}

theorem counts_not {f : Nat} {s : Node} {x : Val} {e : VErr} (h : validateN w docs voc f s x [] = .err (.validation e)) : ¬ CountsIn w docs voc s x := by
  rintro ⟨g, hg⟩
  rcases Nat.le_total f g with hle | hle
  · have := validateN_mono w docs voc hle s x []
    rw [h, hg] at this
    cases this (by simp)
  · have := validateN_mono w docs voc hle s x []
    rw [h, hg] at this
    cases this (by simp)

open Classical in
theorem contains_count {f : Nat} {s : Node} : ∀ {xs : List Val} {n m : Nat}, containsLoop (validateN w docs voc f) s n xs = .ok m →
    m = n + (xs.filter fun x => CountsIn w docs voc s x).length
  | [], n, m, h => by cases h; simp
  | x :: xs, n, m, h => by
    simp only [containsLoop] at h
    obtain ⟨r, hr, h⟩ := Res.bind_eq_ok.1 h
    cases r with
    | none =>
      rw [List.filter_cons_of_pos (by simpa using ⟨f, attempt_none hr⟩), contains_count h]
      simp; omega
    | some e =>
      rw [List.filter_cons_of_neg (by simpa using counts_not (attempt_some hr)), contains_count h]

theorem iter_items {y : Val} {xs : List Val} (h : pyIter y = .ok xs) : Items y xs := by
  cases y <;> simp [pyIter] at h <;> subst h
  · exact .str _
  · exact .list _
  · exact .dict _

theorem len_size {y : Val} {l : Nat} (h : pyLen y = .ok l) : Size y l := by
  cases y <;> simp [pyLen] at h <;> subst h
  · exact .str _
  · exact .list _
  · exact .dict _

theorem Worth.ofOperand {n : Node} {y : Val} {x : Num} (hr : n.isRef = true) (h : (Operand.val y).num = .ok x) : Worth n y x := by
  cases y <;> simp [Operand.num] at h <;> subst h
  · exact .inl rfl
  · exact .inl rfl
  · exact .inr ⟨hr, _, rfl, rfl⟩
  · exact .inl rfl

variable {items : List (Str × Node)} {f : Nat} {d : Data Node}

/-- What is wrong with a part of the value, or which subschema says so. -/
theorem run_says (hw : FormatsPlain w) (hd : FromData w docs voc items voc d) {key : Str} {x : V Node} (hx : (key, x) ∈ d) {v : Val} {ctx : Ctx} {e : VErr}
    (h : run (validateN w docs voc f) w f x v ctx = .err (.validation e)) :
    (∃ r, Complaint w voc (Sees docs) (Passes w docs voc) (CountsIn w docs voc) items v r e.code e.detail ∧ PathOf ctx r e) ∨
    ∃ s z r, Speaks w voc (Sees docs) (Passes w docs voc) (Rejects w docs voc) items v s z r ∧
      validateN w docs voc f s z (ctx ++ r) = .err (.validation e) := by
  have hv := hd.origin key x hx
  have here : ∀ {c : Str} {t : Str}, e = ⟨c, ctx.path, t⟩ → Complaint w voc (Sees docs) (Passes w docs voc) (CountsIn w docs voc) items v [] c t →
      (∃ r, Complaint w voc (Sees docs) (Passes w docs voc) (CountsIn w docs voc) items v r e.code e.detail ∧ PathOf ctx r e) ∨
      ∃ s z r, Speaks w voc (Sees docs) (Passes w docs voc) (Rejects w docs voc) items v s z r ∧
        validateN w docs voc f s z (ctx ++ r) = .err (.validation e) := by
    rintro c t rfl hc
    exact .inl ⟨[], hc, .inl (by simp [Ctx.path])⟩
  have short : ∀ {k : Kw} {c : ErrClass} {i : Int}, FromLimit voc (Sees docs) items k i → runMinLen c i v ctx = .err (.validation e) →
      e = ⟨c.code, ctx.path, []⟩ ∧ Short voc (Sees docs) items k v := by
    rintro k c i ⟨n, q, h1, h2, rfl⟩ h
    rcases bind_err.1 h with h | ⟨l, hl, h⟩
    · exact absurd h (pyLen_noVal _ e)
    · split at h
      · cases h
      · rename_i hlt
        exact ⟨raiseErr_eq (by simpa using h), n, q, l, h1, h2, len_size hl, before_trunc (by omega)⟩
  have long : ∀ {k : Kw} {c : ErrClass} {i : Int}, FromLimit voc (Sees docs) items k i → runMaxLen c i v ctx = .err (.validation e) →
      e = ⟨c.code, ctx.path, []⟩ ∧ Long voc (Sees docs) items k v := by
    rintro k c i ⟨n, q, h1, h2, rfl⟩ h
    rcases bind_err.1 h with h | ⟨l, hl, h⟩
    · exact absurd h (pyLen_noVal _ e)
    · split at h
      · cases h
      · rename_i hlt
        exact ⟨raiseErr_eq (by simpa using h), n, q, l, h1, h2, len_size hl, trunc_before (by omega)⟩
  cases x with
  | type ts =>
    obtain ⟨n, h1, h2, h3⟩ := hv
    simp only [run, runType] at h
    split at h
    · cases h
    · split at h
      · cases h
      · rename_i ha hb
        refine here (raiseErr_eq (by simpa using h)) (.type h1 h2 fun t ht => ⟨?_, ?_⟩)
        · have := h3 t ht
          revert this
          have : ∀ t ∈ validTypes, t ∈ jsonTypeNames := by decide
          exact this t
        · intro hm
          cases v <;> simp [typeNamesOf, typeName] at hm ha hb <;> first
            | (subst hm; exact ha ht)
            | (rcases hm with rfl | rfl
               · exact ha ht
               · exact hb ht)
  | enum xs =>
    obtain ⟨h1, h2⟩ := enum_says h
    exact here h1 (.enum hv h2)
  | const y =>
    obtain ⟨h1, h2⟩ := const_says hv.2.1 h
    exact here h1 (.const hv.1 hv.2.2 (.inl h2))
  | maximum m ex =>
    obtain ⟨n, h1, h2, h3⟩ := hv
    simp only [run, runMaximum] at h
    split at h
    · cases h
    · rename_i x hn
      have key : e = ⟨c!"maximum_error", ctx.path, []⟩ ∧ (NumBefore m x ∨ m = x ∧ ex = true) := by
        cases ex
        · simp only [Bool.false_eq_true, if_false] at h
          rcases bind_err.1 h with h | ⟨b, hb, h⟩
          · exact absurd h (lt_noVal _ _ e)
          · cases b
            · simp at h
            · exact ⟨raiseErr_eq (by simpa using h), .inl (lt_before hb)⟩
        · simp only [if_true] at h
          rcases bind_err.1 h with h | ⟨b, hb, h⟩
          · exact absurd h (le_noVal _ _ e)
          · cases b
            · simp at h
            · exact ⟨raiseErr_eq (by simpa using h), (le_before hb).imp_right fun h => ⟨h, rfl⟩⟩
      rcases h3 with ⟨hk, he⟩ | ⟨hk, rfl⟩
      · exact here key.1 (.maximum hk h1 (.inl hn) (key.2.imp_right fun h => ⟨h.1, he h.2⟩))
      · exact here key.1 (.exclusiveMaximum hk h1 (.inl hn) (key.2.imp_right fun h => h.1))
  | minimum m ex =>
    obtain ⟨n, h1, h2, h3⟩ := hv
    simp only [run, runMinimum] at h
    split at h
    · cases h
    · rename_i x hn
      have key : e = ⟨c!"minimum_error", ctx.path, []⟩ ∧ (NumBefore x m ∨ m = x ∧ ex = true) := by
        cases ex
        · simp only [Bool.false_eq_true, if_false] at h
          rcases bind_err.1 h with h | ⟨b, hb, h⟩
          · exact absurd h (lt_noVal _ _ e)
          · cases b
            · simp at h
            · exact ⟨raiseErr_eq (by simpa using h), .inl (lt_before hb)⟩
        · simp only [if_true] at h
          rcases bind_err.1 h with h | ⟨b, hb, h⟩
          · exact absurd h (le_noVal _ _ e)
          · cases b
            · simp at h
            · exact ⟨raiseErr_eq (by simpa using h), (le_before hb).imp_right fun h => ⟨h.symm, rfl⟩⟩
      rcases h3 with ⟨hk, he⟩ | ⟨hk, rfl⟩
      · exact here key.1 (.minimum hk h1 (.inl hn) (key.2.imp_right fun h => ⟨h.1, he h.2⟩))
      · exact here key.1 (.exclusiveMinimum hk h1 (.inl hn) (key.2.imp_right fun h => h.1))
  | multipleOf m =>
    obtain ⟨n, h1, h2⟩ := hv
    obtain ⟨h3, h4⟩ := multipleOf_says h
    exact here h3 (.multipleOf h1 h2 h4)
  | minLength i => obtain ⟨h1, h2⟩ := short hv h; exact here h1 (.minLength h2)
  | maxLength i => obtain ⟨h1, h2⟩ := long hv h; exact here h1 (.maxLength h2)
  | minItems i => obtain ⟨h1, h2⟩ := short hv h; exact here h1 (.minItems h2)
  | maxItems i => obtain ⟨h1, h2⟩ := long hv h; exact here h1 (.maxItems h2)
  | minProperties i =>
    obtain ⟨n, q, h1, h2, rfl⟩ := hv
    rcases bind_err.1 h with h | ⟨l, hl, h⟩
    · exact absurd h (pyLen_noVal _ e)
    · split at h
      · rename_i hlt
        exact here (raiseErr_eq (by simpa using h)) (.minProperties ⟨n, q, l, h1, h2, len_size hl, before_trunc hlt⟩)
      · cases h
  | maxProperties i =>
    obtain ⟨n, q, h1, h2, rfl⟩ := hv
    rcases bind_err.1 h with h | ⟨l, hl, h⟩
    · exact absurd h (pyLen_noVal _ e)
    · split at h
      · rename_i hlt
        exact here (raiseErr_eq (by simpa using h)) (.maxProperties ⟨n, q, l, h1, h2, len_size hl, trunc_before hlt⟩)
      · cases h
  | uniqueItems =>
    obtain ⟨n, h1, h2⟩ := hv
    simp only [run] at h
    rcases bind_err.1 h with h | ⟨xs, hxs, h⟩
    · exact absurd h (pyIter_noVal _ e)
    · obtain ⟨j, k, a, b, h3, h4, h5, h6, rfl⟩ := unique_says (full := xs) (by simp) (by simp) h
      exact .inl ⟨[natStr k], .uniqueItems h1 h2 (iter_items hxs) h3 h4 h5 h6, .inr (.inl ⟨rfl, k, rfl, rfl⟩)⟩
  | contains c mn mx =>
    obtain ⟨h1, h2, h3⟩ := hv
    simp only [run, runContains] at h
    rcases bind_err.1 h with h | ⟨xs, hxs, h⟩
    · exact absurd h (pyIter_noVal _ e)
    rcases bind_err.1 h with h | ⟨n, hn, h⟩
    · exact absurd h (contains_noVal _ _ _ _ e)
    have hc := contains_count hn
    rw [Nat.zero_add] at hc
    split at h
    · rename_i hlt
      refine here (raiseErr_eq (by simpa using h)) (.tooFew h1 (iter_items hxs) ?_)
      rcases h2 with ⟨h2, rfl⟩ | ⟨m, q, h4, h5, rfl⟩
      · refine .inl ⟨h2, fun y hy hcy => ?_⟩
        have h0 : n = 0 := by omega
        rw [h0] at hc
        have := List.eq_nil_of_length_eq_zero hc.symm
        rw [List.filter_eq_nil_iff] at this
        exact this y hy (by simpa using hcy)
      · refine .inr ⟨m, q, h4, h5, ?_⟩
        rw [← hc]
        exact before_trunc hlt
    · split at h
      · cases h
      · split at h
        · rename_i hlt
          have he := raiseErr_eq (c := .maxContains) (p := ctx.path) (d := []) (e := e) (by simpa using h)
          obtain ⟨m', q, h4, h5, rfl⟩ := h3 _ rfl
          refine here he (.tooMany h1 (iter_items hxs) h4 h5 ?_)
          rw [← hc]
          exact trunc_before hlt.2
        · cases h
  | array pre it =>
    obtain ⟨h0, h1, _, h2⟩ := hv
    simp only [run, runArray] at h
    split at h
    · rename_i xs
      rcases arrayLoop_err _ h with ⟨j, a, y, h3, h4, h5⟩ | ⟨a, h3, h5⟩ | ⟨j, a, y, h3, h4, h5, h6⟩
      · cases pre with
        | none => simp at h3
        | some pre =>
          rw [Nat.zero_add] at h5
          refine .inr ⟨a, y, _, ?_, h5⟩
          rcases h1 pre rfl with ⟨n, hn, hs⟩ | ⟨n, hn, hs⟩
          · exact .prefix (.inl hn) hs h3 h4
          · exact .prefix (.inr hn) hs h3 h4
      · cases pre with
        | none => simp at h3
        | some pre =>
          rw [Nat.zero_add] at h5
          refine .inr ⟨a, _, _, ?_, h5⟩
          rcases h1 pre rfl with ⟨n, hn, hs⟩ | ⟨n, hn, hs⟩
          · exact .missing (.inl hn) hs h3
          · exact .missing (.inr hn) hs h3
      · rw [Nat.zero_add] at h6
        refine .inr ⟨a, y, _, ?_, h6⟩
        rcases h2 a h3 with ⟨hk, hn⟩ | ⟨ps, rfl, ⟨n, hn, hs⟩, ha⟩
        · exact .items hk hn h5
        · exact .additionalItems hn hs ha h4 h5
    · rename_i hne
      have := typeNoPath_eq (e := e) (by simpa using h)
      subst this
      exact .inl ⟨[], .notList h0 hne, .inr (.inr ⟨rfl, rfl, rfl⟩)⟩
  | object o =>
    obtain ⟨rfl, ho⟩ := hv
    have hget : dictGet c!"properties" d = some (.object o) := dictGet_of_mem hd.nodup hx
    simp only [run, runObject] at h
    split at h
    · rename_i kvs
      obtain ⟨k, y, hk, hs⟩ := objectLoop_says h
      cases hs with
      | name hn hr => exact .inr ⟨_, _, _, .name (ho.names _ hn) hk, hr⟩
      | prop hp hr =>
        obtain ⟨m, ⟨n, h1, h2⟩, h3⟩ := ho.props _ _ (dictGet_mem hp)
        exact .inr ⟨_, _, _, .property h1 h2 h3 hk, hr⟩
      | pattern hp hm hs hk' hr =>
        obtain ⟨n, h1, h2⟩ := ho.patterns _ hp
        exact .inr ⟨_, _, _, .pattern h1 h2 hm hs hk' hk, hr⟩
      | rest hp hq hr =>
        have hu : Unlisted w voc (Sees docs) items k := by
          refine ⟨fun n ps h1 h2 hm => ?_, fun n ps p s m h1 h2 h3 h4 => ?_⟩
          · obtain ⟨o', e', hall⟩ := hd.props ps h1.1 ⟨n, h1, h2⟩
            rw [hget] at e'; cases e'
            have := hall k hm
            rw [dictHas, hp] at this; cases this
          · obtain ⟨o', e', hpat⟩ := hd.patterns ps h1.1 ⟨n, h1, h2⟩
            rw [hget] at e'; cases e'
            exact hq ps p s m hpat h3 h4
        rcases hr with ⟨ha, rfl⟩ | ⟨a, ha, hr⟩
        · refine .inl ⟨[k], ?_, .inl rfl⟩
          rcases ha with ha | ha
          · obtain ⟨n, h1, h2⟩ := ho.fail ha
            exact .unexpected (.inl h1) h2 rfl hk hu
          · obtain ⟨n, h1, h2⟩ := ho.unevaluated ha
            exact .unexpected (.inr h1) h2 rfl hk hu
        · exact .inr ⟨a, y, _, .additional (ho.lazy _ ha) hu hk, hr⟩
    · cases h
  | required ks =>
    obtain ⟨xs, ⟨n, h1, h2⟩, rfl⟩ := hv
    obtain ⟨t, ht, h3, h4⟩ := required_says h
    refine here h4 (.required h1 h2 ?_ h3)
    rintro ss hs
    cases hs
    simpa [List.map_map, Function.comp_def, nodeStr] using ht
  | dependentRequired m =>
    obtain ⟨l, ⟨n, h1, h2⟩, h3⟩ := hv
    simp only [run] at h
    split at h
    · obtain ⟨k, ds, t, h4, h5, h6, h7, h8⟩ := depRequired_says h
      obtain ⟨x, h9, h10⟩ := h3 k ds h4
      exact here h8 (.dependentRequired h1 h2 h9 (h10 t h5) rfl h6 h7)
    · cases h
  | dependentSchemas m =>
    obtain ⟨n, h1, h2⟩ := hv
    simp only [run] at h
    split at h
    · obtain ⟨k, a, h3, h4, h5⟩ := depSchemas_err _ h
      exact .inr ⟨a, _, [], .dependent h1 h2 h3 (dictHas_iff.1 h4), by simpa using h5⟩
    · cases h
  | allOf xs =>
    obtain ⟨n, h1, h2⟩ := hv
    obtain ⟨a, h3, h4⟩ := allOf_err _ h
    exact .inr ⟨a, _, [], .allOf v h1 h2 h3, by simpa using h4⟩
  | anyOf xs =>
    obtain ⟨n, h1, h2⟩ := hv
    rcases anyOf_err _ h with h | ⟨a, h3, h4⟩
    · cases h
    · exact .inr ⟨a, _, [], .anyOf v h1 h2 h3, by simpa using h4⟩
  | oneOf xs =>
    obtain ⟨n, h1, h2⟩ := hv
    simp only [run, runOneOf] at h
    rcases bind_err.1 h with h | ⟨⟨m, last⟩, hl, h⟩
    · exact absurd h (oneOf_noVal _ _ _ _ e)
    · simp only at h
      split at h
      · split at h
        · simp only [Res.err.injEq, PyErr.validation.injEq] at h
          subst h
          rcases oneOf_last _ hl rfl with h | ⟨a, h3, h4⟩
          · cases h
          · exact .inr ⟨a, _, [], .oneOf v h1 h2 h3, by simpa using h4⟩
        · cases h
      · split at h
        · rename_i hm
          obtain ⟨i, j, s, t, h3, h4, h5, h6, h7⟩ := oneOf_two hl (by omega)
          exact here (c := c!"error") (t := []) (raiseErr_eq (by simpa using h)) (.oneOf h1 h2 h3 h4 h5 ⟨⟨f, ctx, h6⟩, ⟨f, ctx, h7⟩⟩)
        · cases h
  | not y =>
    rcases bind_err.1 h with h | ⟨r, hr, h⟩
    · exact absurd h (attempt_noVal _ e)
    · cases r with
      | none =>
        simp only [raisePlain, Res.err.injEq, PyErr.validation.injEq] at h
        exact here h.symm (.not hv ⟨f, ctx, attempt_none hr⟩)
      | some _ => cases h
  | cond i t el =>
    obtain ⟨h1, h2, h3⟩ := hv
    simp only [run, runCond] at h
    split at h
    · cases h
    · rename_i i
      rcases bind_err.1 h with h | ⟨r, hr, h⟩
      · exact absurd h (attempt_noVal _ e)
      · cases r with
        | some _ =>
          cases el with
          | none => cases h
          | some a => exact .inr ⟨a, _, [], .else (h1 i rfl) ⟨f, ctx, _, attempt_some hr⟩ (h3 a rfl), by simpa using h⟩
        | none =>
          cases t with
          | none => cases h
          | some a => exact .inr ⟨a, _, [], .then (h1 i rfl) ⟨f, ctx, attempt_none hr⟩ (h2 a rfl), by simpa using h⟩
  | format s =>
    obtain ⟨n, h1, h2⟩ := hv
    simp only [run, runFormat] at h
    split at h
    · cases h
    · rename_i check hc
      rcases bind_err.1 h with h | ⟨b, hb, h⟩
      · exact absurd h (hw _ _ _ hc e)
      · cases b
        · exact here (raiseErr_eq (by simpa using h)) (.format h1 h2 hc hb)
        · simp at h
  | pattern p =>
    obtain ⟨n, h1, h2⟩ := hv
    simp only [run, runPattern] at h
    split at h
    · split at h
      · cases h
      · rename_i m hm
        split at h
        · cases h
        · rename_i hk
          exact here (raiseErr_eq (by simpa using h)) (.pattern h1 h2 hm rfl (by simpa using hk))
    · cases h
  | held y =>
    cases y with
    | maximum m ex =>
      obtain ⟨n, h1, h2, h3⟩ := hv
      have key : e = ⟨c!"maximum_error", ctx.path, []⟩ ∧ ∃ x, Worth n v x ∧ (NumBefore m x ∨ m = x ∧ ex = true) := by
        rcases bind_err.1 h with h | ⟨b, hb, h⟩
        · cases ex <;> (rcases bind_err.1 h with h | ⟨_, _, h⟩ <;> first | exact absurd h (operand_noVal _ e) | exact absurd h (lt_noVal _ _ e) | exact absurd h (le_noVal _ _ e))
        · cases b
          · simp at h
          · refine ⟨raiseErr_eq (by simpa using h), ?_⟩
            cases ex
            · obtain ⟨x, hx, hb⟩ := Res.bind_eq_ok.1 (show ((Operand.val v).num >>= _) = _ from hb)
              exact ⟨x, .ofOperand h2 hx, .inl (lt_before hb)⟩
            · obtain ⟨x, hx, hb⟩ := Res.bind_eq_ok.1 (show ((Operand.val v).num >>= _) = _ from hb)
              exact ⟨x, .ofOperand h2 hx, (le_before hb).imp_right fun h => ⟨h, rfl⟩⟩
      obtain ⟨he, x, hn, hb⟩ := key
      rcases h3 with ⟨hk, hex⟩ | ⟨hk, rfl⟩
      · exact here he (.maximum hk h1 hn (hb.imp_right fun h => ⟨h.1, hex h.2⟩))
      · exact here he (.exclusiveMaximum hk h1 hn (hb.imp_right fun h => h.1))
    | minimum m ex =>
      obtain ⟨n, h1, h2, h3⟩ := hv
      have key : e = ⟨c!"minimum_error", ctx.path, []⟩ ∧ ∃ x, Worth n v x ∧ (NumBefore x m ∨ m = x ∧ ex = true) := by
        rcases bind_err.1 h with h | ⟨b, hb, h⟩
        · cases ex <;> (rcases bind_err.1 h with h | ⟨_, _, h⟩ <;> first | exact absurd h (operand_noVal _ e) | exact absurd h (lt_noVal _ _ e) | exact absurd h (le_noVal _ _ e))
        · cases b
          · simp at h
          · refine ⟨raiseErr_eq (by simpa using h), ?_⟩
            cases ex
            · obtain ⟨x, hx, hb⟩ := Res.bind_eq_ok.1 (show ((Operand.val v).num >>= _) = _ from hb)
              exact ⟨x, .ofOperand h2 hx, .inl (lt_before hb)⟩
            · obtain ⟨x, hx, hb⟩ := Res.bind_eq_ok.1 (show ((Operand.val v).num >>= _) = _ from hb)
              exact ⟨x, .ofOperand h2 hx, (le_before hb).imp_right fun h => ⟨h.symm, rfl⟩⟩
      obtain ⟨he, x, hn, hb⟩ := key
      rcases h3 with ⟨hk, hex⟩ | ⟨hk, rfl⟩
      · exact here he (.minimum hk h1 hn (hb.imp_right fun h => ⟨h.1, hex h.2⟩))
      · exact here he (.exclusiveMinimum hk h1 hn (hb.imp_right fun h => h.1))
    | multipleOf =>
      rcases bind_err.1 h with h | ⟨_, _, h⟩
      · exact absurd h (toDecimal_noVal _ _ e)
      · cases h
    | const y =>
      obtain ⟨n, h1, h2, h3, h4⟩ := hv
      obtain ⟨h5, h6⟩ := heldConst_says (w := w) h4 h
      exact here h5 (.const h1 h3 (h6.imp_right fun h => ⟨h2, h⟩))

end

end Verif.Spec
