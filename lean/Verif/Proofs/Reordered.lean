import Verif.Spec.Reordered
import Verif.Proofs.Dict
import Verif.Proofs.Load
import Verif.Proofs.Subs
/-! # What the order of members cannot change: lookups, comparisons and validators that do not catch errors -/

namespace Verif.Spec
open Verif

theorem ReorderedD.keys {a b : List (Str × Val)} (h : ReorderedD a b) : a.map Prod.fst = b.map Prod.fst := by
  induction a generalizing b with
  | nil => cases h; rfl
  | cons p a ih => cases h with | cons hx h => simp [ih h]

theorem ReorderedD.len {a b : List (Str × Val)} (h : ReorderedD a b) : a.length = b.length := by
  have := congrArg List.length h.keys
  simpa using this

theorem ReorderedL.len {a b : List Val} (h : ReorderedL a b) : a.length = b.length := by
  induction a generalizing b with
  | nil => cases h; rfl
  | cons p a ih => cases h with | cons hx h => simp [ih h]

theorem ReorderedD.get {a b : List (Str × Val)} (h : ReorderedD a b) (k : Str) :
    (dictGet k a = none ∧ dictGet k b = none) ∨ ∃ x y, dictGet k a = some x ∧ dictGet k b = some y ∧ Reordered x y := by
  induction a generalizing b with
  | nil => cases h; exact .inl ⟨rfl, rfl⟩
  | cons p a ih =>
    cases h with
    | @cons k' x y _ _ hx h =>
      by_cases e : k' = k
      · exact .inr ⟨x, y, by simp [dictGet, e], by simp [dictGet, e], hx⟩
      · simpa [dictGet, e] using ih h

/-- A permutation of the right side is one of the left side. -/
theorem ReorderedD.moved {a b c : List (Str × Val)} (h : ReorderedD a b) (hp : a.Perm c) : ∃ d, ReorderedD c d ∧ b.Perm d := by
  induction hp generalizing b with
  | nil => exact ⟨b, h, .refl _⟩
  | cons p _ ih =>
    cases h with
    | cons hx h =>
      obtain ⟨d, h1, h2⟩ := ih h
      exact ⟨_, .cons hx h1, h2.cons _⟩
  | swap p q l =>
    cases h with
    | cons hx h => cases h with
      | cons hy h => exact ⟨_, .cons hy (.cons hx h), .swap _ _ _⟩
  | trans _ _ ih1 ih2 =>
    obtain ⟨d, h1, h2⟩ := ih1 h
    obtain ⟨e, h3, h4⟩ := ih2 h1
    exact ⟨e, h3, h2.trans h4⟩

mutual
theorem Reordered.flip : {v w : Val} → Reordered v w → Reordered w v
  | _, _, .same v => .same v
  | _, _, .list h => .list (ReorderedL.flip h)
  | _, _, .dict hn h hp => by
    have h' := ReorderedD.flip h
    obtain ⟨d, h1, h2⟩ := h'.moved hp
    refine .dict ?_ h1 h2.symm
    have := (hp.map Prod.fst).nodup_iff.1 (h.keys ▸ hn)
    exact this
theorem ReorderedL.flip : {v w : List Val} → ReorderedL v w → ReorderedL w v
  | _, _, .nil => .nil
  | _, _, .cons h t => .cons (Reordered.flip h) (ReorderedL.flip t)
theorem ReorderedD.flip : {v w : List (Str × Val)} → ReorderedD v w → ReorderedD w v
  | _, _, .nil => .nil
  | _, _, .cons h t => .cons (Reordered.flip h) (ReorderedD.flip t)
end

theorem dictGet_perm {β : Type} {a b : List (Str × β)} (hn : (a.map Prod.fst).Nodup) (hp : a.Perm b) (k : Str) : dictGet k a = dictGet k b := by
  have hn' := (hp.map Prod.fst).nodup_iff.1 hn
  cases e : dictGet k a with
  | some x => exact (dictGet_of_mem hn' (hp.mem_iff.1 (dictGet_mem e))).symm
  | none =>
    cases e' : dictGet k b with
    | none => rfl
    | some x => rw [dictGet_of_mem hn (hp.mem_iff.2 (dictGet_mem e'))] at e; cases e

/-- Dictionaries with the same keys and related values. -/
structure DictLike (kvs kws : List (Str × Val)) : Prop where
  len : kvs.length = kws.length
  left : (kvs.map Prod.fst).Nodup
  right : (kws.map Prod.fst).Nodup
  get : ∀ k, (dictGet k kvs = none ∧ dictGet k kws = none) ∨ ∃ x y, dictGet k kvs = some x ∧ dictGet k kws = some y ∧ Reordered x y

theorem Reordered.dictLike {kvs mid kws : List (Str × Val)} (hn : (kvs.map Prod.fst).Nodup) (h : ReorderedD kvs mid) (hp : mid.Perm kws) :
    DictLike kvs kws := by
  have hm : (mid.map Prod.fst).Nodup := h.keys ▸ hn
  refine ⟨h.len.trans hp.length_eq, hn, (hp.map Prod.fst).nodup_iff.1 hm, fun k => ?_⟩
  rw [← dictGet_perm hm hp k]
  exact h.get k

theorem DictLike.has {kvs kws : List (Str × Val)} (h : DictLike kvs kws) (k : Str) : dictHas k kvs = dictHas k kws := by
  unfold dictHas
  rcases h.get k with ⟨h1, h2⟩ | ⟨x, y, h1, h2, _⟩ <;> simp [h1, h2]

/-- Every member of the right one comes from a member of the left one. -/
theorem DictLike.mem {kvs kws : List (Str × Val)} (h : DictLike kvs kws) {k : Str} {y : Val} (hy : (k, y) ∈ kws) :
    ∃ x, (k, x) ∈ kvs ∧ Reordered x y := by
  have hy := dictGet_of_mem h.right hy
  rcases h.get k with ⟨_, h2⟩ | ⟨x, y', h1, h2, hr⟩
  · rw [h2] at hy; cases hy
  · rw [h2] at hy; cases hy; exact ⟨x, dictGet_mem h1, hr⟩

theorem Reordered.cases {v w : Val} (h : Reordered v w) : v = w ∨ (∃ xs ys, v = .list xs ∧ w = .list ys ∧ ReorderedL xs ys) ∨
    ∃ kvs kws, v = .dict kvs ∧ w = .dict kws ∧ DictLike kvs kws := by
  cases h with
  | same => exact .inl rfl
  | list h => exact .inr (.inl ⟨_, _, rfl, rfl, h⟩)
  | dict hn h hp => exact .inr (.inr ⟨_, _, rfl, rfl, Reordered.dictLike hn h hp⟩)

mutual
/-- Comparing a wrapped value with a value does not see the order of the members of the value. -/
theorem nodeEqVal_reordered (n : Node) (v w : Val) (h : Reordered v w) : nodeEqVal n v = nodeEqVal n w := by
  rcases h.cases with rfl | ⟨xs, ys, rfl, rfl, h'⟩ | ⟨kvs, kws, rfl, rfl, h'⟩
  · rfl
  · cases n with
    | arr ns => simp only [nodeEqVal, h'.len, listEqVal_reordered ns xs ys h']
    | _ => simp only [nodeEqVal]
  · cases n with
    | obj ns => simp only [nodeEqVal, h'.len, dictEqVal_reordered ns kvs kws h']
    | _ => simp only [nodeEqVal]
theorem listEqVal_reordered (ns : List Node) (xs ys : List Val) (h : ReorderedL xs ys) : listEqVal ns xs = listEqVal ns ys := by
  cases ns with
  | nil => simp [listEqVal]
  | cons n ns =>
    cases h with
    | nil => rfl
    | cons hx h => simp only [listEqVal, nodeEqVal_reordered n _ _ hx, listEqVal_reordered ns _ _ h]
theorem dictEqVal_reordered (ns : List (Str × Node)) (kvs kws : List (Str × Val)) (h : DictLike kvs kws) : dictEqVal ns kvs = dictEqVal ns kws := by
  cases ns with
  | nil => simp [dictEqVal]
  | cons p ns =>
    obtain ⟨k, n⟩ := p
    rcases h.get k with ⟨h1, h2⟩ | ⟨x, y, h1, h2, hr⟩
    · simp only [dictEqVal, h1, h2]
    · simp only [dictEqVal, h1, h2, nodeEqVal_reordered n _ _ hr, dictEqVal_reordered ns kvs kws h]
end

theorem Reordered.num {v w : Val} (h : Reordered v w) : v.num? = w.num? := by
  rcases h.cases with rfl | ⟨xs, ys, rfl, rfl, h⟩ | ⟨kvs, kws, rfl, rfl, h⟩ <;> rfl

theorem rawEqVal_reordered (n : Node) {v w : Val} (h : Reordered v w) : rawEqVal n v = rawEqVal n w := by
  rcases h.cases with rfl | ⟨xs, ys, rfl, rfl, _⟩ | ⟨kvs, kws, rfl, rfl, _⟩
  · rfl
  · cases n <;> simp only [rawEqVal, numEqVal, Val.num?, nodeEqVal_reordered _ _ _ h]
  · cases n <;> simp only [rawEqVal, numEqVal, Val.num?, nodeEqVal_reordered _ _ _ h]

theorem enumLoop_reordered {v w : Val} (h : Reordered v w) (hb : v.isBool = w.isBool) (ctx : Ctx) (ns : List Node) :
    enumLoop v ctx ns = enumLoop w ctx ns := by
  induction ns with
  | nil => rfl
  | cons n ns ih => simp only [enumLoop, rawEqVal_reordered n h, hb, ih]

theorem enumIn_reordered {v w : Val} (h : Reordered v w) (ns : List Node) : enumIn v ns = enumIn w ns := by
  induction ns with
  | nil => rfl
  | cons n ns ih => simp only [enumIn, rawEqVal_reordered n h, ih]

/-- Distinct names are distinct items. -/
theorem uniqueLoop_names (ctx : Ctx) (ks : List Str) (hn : ks.Nodup) (seen : List Str) (hs : ∀ k ∈ ks, k ∉ seen) (i : Nat) :
    uniqueLoop ctx (seen.map Val.str) i (ks.map Val.str) = .ok () := by
  induction ks generalizing seen i with
  | nil => rfl
  | cons k ks ih =>
    have h1 : (seen.map Val.str).any (scalarEq (.str k)) = false := by
      rw [List.any_eq_false]
      intro x hx
      obtain ⟨s, hs', rfl⟩ := List.mem_map.1 hx
      have : k ≠ s := fun e => hs k (by simp) (e ▸ hs')
      simp [scalarEq, this]
    have hn := List.nodup_cons.1 hn
    simp only [List.map_cons, uniqueLoop, hashable, h1]
    exact ih hn.2 (k :: seen) (fun k' hk' => by
      intro hm
      rcases List.mem_cons.1 hm with rfl | hm
      · exact hn.1 hk'
      · exact hs k' (by simp [hk']) hm) _

theorem uniqueLoop_reordered (ctx : Ctx) {xs ys : List Val} (h : ReorderedL xs ys) (seen seen' : List Val) (hs : ReorderedL seen seen')
    (hh : ∀ x ∈ seen, hashable x = true) (i : Nat)
    (hok : uniqueLoop ctx seen i xs = .ok ()) : uniqueLoop ctx seen' i ys = .ok () := by
  have heq : ∀ {a b : List Val}, ReorderedL a b → (∀ x ∈ a, hashable x = true) → a = b := by
    intro a
    induction a with
    | nil => intro b h _; cases h; rfl
    | cons x a ih =>
      intro b h hh
      cases h with
      | cons hx h =>
        rw [ih h fun y hy => hh y (by simp [hy])]
        rcases hx.cases with rfl | ⟨_, _, rfl, _, _⟩ | ⟨_, _, rfl, _, _⟩
        · rfl
        · have := hh _ (List.mem_cons_self ..); cases this
        · have := hh _ (List.mem_cons_self ..); cases this
  have : ∀ (xs : List Val) (seen : List Val) (i : Nat), uniqueLoop ctx seen i xs = .ok () → ∀ x ∈ xs, hashable x = true := by
    intro xs
    induction xs with
    | nil => simp
    | cons x xs ih =>
      intro seen i hok
      rw [uniqueLoop] at hok
      by_cases hx : hashable x = true
      · simp only [hx, Bool.not_true, Bool.false_eq_true, ↓reduceIte] at hok
        split at hok
        · cases hok
        · intro y hy
          rcases List.mem_cons.1 hy with rfl | hy
          · exact hx
          · exact ih _ _ hok y hy
      · simp [hx] at hok
  rw [← heq h (this xs seen i hok), ← heq hs hh]
  exact hok

/-- Format checkers that do not look at the order of members. -/
def FormatsBlind (w : World) : Prop :=
  ∀ name check v v', w.formats name = some check → Reordered v v' → check v = .ok true → check v' = .ok true

section
variable {α : Type} {rec : α → Val → Ctx → Res Unit} {P : α → Prop}
  (hrec : ∀ a v v' ctx, P a → Reordered v v' → rec a v ctx = .ok () → rec a v' ctx = .ok ())
include hrec

theorem itemsLoop_reordered {it : α} (ha : P it) (ctx : Ctx) {xs ys : List Val} (h : ReorderedL xs ys) (i : Nat)
    (hok : itemsLoop rec it ctx i xs = .ok ()) : itemsLoop rec it ctx i ys = .ok () := by
  induction xs generalizing ys i with
  | nil => cases h; rfl
  | cons x xs ih =>
    cases h with
    | cons hx h =>
      rw [itemsLoop] at hok ⊢
      obtain ⟨_, h1, h2⟩ := Res.bind_eq_ok.1 hok
      rw [hrec _ _ _ _ ha hx h1, Res.ok_bind]
      exact ih h _ h2

theorem arrayLoop_reordered (f : Nat) {items : Option α} (hi : ∀ a, items = some a → P a) (ctx : Ctx) (ps : List α) (hp : ∀ a ∈ ps, P a)
    {xs ys : List Val} (h : ReorderedL xs ys) (i : Nat)
    (hok : arrayLoop rec f items ctx i ps xs = .ok ()) : arrayLoop rec f items ctx i ps ys = .ok () := by
  induction ps generalizing xs ys i with
  | nil =>
    cases items with
    | none => simp [arrayLoop]
    | some it =>
      rw [arrayLoop] at hok ⊢
      exact itemsLoop_reordered hrec (hi it rfl) ctx h i hok
  | cons p ps ih =>
    cases h with
    | nil => exact hok
    | cons hx h =>
      rw [arrayLoop] at hok ⊢
      obtain ⟨_, h1, h2⟩ := Res.bind_eq_ok.1 hok
      rw [hrec _ _ _ _ (hp p (by simp)) hx h1, Res.ok_bind]
      exact ih (fun a ha => hp a (by simp [ha])) h _ h2

theorem patternLoop_reordered (w : World) (k : Str) {x y : Val} (hx : Reordered x y) (ctx : Ctx) (ps : List (Str × α)) (hp : ∀ p ∈ ps, P p.2)
    (ev b : Bool) (hok : patternLoop rec w k x ctx ev ps = .ok b) : patternLoop rec w k y ctx ev ps = .ok b := by
  induction ps generalizing ev with
  | nil => exact hok
  | cons p ps ih =>
    obtain ⟨q, a⟩ := p
    rw [patternLoop] at hok ⊢
    cases e : w.search q with
    | none => rw [e] at hok; cases hok
    | some m =>
      rw [e] at hok
      simp only at hok ⊢
      by_cases hm : m k = true
      · rw [if_pos hm] at hok ⊢
        obtain ⟨_, h1, h2⟩ := Res.bind_eq_ok.1 hok
        rw [hrec _ _ _ _ (hp _ (List.mem_cons_self ..)) hx h1, Res.ok_bind]
        exact ih (fun a ha => hp a (by simp [ha])) _ h2
      · rw [if_neg hm] at hok ⊢
        exact ih (fun a ha => hp a (by simp [ha])) _ hok

theorem allOf_reordered {v v' : Val} (hv : Reordered v v') (ctx : Ctx) (xs : List α) (hp : ∀ a ∈ xs, P a)
    (hok : allOfLoop rec v ctx xs = .ok ()) : allOfLoop rec v' ctx xs = .ok () := by
  induction xs with
  | nil => rfl
  | cons a xs ih =>
    rw [allOfLoop] at hok ⊢
    obtain ⟨_, h1, h2⟩ := Res.bind_eq_ok.1 hok
    rw [hrec _ _ _ _ (hp a (by simp)) hv h1, Res.ok_bind]
    exact ih (fun a ha => hp a (by simp [ha])) h2

theorem depSchemas_reordered {kvs kws : List (Str × Val)} (hv : Reordered (.dict kvs) (.dict kws)) (h : DictLike kvs kws) (ctx : Ctx)
    (m : List (Str × α)) (hp : ∀ a ∈ m.map Prod.snd, P a)
    (hok : depSchemasLoop rec kvs ctx m = .ok ()) : depSchemasLoop rec kws ctx m = .ok () := by
  induction m with
  | nil => rfl
  | cons q m ih =>
    obtain ⟨k, a⟩ := q
    rw [depSchemasLoop] at hok ⊢
    rw [← h.has k]
    by_cases hk : dictHas k kvs = true
    · simp only [hk, ↓reduceIte] at hok ⊢
      obtain ⟨_, h1, h2⟩ := Res.bind_eq_ok.1 hok
      rw [hrec _ _ _ _ (hp a (by simp)) hv h1, Res.ok_bind]
      exact ih (fun a ha => hp a (by simp_all)) h2
    · simp only [hk] at hok ⊢
      exact ih (fun a ha => hp a (by simp_all)) hok

theorem object_reordered (w : World) (o : ObjV α) (hp : ∀ a ∈ (V.object o).subs, P a) {kvs kws : List (Str × Val)} (h : DictLike kvs kws) (ctx : Ctx)
    (hok : objectLoop rec w o ctx kvs = .ok ()) : objectLoop rec w o ctx kws = .ok () := by
  have key : ∀ d : List (Str × Val), objectLoop rec w o ctx d = .ok () ↔ ∀ p ∈ d, objectItem rec w o p.1 p.2 ctx = .ok () := by
    intro d
    induction d with
    | nil => simp [objectLoop]
    | cons p d ih =>
      obtain ⟨k, x⟩ := p
      rw [objectLoop]
      cases e : objectItem rec w o k x ctx <;> simp [e, ih]
  rw [key] at hok ⊢
  rintro ⟨k, y⟩ hy
  obtain ⟨x, hx, hr⟩ := h.mem hy
  have := hok _ hx
  have hprop : ∀ a, dictGet k o.props = some a → P a := fun a e =>
    hp a (by simp only [V.subs, List.mem_append, List.mem_map]; exact .inl (.inl (.inl ⟨_, dictGet_mem e, rfl⟩)))
  have hadd : ∀ a, o.additional = some (.lazy a) → P a := fun a e => hp a (by simp [V.subs, e])
  have hpat : ∀ ps, o.patterns = some ps → ∀ p ∈ ps, P p.2 := fun ps e p hp' =>
    hp p.2 (by simp only [V.subs, List.mem_append, e, Option.getD_some, List.mem_map]; exact .inl (.inl (.inr ⟨_, hp', rfl⟩)))
  rw [objectItem] at this ⊢
  have rest : ∀ ev : Bool, ((if ev = true then .ok ()
      else match o.additional with
        | some .fail => .err (raisePlain (Ctx.path (ctx ++ [k])))
        | some (.lazy a) => rec a x (ctx ++ [k])
        | none => if o.unevaluated then .err (raisePlain (Ctx.path (ctx ++ [k]))) else .ok () : Res Unit)) = .ok () →
      ((if ev = true then .ok ()
      else match o.additional with
        | some .fail => .err (raisePlain (Ctx.path (ctx ++ [k])))
        | some (.lazy a) => rec a y (ctx ++ [k])
        | none => if o.unevaluated then .err (raisePlain (Ctx.path (ctx ++ [k]))) else .ok () : Res Unit)) = .ok () := by
    intro ev h4
    cases ev with
    | true => rfl
    | false =>
      simp only [Bool.false_eq_true, ↓reduceIte] at h4 ⊢
      cases e' : o.additional with
      | none => rw [e'] at h4; exact h4
      | some b =>
        rw [e'] at h4
        cases b with
        | fail => exact h4
        | lazy a => exact hrec _ _ _ _ (hadd a e') hr h4
  have main : ∀ z : Res Unit, (z >>= fun _ => (match dictGet k o.props with
      | some p => rec p x (ctx ++ [k])
      | none => do
        let evaluated ← match o.patterns with
          | some ps => patternLoop rec w k x (ctx ++ [k]) false ps
          | none => .ok false
        if evaluated then .ok ()
        else match o.additional with
          | some .fail => .err (raisePlain (Ctx.path (ctx ++ [k])))
          | some (.lazy a) => rec a x (ctx ++ [k])
          | none => if o.unevaluated then .err (raisePlain (Ctx.path (ctx ++ [k]))) else .ok ())) = .ok () →
      (z >>= fun _ => (match dictGet k o.props with
      | some p => rec p y (ctx ++ [k])
      | none => do
        let evaluated ← match o.patterns with
          | some ps => patternLoop rec w k y (ctx ++ [k]) false ps
          | none => .ok false
        if evaluated then .ok ()
        else match o.additional with
          | some .fail => .err (raisePlain (Ctx.path (ctx ++ [k])))
          | some (.lazy a) => rec a y (ctx ++ [k])
          | none => if o.unevaluated then .err (raisePlain (Ctx.path (ctx ++ [k]))) else .ok ())) = .ok () := by
    intro z hz
    obtain ⟨_, h1, h2⟩ := Res.bind_eq_ok.1 hz
    rw [h1, Res.ok_bind]
    cases e : dictGet k o.props with
    | some a => rw [e] at h2; exact hrec _ _ _ _ (hprop a e) hr h2
    | none =>
      rw [e] at h2
      simp only at h2 ⊢
      cases e' : o.patterns with
      | none => rw [e'] at h2; exact rest false h2
      | some ps =>
        rw [e'] at h2
        simp only at h2 ⊢
        obtain ⟨ev, h3, h4⟩ := Res.bind_eq_ok.1 h2
        rw [patternLoop_reordered hrec w k hr _ ps (hpat ps e') _ _ h3, Res.ok_bind]
        exact rest _ h4
  cases e : o.names with
  | none => rw [e] at this; exact main _ this
  | some n => rw [e] at this; exact main _ this

/-- A validator that does not catch errors and accepts a value accepts it with its members in another order. -/
theorem run_reordered (w : World) (hw : FormatsBlind w) (f : Nat) (x : V α) (hc : x.catches = false) (hp : ∀ a ∈ x.subs, P a) {v v' : Val}
    (hv : Reordered v v') (ctx : Ctx) (hok : run rec w f x v ctx = .ok ()) : run rec w f x v' ctx = .ok () := by
  have hlen : pyLen v = pyLen v' := by
    rcases hv.cases with rfl | ⟨xs, ys, rfl, rfl, h⟩ | ⟨kvs, kws, rfl, rfl, h⟩
    · rfl
    · simp [pyLen, h.len]
    · simp [pyLen, h.len]
  have hty : typeName v = typeName v' := by
    rcases hv.cases with rfl | ⟨xs, ys, rfl, rfl, h⟩ | ⟨kvs, kws, rfl, rfl, h⟩ <;> rfl
  have hbo : v.isBool = v'.isBool := by
    rcases hv.cases with rfl | ⟨xs, ys, rfl, rfl, h⟩ | ⟨kvs, kws, rfl, rfl, h⟩ <;> rfl
  have hnum := hv.num
  cases x with
  | type ts => simpa only [run, runType, hty] using hok
  | enum vals =>
    have he : ∀ k, eqNat v k = eqNat v' k := fun k => by simp only [eqNat, hnum]
    simpa only [run, runEnum, hbo, he, enumLoop_reordered hv hbo, enumIn_reordered hv] using hok
  | const n => simpa only [run, runConst, hbo, rawEqVal_reordered n hv] using hok
  | maximum m e => simpa only [run, runMaximum, hnum] using hok
  | minimum m e => simpa only [run, runMinimum, hnum] using hok
  | minLength n | maxLength n | minItems n | maxItems n => simpa only [run, runMinLen, runMaxLen, hlen] using hok
  | minProperties n | maxProperties n => simpa only [run, runMinProps, runMaxProps, hlen] using hok
  | contains | anyOf | oneOf | not => simp [V.catches] at hc
  | cond i t e =>
    cases i with
    | some i => simp [V.catches] at hc
    | none => rfl
  | allOf xs => exact allOf_reordered hrec hv ctx xs (fun a ha => hp a (by simpa [V.subs] using ha)) hok
  | format n =>
    simp only [run, runFormat] at hok ⊢
    cases e : w.formats n with
    | none => rw [e] at hok; cases hok
    | some check =>
      rw [e] at hok
      simp only at hok ⊢
      obtain ⟨b, h1, h2⟩ := Res.bind_eq_ok.1 hok
      cases b with
      | false => simp at h2
      | true => rw [hw n check v v' e hv h1]; rfl
  | multipleOf m =>
    rcases hv.cases with rfl | ⟨xs, ys, rfl, rfl, h⟩ | ⟨kvs, kws, rfl, rfl, h⟩
    · exact hok
    · cases hok
    · cases hok
  | uniqueItems =>
    rcases hv.cases with rfl | ⟨xs, ys, rfl, rfl, h⟩ | ⟨kvs, kws, rfl, rfl, h⟩
    · exact hok
    · exact uniqueLoop_reordered ctx h [] [] .nil (by simp) 0 hok
    · have := uniqueLoop_names ctx (kws.map Prod.fst) h.right [] (by simp) 0
      rw [List.map_map] at this
      exact this
  | array pre its =>
    rcases hv.cases with rfl | ⟨xs, ys, rfl, rfl, h⟩ | ⟨kvs, kws, rfl, rfl, h⟩
    · exact hok
    · exact arrayLoop_reordered hrec f (fun a ha => hp a (by simp [V.subs, ha])) ctx _ (fun a ha => hp a (by simp only [V.subs, List.mem_append]; exact .inl ha)) h 0 hok
    · cases hok
  | object o =>
    rcases hv.cases with rfl | ⟨xs, ys, rfl, rfl, h⟩ | ⟨kvs, kws, rfl, rfl, h⟩
    · exact hok
    · rfl
    · exact object_reordered hrec w o hp h ctx hok
  | required ks =>
    have hin : ∀ k, pyIn k v = pyIn k v' := by
      intro k
      rcases hv.cases with rfl | ⟨xs, ys, rfl, rfl, h⟩ | ⟨kvs, kws, rfl, rfl, h⟩
      · rfl
      · simp only [pyIn, Res.ok.injEq]
        clear hok hv hlen hty hbo hnum
        induction xs generalizing ys with
        | nil => cases h; rfl
        | cons x xs ih =>
          cases h with
          | cons hx h =>
            rw [List.any_cons, List.any_cons, ih _ h]
            rcases hx.cases with rfl | ⟨_, _, rfl, rfl, _⟩ | ⟨_, _, rfl, rfl, _⟩ <;> rfl
      · simp only [pyIn, h.has]
    have : ∀ ks, runRequired v ctx ks = runRequired v' ctx ks := by
      intro ks
      induction ks with
      | nil => rfl
      | cons k ks ih => simp only [runRequired, hin, ih]
    simpa only [run, this] using hok
  | dependentRequired m =>
    rcases hv.cases with rfl | ⟨xs, ys, rfl, rfl, h⟩ | ⟨kvs, kws, rfl, rfl, h⟩
    · exact hok
    · rfl
    · have h1 : ∀ is, depRequiredItems kvs ctx is = depRequiredItems kws ctx is := by
        intro is
        induction is with
        | nil => rfl
        | cons i is ih => simp only [depRequiredItems, h.has, ih]
      have h2 : ∀ m, depRequiredLoop kvs ctx m = depRequiredLoop kws ctx m := by
        intro m
        induction m with
        | nil => rfl
        | cons q m ih => obtain ⟨k, is⟩ := q; simp only [depRequiredLoop, h.has, h1, ih]
      simpa only [run, h2] using hok
  | dependentSchemas m =>
    rcases hv.cases with rfl | ⟨xs, ys, rfl, rfl, h⟩ | ⟨kvs, kws, rfl, rfl, h⟩
    · exact hok
    · rfl
    · exact depSchemas_reordered hrec hv h ctx m hp hok
  | pattern p =>
    rcases hv.cases with rfl | ⟨xs, ys, rfl, rfl, h⟩ | ⟨kvs, kws, rfl, rfl, h⟩
    · exact hok
    · cases hok
    · cases hok
  | held e =>
    rcases hv.cases with rfl | ⟨xs, ys, rfl, rfl, h⟩ | ⟨kvs, kws, rfl, rfl, h⟩
    · exact hok
    · cases e with
      | const n => simpa only [run, runHeld, hbo, nodeEqVal_reordered n _ _ hv] using hok
      | maximum m e | minimum m e => cases e <;> cases hok
      | multipleOf => cases hok
    · cases e with
      | const n => simpa only [run, runHeld, hbo, nodeEqVal_reordered n _ _ hv] using hok
      | maximum m e | minimum m e => cases e <;> cases hok
      | multipleOf => cases hok

end

end Verif.Spec
