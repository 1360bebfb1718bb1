import Verif.Proofs.Layer2
/-! # One object schema: keywords that apply subschemas -/

namespace Verif
open Verif.Props

section
variable {w : World} {docs : List Doc} {voc : List Kw} {f : Nat} {its : List (Str × Node)} {v : Val} {ctx : Ctx}
  {fit sat : Node → Val → Prop}

set_option quotPrecheck false in
local notation "R" G => validateN w docs voc (f + 3) (Node.obj (List.filter (fun p => decide (p.1 ∈ G)) its)) v ctx

/-- What is known about subschemas. -/
def SubJudged (w : World) (docs : List Doc) (voc : List Kw) (f : Nat) (fit sat : Node → Val → Prop) : Prop :=
  ∀ s x c, fit s x → x.NoBraces → CtxOk c → Judges (validateN w docs voc (f + 2) s x c) (sat s x)

theorem j_allOf (hr : Recog voc its) (hc : CtxOk ctx) (hv : v.NoBraces) (F : FitLayer w fit sat its v)
    (H : SubJudged w docs voc f fit sat) :
    Judges (R [c!"allOf"]) (∀ xs, dictGet c!"allOf" its = some (.arr xs) → ∀ s ∈ xs, sat s v) := by
  refine judge_one hr .allOf c!"allOf" rfl rfl _ (fun h => by simp [h]) fun n hn itsG ho hg => ?_
  obtain ⟨xs, rfl, hs⟩ := F.allOf n hn
  rw [(C28_allOf w docs voc (f + 1) itsG v ctx ho xs hg).1]
  exact (Judges.firstFail xs _ (fun s => sat s v) fun s hx => H s v ctx (hs s hx) hv hc).congr (by simp [hn])

theorem j_anyOf (hr : Recog voc its) (hc : CtxOk ctx) (hv : v.NoBraces) (F : FitLayer w fit sat its v)
    (H : SubJudged w docs voc f fit sat) :
    Judges (R [c!"anyOf"]) (∀ xs, dictGet c!"anyOf" its = some (.arr xs) → ∃ s ∈ xs, sat s v) := by
  refine judge_one hr .anyOf c!"anyOf" rfl rfl _ (fun h => by simp [h]) fun n hn itsG ho hg => ?_
  obtain ⟨xs, rfl, hne, hs⟩ := F.anyOf n hn
  have hj := fun s hx => H s v ctx (hs s hx) hv hc
  have key := C28_anyOf w docs voc (f + 1) itsG v ctx ho xs hg hne fun s hx => (hj s hx).2
  refine ⟨key.1.trans ?_, key.2⟩
  simp only [hn, Option.some.injEq, Node.arr.injEq, forall_eq']
  exact ⟨fun ⟨s, hx, h⟩ => ⟨s, hx, (hj s hx).1.1 h⟩, fun ⟨s, hx, h⟩ => ⟨s, hx, (hj s hx).1.2 h⟩⟩

open Classical in
theorem j_oneOf (hr : Recog voc its) (hc : CtxOk ctx) (hv : v.NoBraces) (F : FitLayer w fit sat its v)
    (H : SubJudged w docs voc f fit sat) :
    Judges (R [c!"oneOf"]) (∀ xs, dictGet c!"oneOf" its = some (.arr xs) →
      (xs.filter fun s => sat s v).length = 1) := by
  refine judge_one hr .oneOf c!"oneOf" rfl rfl _ (fun h => by simp [h]) fun n hn itsG ho hg => ?_
  obtain ⟨xs, rfl, hne, hs⟩ := F.oneOf n hn
  have hj := fun s hx => H s v ctx (hs s hx) hv hc
  have key := C28_oneOf w docs voc (f + 1) itsG v ctx hc ho xs hg hne fun s hx => (hj s hx).2
  refine ⟨key.1.trans ?_, key.2⟩
  rw [countOk_judges xs _ (fun s => sat s v) hj]
  simp [hn]

theorem j_not (hr : Recog voc its) (hc : CtxOk ctx) (hv : v.NoBraces) (F : FitLayer w fit sat its v)
    (H : SubJudged w docs voc f fit sat) :
    Judges (R [c!"not"]) (∀ s, dictGet c!"not" its = some s → ¬ sat s v) := by
  refine judge_one hr .not c!"not" rfl rfl _ (fun h => by simp [h]) fun n hn itsG ho hg => ?_
  obtain ⟨⟨kvs, rfl⟩, hf⟩ := F.not n hn
  have hj := H _ v ctx hf hv hc
  rw [C28_not w docs voc (f + 1) itsG v ctx ho _ hg ⟨kvs, rfl⟩ hj.2]
  by_cases h : sat (.obj kvs) v
  · rw [if_pos (hj.1.2 h)]; exact Judges.false fun H => H _ hn h
  · rw [if_neg fun e => h (hj.1.1 e)]; exact Judges.true fun s e => by rw [hn] at e; cases e; exact h

theorem j_dependentSchemas (hr : Recog voc its) (hc : CtxOk ctx) (hv : v.NoBraces) (F : FitLayer w fit sat its v)
    (H : SubJudged w docs voc f fit sat) :
    Judges (R [c!"dependentSchemas"]) (∀ kvs m, v = .dict kvs → dictGet c!"dependentSchemas" its = some (.obj m) →
      ∀ k s, (k, s) ∈ m → k ∈ kvs.map Prod.fst → sat s v) := by
  refine judge_one hr .dependentSchemas c!"dependentSchemas" rfl rfl _ (fun h => by simp [h]) fun n hn itsG ho hg => ?_
  obtain ⟨m, rfl, hs⟩ := F.dependentSchemas n hn
  by_cases hd : ∃ kvs, v = .dict kvs
  · obtain ⟨kvs, rfl⟩ := hd
    rw [(C27_dependentSchemas w docs voc (f + 1) itsG ctx ho m hg kvs).1]
    refine (Judges.firstFail _ _ (fun p => sat p.2 (.dict kvs)) fun p hp => ?_).congr ?_
    · obtain ⟨h1, h2⟩ := List.mem_filter.1 hp
      exact H _ _ ctx (hs kvs rfl p.1 p.2 h1 (by simpa using h2)) hv hc
    · constructor
      · intro hall kvs' m' e e' k s hks hk
        cases e; rw [hn] at e'; cases e'
        exact hall (k, s) (List.mem_filter.2 ⟨hks, by simpa using hk⟩)
      · intro hall p hp
        obtain ⟨h1, h2⟩ := List.mem_filter.1 hp
        exact hall kvs m rfl hn p.1 p.2 h1 (by simpa using h2)
  · have hv' : ∀ kvs, v ≠ .dict kvs := fun kvs e => hd ⟨kvs, e⟩
    exact .ok ((C27_non_objects w docs voc (f + 1) itsG v ctx hv').2 m ho hg) fun kvs _ e => absurd e (hv' kvs)

open Classical in
theorem j_contains (hr : Recog voc its) (hc : CtxOk ctx) (hv : v.NoBraces) (F : FitLayer w fit sat its v)
    (H : SubJudged w docs voc f fit sat) :
    Judges (R [c!"contains", c!"minContains", c!"maxContains"]) (∀ xs s, v = .list xs → dictGet c!"contains" its = some s →
      (dictGet c!"minContains" its = none → ∃ x ∈ xs, sat s x) ∧
      (∀ m, dictGet c!"minContains" its = some (.num (.fin m)) → m ≤ ((xs.filter fun x => sat s x).length : Rat)) ∧
      ∀ m, dictGet c!"maxContains" its = some (.num (.fin m)) → ((xs.filter fun x => sat s x).length : Rat) ≤ m) := by
  refine judge_single hr .contains c!"contains" rfl rfl _ (by intro k; cases k <;> decide) _ (fun h => by simp [h])
    fun n hn itsG ho hg => ?_
  obtain ⟨⟨kvs, rfl⟩, ⟨xs, rfl, hfit⟩, hmn, hmx⟩ := F.contains n hn
  obtain ⟨mn, hmn'⟩ : ∃ mn : Option Int, dictGet c!"minContains" its = mn.map fun q => .num (.fin q) := by
    cases h : dictGet c!"minContains" its with
    | none => exact ⟨none, rfl⟩
    | some m => obtain ⟨k, rfl⟩ := hmn m h; exact ⟨some k, rfl⟩
  obtain ⟨mx, hmx', h0⟩ : ∃ mx : Option Int, dictGet c!"maxContains" its = mx.map (fun q => .num (.fin q)) ∧
      ∀ m, mx = some m → m ≠ 0 := by
    cases h : dictGet c!"maxContains" its with
    | none => exact ⟨none, rfl, by simp⟩
    | some m => obtain ⟨k, rfl, hk⟩ := hmx m h; exact ⟨some k, rfl, by simpa using hk⟩
  have hj : ∀ x ∈ xs, Judges (validateN w docs voc (f + 2) (.obj kvs) x []) (sat (.obj kvs) x) := fun x hx =>
    H _ x [] (hfit x hx) (noBracesL (by simpa [Val.NoBraces] using hv) x hx) (by intro k hk; simp at hk)
  rw [C22_contains_partial w docs voc (f + 1) itsG ctx hc ho (.obj kvs) ((hg _ (by simp)).trans hn) ⟨kvs, rfl⟩
    (mn.map fun k => (k : Rat)) (mx.map fun k => (k : Rat))
    (by rw [hg _ (by simp), hmn']; cases mn <;> rfl) (by rw [hg _ (by simp), hmx']; cases mx <;> rfl)
    (by intro m hm; cases mx with
        | none => simp at hm
        | some k => simp at hm; subst hm; rw [truncate_int]; exact h0 k rfl) xs fun x hx => (hj x hx).2]
  refine Judges.ite.congr ?_
  rw [countOk_judges xs _ (fun x => sat (.obj kvs) x) hj]
  have hone : (1 : Int) ≤ ((xs.filter fun x => sat (.obj kvs) x).length : Nat) ↔ ∃ x ∈ xs, sat (.obj kvs) x := by
    constructor
    · intro h
      have : 0 < (xs.filter fun x => sat (.obj kvs) x).length := by omega
      obtain ⟨x, hx⟩ := List.exists_mem_of_length_pos this
      obtain ⟨h1, h2⟩ := List.mem_filter.1 hx
      exact ⟨x, h1, by simpa using h2⟩
    · rintro ⟨x, hx, h⟩
      have : 0 < (xs.filter fun x => sat (.obj kvs) x).length :=
        List.length_pos_of_mem (List.mem_filter.2 ⟨hx, by simpa using h⟩)
      omega
  constructor
  · rintro ⟨h1, h2⟩ xs' s e e'
    cases e; rw [hn] at e'; cases e'
    rw [hmn', hmx']
    cases mn with
    | none =>
      refine ⟨fun _ => hone.1 (by simpa [show truncate 1 = 1 from truncate_int 1] using h1), by simp, ?_⟩
      intro m hm
      cases mx with
      | none => simp at hm
      | some k =>
        simp at hm; subst hm
        simpa [truncate_int, nat_le_rat] using h2
    | some j =>
      refine ⟨by simp, ?_, ?_⟩
      · intro m hm
        simp at hm; subst hm
        simpa [truncate_int, int_le_rat] using h1
      · intro m hm
        cases mx with
        | none => simp at hm
        | some k =>
          simp at hm; subst hm
          simpa [truncate_int, nat_le_rat] using h2
  · intro hall
    obtain ⟨h1, h2, h3⟩ := hall xs _ rfl hn
    rw [hmn'] at h1 h2; rw [hmx'] at h3
    constructor
    · cases mn with
      | none => simpa [show truncate 1 = 1 from truncate_int 1] using hone.2 (h1 rfl)
      | some j => simpa [truncate_int, int_le_rat] using h2 j rfl
    · cases mx with
      | none => rfl
      | some k => simpa [truncate_int, nat_le_rat] using h3 k rfl

theorem schemaNode_is {s : Node} (h : SchemaNode s) (f : Nat) : IsSchema docs f s := by
  rcases h with ⟨kvs, rfl⟩ | ⟨b, rfl⟩
  · exact .inl ⟨kvs, rfl⟩
  · exact .inr ⟨b, rfl⟩

theorem j_array (hr : Recog voc its) (hc : CtxOk ctx) (hv : v.NoBraces) (F : FitLayer w fit sat its v)
    (H : SubJudged w docs voc f fit sat) :
    Judges (R [c!"items", c!"prefixItems", c!"additionalItems"])
      ((∀ xs, v = .list xs → ∀ (i : Nat) p x, (prefixOf its)[i]? = some p → xs[i]? = some x → sat p x) ∧
      ∀ xs s, v = .list xs → restOf its = some s → ∀ (i : Nat) x, (prefixOf its).length ≤ i → xs[i]? = some x → sat s x) := by
  have honly : ∀ k : Kw, k.isAssertion = true →
      dictHas k.key (its.filter fun p => p.1 ∈ [c!"items", c!"prefixItems", c!"additionalItems"]) = true →
      (k = .items ∧ dictGet c!"items" its ≠ none) ∨ (k = .prefixItems ∧ dictGet c!"prefixItems" its ≠ none) := by
    intro k ha hk
    obtain ⟨h1, h2⟩ := has_group hk
    have : k = .items ∨ k = .prefixItems := by revert h1; cases k <;> simp [Kw.key, Kw.keys]
    rcases this with rfl | rfl
    · left; refine ⟨rfl, fun e => ?_⟩; simp [dictHas, Kw.key, Kw.keys, e] at h2
    · right; refine ⟨rfl, fun e => ?_⟩; simp [dictHas, Kw.key, Kw.keys, e] at h2
  have g1 := get_group (its := its) (G := [c!"items", c!"prefixItems", c!"additionalItems"]) (s := c!"items") (by simp)
  have g2 := get_group (its := its) (G := [c!"items", c!"prefixItems", c!"additionalItems"]) (s := c!"prefixItems") (by simp)
  have g3 := get_group (its := its) (G := [c!"items", c!"prefixItems", c!"additionalItems"]) (s := c!"additionalItems") (by simp)
  cases hP : dictGet c!"prefixItems" its with
  | some n =>
    obtain ⟨hI, ps, rfl⟩ := F.prefixItems n hP
    obtain ⟨xs, rfl, hl, h1, h2⟩ := F.array (.inl (by simp [hP]))
    have e1 : prefixOf its = ps := by simp [prefixOf, hP]
    have e2 : restOf its = none := by simp [restOf, hI]
    rw [e1] at hl h1
    have ho : Only voc (its.filter fun p => p.1 ∈ [c!"items", c!"prefixItems", c!"additionalItems"]) .prefixItems :=
      ⟨hr .prefixItems rfl (dictHas_of_get hP), fun k _ ha hk => by
        rcases honly k ha hk with ⟨_, h⟩ | ⟨h, _⟩
        · exact absurd hI h
        · exact h⟩
    rw [C23_prefixItems_partial w docs voc (f + 1) _ ctx ho ps (g2.trans hP) xs hl]
    refine (Judges.firstFail _ _ (fun q => sat q.1 q.2.1) fun q hq => ?_).congr ?_
    · obtain ⟨a, b⟩ := mem_zip_idx.1 hq
      exact H _ _ _ (h1 _ _ _ a b) (noBracesL (by simpa [Val.NoBraces] using hv) _ (List.mem_of_getElem? b))
        (hc.snoc (toDigits_noBrace _))
    · rw [e1, e2]
      constructor
      · intro hall
        refine ⟨?_, by simp⟩
        intro xs' e i p x a b
        cases e; exact hall (p, x, i) (mem_zip_idx.2 ⟨a, b⟩)
      · rintro ⟨hall, _⟩ q hq
        obtain ⟨a, b⟩ := mem_zip_idx.1 hq
        exact hall xs rfl q.2.2 _ _ a b
  | none =>
    cases hI : dictGet c!"items" its with
    | none =>
      refine .ok (none_present _ _ _ _ _ _ _ fun k hk ha => ?_) (by simp [prefixOf, restOf, hI, hP])
      cases hh : dictHas k.key (its.filter fun p => p.1 ∈ [c!"items", c!"prefixItems", c!"additionalItems"]) with
      | false => rfl
      | true =>
        rcases honly k ha hh with ⟨_, h⟩ | ⟨_, h⟩
        · exact absurd hI h
        · exact absurd hP h
    | some n =>
      obtain ⟨xs, rfl, hl, h1, h2⟩ := F.array (.inr (by simp [hI]))
      have ho : Only voc (its.filter fun p => p.1 ∈ [c!"items", c!"prefixItems", c!"additionalItems"]) .items :=
        ⟨hr .items rfl (dictHas_of_get hI), fun k _ ha hk => by
          rcases honly k ha hk with ⟨h, _⟩ | ⟨_, h⟩
          · exact h
          · exact absurd hP h⟩
      rcases F.items n hI with hs | ⟨ps, rfl, ha⟩
      · have e1 : prefixOf its = [] := by
          rcases hs with ⟨kvs, rfl⟩ | ⟨b, rfl⟩ <;> simp [prefixOf, hP, hI]
        have e2 : restOf its = some n := by
          rcases hs with ⟨kvs, rfl⟩ | ⟨b, rfl⟩ <;> simp [restOf, hI]
        rw [C23_items w docs voc f _ ctx ho n (g1.trans hI) (schemaNode_is hs _) xs]
        refine (Judges.firstFail _ _ (fun q => sat n q.1) fun q hq => ?_).congr ?_
        · have b := mem_idx.1 hq
          exact H _ _ _ (h2 n e2 _ _ (by simp [e1]) b)
            (noBracesL (by simpa [Val.NoBraces] using hv) _ (List.mem_of_getElem? b)) (hc.snoc (toDigits_noBrace _))
        · rw [e1, e2]
          constructor
          · intro hall
            refine ⟨by simp, ?_⟩
            intro xs' s e e' i x _ b
            cases e; cases e'; exact hall (x, i) (mem_idx.2 b)
          · rintro ⟨_, hall⟩ q hq
            exact hall xs n rfl rfl q.2 q.1 (by simp) (mem_idx.1 hq)
      · have e1 : prefixOf its = ps := by simp [prefixOf, hP, hI]
        have e2 : restOf its = dictGet c!"additionalItems" its := by simp [restOf, hI]
        rw [e1] at hl h1
        rw [C23_tuple_items_partial w docs voc f _ ctx ho ps (g1.trans hI) _ g3
          (fun s hs => schemaNode_is (ha s hs) _) xs hl, firstFail_append]
        refine (Judges.bind (P := ∀ xs', Val.list xs = .list xs' → ∀ (i : Nat) p x, ps[i]? = some p → xs'[i]? = some x →
          sat p x) (Q := ∀ xs' s, Val.list xs = .list xs' → dictGet c!"additionalItems" its = some s →
          ∀ (i : Nat) x, ps.length ≤ i → xs'[i]? = some x → sat s x) ?_ ?_).congr (by rw [e1, e2])
        · refine (Judges.firstFail _ _ (fun q => sat q.1 q.2.1) fun q hq => ?_).congr ?_
          · obtain ⟨a, b⟩ := mem_zip_idx.1 hq
            exact H _ _ _ (h1 _ _ _ a b) (noBracesL (by simpa [Val.NoBraces] using hv) _ (List.mem_of_getElem? b))
              (hc.snoc (toDigits_noBrace _))
          · constructor
            · intro hall xs' e i p x a b
              cases e; exact hall (p, x, i) (mem_zip_idx.2 ⟨a, b⟩)
            · intro hall q hq
              obtain ⟨a, b⟩ := mem_zip_idx.1 hq
              exact hall xs rfl q.2.2 _ _ a b
        · rw [e2, e1] at h2
          revert h2
          generalize dictGet c!"additionalItems" its = o
          intro h2
          cases o with
          | none => exact Judges.true (by simp)
          | some s =>
            refine (Judges.firstFail _ _ (fun q => sat s q.1) fun q hq => ?_).congr ?_
            · obtain ⟨a, b⟩ := mem_drop_idx.1 hq
              exact H _ _ _ (h2 s rfl _ _ a b)
                (noBracesL (by simpa [Val.NoBraces] using hv) _ (List.mem_of_getElem? b)) (hc.snoc (toDigits_noBrace _))
            · constructor
              · intro hall xs' s' e e' i x a b
                cases e; cases e'; exact hall (x, i) (mem_drop_idx.2 ⟨a, b⟩)
              · intro hall q hq
                obtain ⟨a, b⟩ := mem_drop_idx.1 hq
                exact hall xs s rfl rfl q.2 _ a b

theorem j_cond (hr : Recog voc its) (hc : CtxOk ctx) (hv : v.NoBraces) (F : FitLayer w fit sat its v)
    (H : SubJudged w docs voc f fit sat) :
    Judges (R [c!"if", c!"then", c!"else"]) (∀ s, dictGet c!"if" its = some s →
      (sat s v → ∀ t, dictGet c!"then" its = some t → sat t v) ∧
      (¬ sat s v → ∀ e, dictGet c!"else" its = some e → sat e v)) := by
  have g1 := get_group (its := its) (G := [c!"if", c!"then", c!"else"]) (s := c!"if") (by simp)
  have g2 := get_group (its := its) (G := [c!"if", c!"then", c!"else"]) (s := c!"then") (by simp)
  have g3 := get_group (its := its) (G := [c!"if", c!"then", c!"else"]) (s := c!"else") (by simp)
  have hrG := hr.group [c!"if", c!"then", c!"else"]
  have hS : CondSchema docs (f + 1) voc (its.filter fun p => p.1 ∈ [c!"if", c!"then", c!"else"])
      (dictGet c!"if" its) (dictGet c!"then" its) (dictGet c!"else" its) := by
    refine ⟨fun h => hrG .if rfl h, fun h => hrG .then rfl h, fun h => hrG .else rfl h, ?_, g1, g2, g3, ?_⟩
    · intro k hk
      have := (has_group hk.2.2).1
      revert this; cases k <;> simp [Kw.key, Kw.keys]
    · rintro s (h | h | h)
      · obtain ⟨⟨kvs, rfl⟩, _⟩ := F.ifs s h; exact ⟨kvs, rfl⟩
      · obtain ⟨⟨kvs, rfl⟩, _⟩ := F.thens s h; exact ⟨kvs, rfl⟩
      · obtain ⟨⟨kvs, rfl⟩, _⟩ := F.elses s h; exact ⟨kvs, rfl⟩
  cases hi : dictGet c!"if" its with
  | none =>
    rw [hi] at hS
    exact .ok (C29_no_if w docs voc (f + 1) _ v ctx _ _ hS) (by simp)
  | some s =>
    rw [hi] at hS
    obtain ⟨_, hfit, helse⟩ := F.ifs s hi
    have hj := H s v ctx hfit hv hc
    rw [C29_conditional_partial w docs voc (f + 1) _ v ctx s _ _ hS hj.2 fun hn he => hn (hj.1.2 (helse he))]
    have ht := F.thens
    have he := F.elses
    rw [hi] at ht he
    revert ht he
    generalize dictGet c!"then" its = t
    generalize dictGet c!"else" its = e
    intro ht he
    by_cases hs : sat s v
    · rw [if_pos (hj.1.2 hs)]
      cases t with
      | none => exact Judges.true (by rintro s' e'; cases e'; simp [hs])
      | some t =>
        exact (H t v ctx ((ht t rfl).2 (by simp)) hv hc).congr (by simp [hs])
    · rw [if_neg fun h => hs (hj.1.1 h)]
      cases e with
      | none => exact Judges.true (by rintro s' e'; cases e'; simp [hs])
      | some e =>
        exact (H e v ctx ((he e rfl).2 (by simp)) hv hc).congr (by simp [hs])

end

end Verif
