import Verif.Proofs.Layer
/-! # One object schema: keywords that compare items or apply subschemas -/

namespace Verif
open Verif.Props

theorem Judges.bind {r r' : Res Unit} {P Q : Prop} (h : Judges r P) (h' : Judges r' Q) :
    Judges (r >>= fun _ => r') (P ∧ Q) := by
  rcases h.2 with e | ⟨x, e⟩
  · have hP : P := h.1.1 e
    rw [e]; exact h'.congr (by simp [hP])
  · have hP : ¬ P := fun p => by have := h.1.2 p; rw [e] at this; cases this
    rw [e]; exact ⟨by simp [hP], .inr ⟨x, rfl⟩⟩

theorem Judges.true {P : Prop} (h : P) : Judges (.ok ()) P := .ok rfl h

theorem Judges.false {P : Prop} {c p d : Str} (h : ¬ P) : Judges (.err (.validation ⟨c, p, d⟩)) P :=
  ⟨by simp [h], .inr ⟨_, rfl⟩⟩

theorem eq_of_judges {r : Res Unit} {P : Prop} (h : Judges r P) (hr : r = .ok ()) : P := h.1.1 hr

theorem noBracesL {xs : List Val} (h : Val.NoBracesL xs) : ∀ x ∈ xs, x.NoBraces := by
  induction xs with
  | nil => simp
  | cons x xs ih =>
    rw [Val.NoBracesL] at h
    intro y hy
    rcases List.mem_cons.1 hy with rfl | hy
    · exact h.1
    · exact ih h.2 y hy

theorem noBracesD {kvs : List (Str × Val)} (h : Val.NoBracesD kvs) : ∀ p ∈ kvs, noBrace p.1 ∧ p.2.NoBraces := by
  induction kvs with
  | nil => simp
  | cons p kvs ih =>
    obtain ⟨k, x⟩ := p
    rw [Val.NoBracesD] at h
    intro y hy
    rcases List.mem_cons.1 hy with rfl | hy
    · exact ⟨h.1, h.2.1⟩
    · exact ih h.2.2 y hy

theorem mem_zip_idx {ps : List Node} {xs : List Val} {q : Node × Val × Nat} :
    q ∈ ps.zip xs.zipIdx ↔ ps[q.2.2]? = some q.1 ∧ xs[q.2.2]? = some q.2.1 := by
  obtain ⟨p, x, i⟩ := q
  rw [List.mem_iff_getElem?]
  simp only [List.getElem?_zip_eq_some, List.getElem?_zipIdx, Option.map_eq_some_iff, Nat.zero_add]
  constructor
  · rintro ⟨j, h1, y, h2, e⟩
    cases e; exact ⟨h1, h2⟩
  · rintro ⟨h1, h2⟩; exact ⟨i, h1, x, h2, rfl⟩

theorem mem_idx {xs : List Val} {q : Val × Nat} : q ∈ xs.zipIdx ↔ xs[q.2]? = some q.1 := by
  obtain ⟨x, i⟩ := q
  rw [List.mem_iff_getElem?]
  simp only [List.getElem?_zipIdx, Option.map_eq_some_iff, Nat.zero_add]
  constructor
  · rintro ⟨j, y, h2, e⟩
    cases e; exact h2
  · intro h2; exact ⟨i, x, h2, rfl⟩

theorem mem_drop_idx {xs : List Val} {n : Nat} {q : Val × Nat} :
    q ∈ xs.zipIdx.drop n ↔ n ≤ q.2 ∧ xs[q.2]? = some q.1 := by
  obtain ⟨x, i⟩ := q
  rw [List.mem_iff_getElem?]
  simp only [List.getElem?_drop, List.getElem?_zipIdx, Option.map_eq_some_iff, Nat.zero_add]
  constructor
  · rintro ⟨j, y, h2, e⟩
    cases e; exact ⟨by omega, h2⟩
  · rintro ⟨h1, h2⟩
    have e : n + (i - n) = i := by omega
    exact ⟨i - n, x, by rw [e]; exact h2, by rw [e]⟩

section
variable {w : World} {docs : List Doc} {voc : List Kw} {f : Nat} {its : List (Str × Node)} {v : Val} {ctx : Ctx}
  {fit sat : Node → Val → Prop}

set_option quotPrecheck false in
local notation "R" G => validateN w docs voc (f + 3) (Node.obj (List.filter (fun p => decide (p.1 ∈ G)) its)) v ctx

theorem numVal_form {a : Val} {x : Rat} (h : numVal a = some x) :
    (∃ n : Int, a = .int n ∧ x = n) ∨ (∃ s, a = .flt (.fin x s)) ∨ a = .dec (.fin x) := by
  cases a with
  | int n => simp [numVal] at h; exact .inl ⟨n, rfl, h.symm⟩
  | flt u => cases u <;> simp [numVal] at h; subst h; exact .inr (.inl ⟨_, rfl⟩)
  | dec u => cases u <;> simp [numVal] at h; subst h; exact .inr (.inr rfl)
  | _ => simp [numVal] at h

theorem py_json_eq {a b : Val} (ha : a = .null ∨ (∃ b, a = .bool b) ∨ (∃ s, a = .str s) ∨ ∃ q, numVal a = some q)
    (hb : b = .null ∨ (∃ c, b = .bool c) ∨ (∃ s, b = .str s) ∨ ∃ q, numVal b = some q)
    (h1 : ∀ c, a = .bool c → numVal b ≠ some (if c then 1 else 0))
    (h2 : ∀ c, b = .bool c → numVal a ≠ some (if c then 1 else 0)) : pyScalarEq a b = jsonScalarEq a b := by
  rcases ha with rfl | ⟨c, rfl⟩ | ⟨s, rfl⟩ | ⟨x, hx⟩ <;> rcases hb with rfl | ⟨d, rfl⟩ | ⟨t, rfl⟩ | ⟨y, hy⟩
  case inr.inl.inr.inl => cases c <;> cases d <;> decide +kernel
  case inr.inl.inr.inr.inr =>
    have h := h1 c rfl
    rw [hy] at h
    rcases numVal_form hy with ⟨n, rfl, rfl⟩ | ⟨s, rfl⟩ | rfl <;>
      simp only [pyScalarEq, jsonScalarEq, exactVal, numVal, decide_eq_false_iff_not] <;>
      exact fun e => h (by rw [e])
  case inr.inr.inr.inr.inl =>
    have h := h2 d rfl
    rw [hx] at h
    rcases numVal_form hx with ⟨n, rfl, rfl⟩ | ⟨s, rfl⟩ | rfl <;>
      simp only [pyScalarEq, jsonScalarEq, exactVal, numVal, decide_eq_false_iff_not] <;>
      exact fun e => h (by rw [e])
  case inr.inr.inr.inr.inr.inr =>
    rcases numVal_form hx with ⟨n, rfl, rfl⟩ | ⟨s, rfl⟩ | rfl <;>
      rcases numVal_form hy with ⟨m, rfl, rfl⟩ | ⟨t, rfl⟩ | rfl <;> rfl
  all_goals first
    | rfl
    | (rcases numVal_form hx with ⟨n, rfl, rfl⟩ | ⟨s, rfl⟩ | rfl <;> rfl)
    | (rcases numVal_form hy with ⟨n, rfl, rfl⟩ | ⟨s, rfl⟩ | rfl <;> rfl)

theorem j_uniqueItems (hr : Recog voc its) (hc : CtxOk ctx) (F : FitLayer w fit sat its v) :
    Judges (R [c!"uniqueItems"]) (∀ xs, v = .list xs → dictGet c!"uniqueItems" its = some (.bool true) →
      xs.Pairwise fun a b => jsonScalarEq a b = false) := by
  refine judge_one hr .uniqueItems c!"uniqueItems" rfl rfl _ (fun h => by simp [h]) fun n hn itsG ho hg => ?_
  obtain ⟨⟨b, rfl⟩, h⟩ := F.uniqueItems n hn
  cases b with
  | false => exact .ok (C21_uniqueItems_false w docs voc (f + 1) itsG v ctx ho hg) (by simp [hn])
  | true =>
    obtain ⟨xs, rfl, hs, hb⟩ := h rfl
    have hsc : ∀ x ∈ xs, x.Scalar := by
      intro x hx
      rcases hs x hx with rfl | ⟨b, rfl⟩ | ⟨s, rfl⟩ | ⟨q, hq⟩
      · trivial
      · trivial
      · trivial
      · rcases numVal_form hq with ⟨n, rfl, rfl⟩ | ⟨s, rfl⟩ | rfl <;> trivial
    have heq : ∀ a ∈ xs, ∀ b ∈ xs, pyScalarEq a b = jsonScalarEq a b := by
      intro a ha b hb'
      exact py_json_eq (hs a ha) (hs b hb') (fun c e => hb c (e ▸ ha) b hb') fun c e => hb c (e ▸ hb') a ha
    have key := C21_uniqueItems w docs voc (f + 1) itsG ctx hc ho xs hg hsc
    by_cases hp : xs.Pairwise fun a b => pyScalarEq a b = false
    · refine .ok (key.1 hp) ?_
      intro ys e _; cases e
      exact hp.imp_of_mem fun ha hb h => by rw [← heq _ ha _ hb]; exact h
    · obtain ⟨i, j, a, b, _, _, _, _, e⟩ := key.2 hp
      rw [e]
      refine Judges.false fun H => hp ?_
      exact (H xs rfl hn).imp_of_mem fun ha hb h => by rw [heq _ ha _ hb]; exact h

theorem j_required (hr : Recog voc its) (hc : CtxOk ctx) (F : FitLayer w fit sat its v) :
    Judges (R [c!"required"]) (∀ kvs ns, v = .dict kvs → dictGet c!"required" its = some (.arr ns) →
      ∀ n, .str n ∈ ns → n ∈ kvs.map Prod.fst) := by
  refine judge_one hr .required c!"required" rfl rfl _ (fun h => by simp [h]) fun n hn itsG ho hg => ?_
  obtain ⟨⟨ns, rfl⟩, kvs, rfl⟩ := F.required n hn
  have key := C26_required w docs voc (f + 1) itsG ctx hc ho ns hg kvs
  by_cases hall : ∀ n ∈ ns, n ∈ kvs.map Prod.fst
  · refine .ok (key.1 hall) ?_
    intro kvs' ns' e e' n hn'
    cases e; rw [hn] at e'; cases e'
    obtain ⟨m, hm, e⟩ := List.mem_map.1 hn'
    cases e; exact hall n hm
  · have : ∃ pre n post, ns = pre ++ n :: post ∧ (∀ m ∈ pre, m ∈ kvs.map Prod.fst) ∧ n ∉ kvs.map Prod.fst := by
      clear hn hg key
      induction ns with
      | nil => simp at hall
      | cons n ns ih =>
        by_cases hn : n ∈ kvs.map Prod.fst
        · obtain ⟨pre, m, post, e, h1, h2⟩ := ih fun H => hall fun m hm => by
            rcases List.mem_cons.1 hm with rfl | hm
            · exact hn
            · exact H m hm
          refine ⟨n :: pre, m, post, by rw [e]; rfl, fun k hk => ?_, h2⟩
          rcases List.mem_cons.1 hk with rfl | hk
          · exact hn
          · exact h1 k hk
        · exact ⟨[], n, ns, rfl, by simp, hn⟩
    obtain ⟨pre, m, post, e, h1, h2⟩ := this
    rw [key.2 pre m post e h1 h2]
    refine Judges.false fun H => h2 (H kvs _ rfl hn m (List.mem_map.2 ⟨m, by rw [e]; simp, rfl⟩))

theorem j_dependentRequired (hr : Recog voc its) (hc : CtxOk ctx) (F : FitLayer w fit sat its v) :
    Judges (R [c!"dependentRequired"]) (∀ kvs m, v = .dict kvs → dictGet c!"dependentRequired" its = some (.obj m) →
      ∀ k ns, (k, .arr ns) ∈ m → k ∈ kvs.map Prod.fst → ∀ n, .str n ∈ ns → n ∈ kvs.map Prod.fst) := by
  refine judge_one hr .dependentRequired c!"dependentRequired" rfl rfl _ (fun h => by simp [h]) fun n hn itsG ho hg => ?_
  obtain ⟨m, rfl⟩ := F.dependentRequired n hn
  by_cases hv : ∃ kvs, v = .dict kvs
  · obtain ⟨kvs, rfl⟩ := hv
    have key := C27_dependentRequired w docs voc (f + 1) itsG ctx hc ho m hg kvs
    by_cases hall : ∀ p ∈ m, p.1 ∈ kvs.map Prod.fst → ∀ n ∈ p.2, n ∈ kvs.map Prod.fst
    · refine .ok (key.1 hall) ?_
      intro kvs' m' e e' k ns hk hk' n hn'
      cases e; rw [hn] at e'; cases e'
      obtain ⟨p, hp, e⟩ := List.mem_map.1 hk
      cases e
      obtain ⟨n', hn2, e⟩ := List.mem_map.1 hn'
      cases e
      exact hall p hp hk' n hn2
    · have : ∃ p ∈ m, p.1 ∈ kvs.map Prod.fst ∧ ∃ n ∈ p.2, n ∉ kvs.map Prod.fst := by
        simpa only [Classical.not_forall, not_imp, exists_prop] using hall
      obtain ⟨p, hp, hk, n, hn1, hn2, e⟩ := key.2 this
      rw [e]
      exact Judges.false fun H => hn2 (H kvs _ rfl hn p.1 _ (List.mem_map.2 ⟨p, hp, rfl⟩) hk n
        (List.mem_map.2 ⟨n, hn1, rfl⟩))
  · have hv' : ∀ kvs, v ≠ .dict kvs := fun kvs e => hv ⟨kvs, e⟩
    exact .ok ((C27_non_objects w docs voc (f + 1) itsG v ctx hv').1 m ho hg) fun kvs _ e => absurd e (hv' kvs)

theorem j_format (hr : Recog voc its) (hc : CtxOk ctx) (F : FitLayer w fit sat its v) :
    Judges (R [c!"format"]) (∀ s name check, v = .str s → dictGet c!"format" its = some (.str name) →
      w.formats name = some check → check v = .ok true) := by
  refine judge_one hr .format c!"format" rfl rfl _ (fun h => by simp [h]) fun n hn itsG ho hg => ?_
  obtain ⟨name, check, b, rfl, hf, hb, s, rfl⟩ := F.format n hn
  rw [single_set w docs voc (f + 1) itsG _ ctx .format (.format name) ho rfl (dictHas_of_get hg)
    (by simp [readKw, getKey_of_get hg, hf])]
  simp only [run, runFormat, hf, hb, Res.ok_bind, raise_ctx hc (c := .format) (by simp [ErrClass.all])]
  cases b
  · refine Judges.false fun H => ?_
    have := H s name check rfl hn hf
    rw [hb] at this; cases this
  · refine Judges.true fun s' name' check' _ e e' => ?_
    rw [hn] at e; cases e; rw [hf] at e'; cases e'; exact hb

theorem j_pattern (hr : Recog voc its) (hc : CtxOk ctx) (F : FitLayer w fit sat its v) :
    Judges (R [c!"pattern"]) (∀ s p m, v = .str s → dictGet c!"pattern" its = some (.str p) → w.search p = some m →
      m s = true) := by
  refine judge_one hr .pattern c!"pattern" rfl rfl _ (fun h => by simp [h]) fun n hn itsG ho hg => ?_
  obtain ⟨p, m, rfl, hm, s, rfl⟩ := F.pattern n hn
  rw [single_set w docs voc (f + 1) itsG _ ctx .pattern (.pattern p) ho rfl (dictHas_of_get hg)
    (by simp [readKw, getKey_of_get hg, hm])]
  simp only [run, runPattern, hm, raise_ctx hc (c := .format) (by simp [ErrClass.all])]
  refine Judges.ite.congr ?_
  constructor
  · intro h s' p' m' e e' e2
    cases e; rw [hn] at e'; cases e'; rw [hm] at e2; cases e2; exact h
  · intro H; exact H s p m rfl hn hm

end

end Verif
