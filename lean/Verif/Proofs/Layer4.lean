import Verif.Proofs.Layer3
/-! # One object schema: object members; the whole layer -/

namespace Verif
open Verif.Props

section
variable {w : World} {docs : List Doc} {voc : List Kw} {f : Nat} {its : List (Str × Node)} {v : Val} {ctx : Ctx}
  {fit sat : Node → Val → Prop}

set_option quotPrecheck false in
local notation "R" G => validateN w docs voc (f + 3) (Node.obj (List.filter (fun p => decide (p.1 ∈ G)) its)) v ctx

/-- What `Layer` asks of one member. -/
structure Member (w : World) (sat : Node → Val → Prop) (its : List (Str × Node)) (k : Str) (x : Val) : Prop where
  names : ∀ s, dictGet c!"propertyNames" its = some s → sat s (.str k)
  props : ∀ ps s, dictGet c!"properties" its = some (.obj ps) → dictGet k ps = some s → sat s x
  pats : ∀ s, PatternFor w its k s → sat s x
  addl : ∀ s, dictGet c!"additionalProperties" its = some s → ¬ Named its k → (¬ ∃ t, PatternFor w its k t) → sat s x
  uneval : dictGet c!"unevaluatedProperties" its = some (.bool false) →
    Named its k ∨ (∃ t, PatternFor w its k t) ∨ dictGet c!"additionalProperties" its ≠ none

theorem obj_parts (F : FitLayer w fit sat its v) : ∃ (props pats : Option (List (Str × Node))) (uneval : Option Bool),
    dictGet c!"properties" its = props.map .obj ∧ dictGet c!"patternProperties" its = pats.map .obj ∧
    dictGet c!"unevaluatedProperties" its = uneval.map .bool := by
  have h1 : ∃ props : Option (List (Str × Node)), dictGet c!"properties" its = props.map .obj := by
    cases h : dictGet c!"properties" its with
    | none => exact ⟨none, rfl⟩
    | some n => obtain ⟨ps, rfl, _⟩ := F.properties n h; exact ⟨some ps, rfl⟩
  have h2 : ∃ props : Option (List (Str × Node)), dictGet c!"patternProperties" its = props.map .obj := by
    cases h : dictGet c!"patternProperties" its with
    | none => exact ⟨none, rfl⟩
    | some n => obtain ⟨ps, rfl, _⟩ := F.patternProperties n h; exact ⟨some ps, rfl⟩
  have h3 : ∃ u : Option Bool, dictGet c!"unevaluatedProperties" its = u.map .bool := by
    cases h : dictGet c!"unevaluatedProperties" its with
    | none => exact ⟨none, rfl⟩
    | some n => obtain ⟨b, rfl, _⟩ := F.unevaluatedProperties n h; exact ⟨some b, rfl⟩
  obtain ⟨p, hp⟩ := h1; obtain ⟨q, hq⟩ := h2; obtain ⟨u, hu⟩ := h3
  exact ⟨p, q, u, hp, hq, hu⟩

theorem patternFor_iff {pats : Option (List (Str × Node))} (h : dictGet c!"patternProperties" its = pats.map .obj)
    (k : Str) (s : Node) : PatternFor w its k s ↔ ∃ p ∈ matching w k (pats.getD []), p.2 = s := by
  unfold PatternFor matching
  rw [h]
  cases pats with
  | none => simp
  | some qs =>
    constructor
    · rintro ⟨ps, p, m, e, hp, hm, hk⟩
      cases e
      exact ⟨(p, s), List.mem_filter.2 ⟨hp, by simp [hm, hk]⟩, rfl⟩
    · rintro ⟨⟨p, s'⟩, hp, rfl⟩
      obtain ⟨h1, h2⟩ := List.mem_filter.1 hp
      cases hm : w.search p with
      | none => simp [hm] at h2
      | some m => exact ⟨qs, p, m, rfl, h1, hm, by simpa [hm] using h2⟩

theorem named_iff {props : Option (List (Str × Node))} (h : dictGet c!"properties" its = props.map .obj) (k : Str) :
    Named its k ↔ ∃ s, dictGet k (props.getD []) = some s := by
  unfold Named
  rw [h]
  cases props <;> simp [dictGet]

theorem j_object (hr : Recog voc its) (hc : CtxOk ctx) (hv : v.NoBraces) (F : FitLayer w fit sat its v)
    (H : SubJudged w docs voc f fit sat) :
    Judges (R [c!"properties", c!"patternProperties", c!"additionalProperties", c!"unevaluatedProperties", c!"propertyNames"])
      (∀ kvs, v = .dict kvs → ∀ k x, (k, x) ∈ kvs → Member w sat its k x) := by
  obtain ⟨props, pats, uneval, hp, hq, hu⟩ := obj_parts F
  have gg : ∀ s ∈ [c!"properties", c!"patternProperties", c!"additionalProperties", c!"unevaluatedProperties",
      c!"propertyNames"], _ := fun s h => get_group (its := its) h
  have hS : ObjSchema w docs (f + 1) voc (its.filter fun p => p.1 ∈ [c!"properties", c!"patternProperties",
      c!"additionalProperties", c!"unevaluatedProperties", c!"propertyNames"]) props pats
      (dictGet c!"additionalProperties" its) uneval (dictGet c!"propertyNames" its) := by
    refine ⟨?_, ?_, (gg _ (by simp)).trans hp, (gg _ (by simp)).trans hq, gg _ (by simp), (gg _ (by simp)).trans hu,
      gg _ (by simp), ?_, ?_, ?_, ?_⟩
    · intro k hk hh
      exact hr k (by revert hk; cases k <;> decide) (has_group hh).2
    · intro k hk
      have := (has_group hk.2.2).1
      revert this; cases k <;> simp [Kw.key, Kw.keys]
    · cases props with
      | none => simp
      | some ps => obtain ⟨_, e, hn, _⟩ := F.properties _ hp; cases e; exact hn
    · cases pats with
      | none => simp
      | some ps =>
        obtain ⟨_, e, hn, _⟩ := F.patternProperties _ hq; cases e
        exact fun p hp => Option.ne_none_iff_exists'.1 (hn p hp)
    · intro s hs; exact schemaNode_is (F.additionalProperties s hs).1 _
    · intro s hs; obtain ⟨⟨kvs, rfl⟩, _⟩ := F.propertyNames s hs; exact ⟨kvs, rfl⟩
  obtain ⟨o, hd, ho1, ho2, ho3, ho4, ho5⟩ := object_schema w docs voc (f + 1) _ v ctx _ _ _ _ _ hS
  rw [hd]
  by_cases hdict : ∃ kvs, v = .dict kvs
  · obtain ⟨kvs, rfl⟩ := hdict
    simp only [runObject, objectLoop_eq]
    refine (Judges.firstFail kvs _ (fun p => Member w sat its p.1 p.2) ?_).congr ?_
    · rintro ⟨k, x⟩ hkx
      obtain ⟨hnk, hnx⟩ := noBracesD (by simpa [Val.NoBraces] using hv) (k, x) hkx
      have hck := hc.snoc hnk
      simp only
      rw [objectItem_eq _ w o k x ctx (by rw [ho2]; exact hS.compile)]
      simp only [ho1, ho2, ho5]
      refine (Judges.bind (P := ∀ s, dictGet c!"propertyNames" its = some s → sat s (.str k))
        (Q := (∀ ps s, dictGet c!"properties" its = some (.obj ps) → dictGet k ps = some s → sat s x) ∧
          (∀ s, PatternFor w its k s → sat s x) ∧
          (∀ s, dictGet c!"additionalProperties" its = some s → ¬ Named its k → (¬ ∃ t, PatternFor w its k t) → sat s x) ∧
          (dictGet c!"unevaluatedProperties" its = some (.bool false) →
            Named its k ∨ (∃ t, PatternFor w its k t) ∨ dictGet c!"additionalProperties" its ≠ none)) ?_ ?_).congr
        ⟨fun ⟨a, b, c, d, e⟩ => ⟨a, b, c, d, e⟩, fun h => ⟨h.1, h.2, h.3, h.4, h.5⟩⟩
      · have := F.propertyNames
        revert this
        generalize dictGet c!"propertyNames" its = o
        intro hn
        cases o with
        | none => exact Judges.true (by simp)
        | some n =>
          exact (H n (.str k) _ ((hn n rfl).2 kvs rfl k x hkx) (by simp [Val.NoBraces]) hck).congr (by simp)
      have hpf := patternFor_iff (w := w) hq k
      have hnm := named_iff hp k
      have hprops : ∀ s, (∀ ps, dictGet c!"properties" its = some (.obj ps) → dictGet k ps = some s → sat s x) ↔
          (dictGet k (props.getD []) = some s → sat s x) := by
        intro s; rw [hp]; cases props <;> simp [dictGet]
      have hprops' : (∀ ps s, dictGet c!"properties" its = some (.obj ps) → dictGet k ps = some s → sat s x) ↔
          ∀ s, dictGet k (props.getD []) = some s → sat s x := by
        rw [forall_comm]; exact forall_congr' hprops
      cases hg : dictGet k (props.getD []) with
      | some p =>
        have hnamed : Named its k := hnm.2 ⟨p, hg⟩
        have hfitp : fit p x ∧ ¬ ∃ t, PatternFor w its k t := by
          cases props with
          | none => simp [dictGet] at hg
          | some ps =>
            obtain ⟨ps', e, _, hh⟩ := F.properties _ hp
            cases e
            exact hh kvs rfl k x p hkx hg
        refine (H p x _ hfitp.1 hnx hck).congr ?_
        rw [hprops', hg]
        constructor
        · intro h
          exact ⟨by simpa using h, fun s hs => absurd ⟨s, hs⟩ hfitp.2, fun _ _ hn => absurd hnamed hn, fun _ => .inl hnamed⟩
        · intro h; exact h.1 p rfl
      | none =>
        have hnn : ¬ Named its k := by rw [hnm, hg]; simp
        simp only []
        cases hM : matching w k (pats.getD []) with
        | cons q qs =>
          have hex : ∃ t, PatternFor w its k t := ⟨q.2, (hpf _).2 ⟨q, by rw [hM]; simp, rfl⟩⟩
          simp only [List.isEmpty_cons, Bool.false_eq_true, if_false, Res.bind_unit]
          refine (Judges.firstFail (q :: qs) _ (fun p => sat p.2 x) fun p hp' => ?_).congr ?_
          · refine H _ _ _ ?_ hnx hck
            have hpat : PatternFor w its k p.2 := (hpf _).2 ⟨p, by rw [hM]; exact hp', rfl⟩
            cases pats with
            | none => simp [matching] at hM
            | some ps =>
              obtain ⟨_, e, _, hh⟩ := F.patternProperties _ hq
              exact hh kvs rfl k x p.2 hkx hpat
          · rw [hprops', hg]
            constructor
            · intro h
              refine ⟨by simp, fun s hs => ?_, fun _ _ _ hn => absurd hex hn, fun _ => .inr (.inl hex)⟩
              obtain ⟨p, hp', rfl⟩ := (hpf s).1 hs
              exact h p (by rw [← hM]; exact hp')
            · rintro ⟨_, h, _⟩ p hp'
              exact h p.2 ((hpf _).2 ⟨p, by rw [hM]; exact hp', rfl⟩)
        | nil =>
          have hno : ¬ ∃ t, PatternFor w its k t := by
            rintro ⟨t, ht⟩
            obtain ⟨p, hp', _⟩ := (hpf t).1 ht
            rw [hM] at hp'; simp at hp'
          simp only [List.map_nil, firstFail, List.isEmpty_nil, if_true, Res.ok_bind]
          refine Judges.congr (P := (∀ s, dictGet c!"additionalProperties" its = some s → sat s x) ∧
            (dictGet c!"unevaluatedProperties" its = some (.bool false) → dictGet c!"additionalProperties" its ≠ none))
            ?_ ?_
          · simp only [extraItem, ho3, ho4]
            have hA := F.additionalProperties
            have hU : uneval = some false → dictGet c!"additionalProperties" its = none := by
              intro e
              obtain ⟨b, eb, hb⟩ := F.unevaluatedProperties (.bool false) (by rw [hu, e]; rfl)
              cases eb; exact (hb rfl).1
            rw [hu]
            revert hA hU
            generalize dictGet c!"additionalProperties" its = a
            intro hA hU
            cases a with
            | none =>
              simp only [Option.bind_none]
              rcases uneval with _ | _ | _
              · exact Judges.true (by simp)
              · exact Judges.false (by simp)
              · exact Judges.true (by simp)
            | some a =>
              have hune : ¬ uneval = some false := fun e => by simpa using hU e
              have hju := H a x (ctx ++ [k]) ((hA a rfl).2 kvs rfl k x hkx hnn hno) hnx hck
              have hsimp : (sat a x ↔ (∀ s, some a = some s → sat s x) ∧
                  (uneval.map Node.bool = some (.bool false) → some a ≠ none)) := by simp
              rcases (hA a rfl).1 with ⟨q, rfl⟩ | ⟨b, rfl⟩
              · exact hju.congr hsimp
              · rw [validateN_bool] at hju
                cases b with
                | true =>
                  have e : (uneval == some false) = false := by simpa using hune
                  simp only [Option.bind_some, addlSub, e]
                  exact hju.congr hsimp
                | false => exact hju.congr hsimp
          · rw [hprops', hg]
            constructor
            · rintro ⟨h1, h2⟩
              exact ⟨by simp, fun s hs => absurd ⟨s, hs⟩ hno, fun s hs _ _ => h1 s hs, fun h => .inr (.inr (h2 h))⟩
            · rintro ⟨_, _, h1, h2⟩
              refine ⟨fun s hs => h1 s hs hnn hno, fun h => ?_⟩
              rcases h2 h with h | h | h
              · exact absurd h hnn
              · exact absurd h hno
              · exact h
    · constructor
      · intro hall kvs' e k x hkx
        cases e; exact hall (k, x) hkx
      · intro hall p hp'
        exact hall kvs rfl p.1 p.2 hp'
  · refine .ok ?_ fun kvs e => absurd ⟨kvs, e⟩ hdict
    cases v <;> simp [runObject] at hdict ⊢

theorem layer_main (hr : Recog voc its) (hc : CtxOk ctx) (hv : v.NoBraces) (F : FitLayer w fit sat its v)
    (H : SubJudged w docs voc f fit sat) :
    Judges (validateN w docs voc (f + 3) (.obj its) v ctx) (Layer w sat its v) := by
  have G1 := j_type (docs := docs) (f := f) hr hc F
  have G2 := j_enum (docs := docs) (f := f) hr hc F
  have G3 := j_const (docs := docs) (f := f) hr hc F
  have G4 := j_maximum (docs := docs) (f := f) hr hc F
  have G5 := j_minimum (docs := docs) (f := f) hr hc F
  have G6 := j_multipleOf (docs := docs) (f := f) hr hc F
  have G7 := j_minLength (docs := docs) (f := f) hr hc F
  have G8 := j_maxLength (docs := docs) (f := f) hr hc F
  have G9 := j_minItems (docs := docs) (f := f) hr hc F
  have G10 := j_maxItems (docs := docs) (f := f) hr hc F
  have G11 := j_minProperties (docs := docs) (f := f) hr hc F
  have G12 := j_maxProperties (docs := docs) (f := f) hr hc F
  have G13 := j_uniqueItems (docs := docs) (f := f) hr hc F
  have G14 := j_contains (docs := docs) (f := f) hr hc hv F H
  have G15 := j_array (docs := docs) (f := f) hr hc hv F H
  have G16 := j_object (docs := docs) (f := f) hr hc hv F H
  have G17 := j_required (docs := docs) (f := f) hr hc F
  have G18 := j_dependentRequired (docs := docs) (f := f) hr hc F
  have G19 := j_dependentSchemas (docs := docs) (f := f) hr hc hv F H
  have G20 := j_allOf (docs := docs) (f := f) hr hc hv F H
  have G21 := j_anyOf (docs := docs) (f := f) hr hc hv F H
  have G22 := j_oneOf (docs := docs) (f := f) hr hc hv F H
  have G23 := j_not (docs := docs) (f := f) hr hc hv F H
  have G24 := j_cond (docs := docs) (f := f) hr hc hv F H
  have G25 := j_format (docs := docs) (f := f) hr hc F
  have G26 := j_pattern (docs := docs) (f := f) hr hc F
  have hJ := judges_groups (w := w) (docs := docs) (voc := voc) (f := f + 1) (items := its) (v := v) (ctx := ctx)
    (fun G => validateN w docs voc (f + 3) (.obj (its.filter fun p => decide (p.1 ∈ G))) v ctx = .ok ()) (by
      have : ∀ {r : Res Unit} {P : Prop}, Judges r P → Judges r (r = .ok ()) := fun h => ⟨Iff.rfl, h.2⟩
      simp only [cooperating, List.forall_mem_cons, List.not_mem_nil, false_implies, implies_true, and_true]
      exact ⟨this G1, this G2, this G3, this G4, this G5, this G6, this G7, this G8, this G9, this G10, this G11,
        this G12, this G13, this G14, this G15, this G16, this G17, this G18, this G19, this G20, this G21, this G22,
        this G23, this G24, this G25, this G26⟩)
  refine hJ.congr ?_
  simp only [cooperating, List.forall_mem_cons, List.not_mem_nil, false_implies, implies_true, and_true]
  rw [G1.1, G2.1, G3.1, G4.1, G5.1, G6.1, G7.1, G8.1, G9.1, G10.1, G11.1, G12.1, G13.1, G14.1, G15.1, G16.1, G17.1,
    G18.1, G19.1, G20.1, G21.1, G22.1, G23.1, G24.1, G25.1, G26.1]
  constructor
  · rintro ⟨a1, a2, a3, ⟨a4, b4⟩, ⟨a5, b5⟩, a6, a7, a8, a9, a10, a11, a12, a13, a14, ⟨a15, b15⟩, a16, a17, a18, a19, a20,
      a21, a22, a23, a24, a25, a26⟩
    exact ⟨a1, a2, a3, a4, b4, a5, b5, a6, a7, a8, a9, a10, a11, a12, a13, a14, a15, b15,
      fun kvs ps e h k x s hk => (a16 kvs e k x hk).props ps s h,
      fun kvs e k x s hk => (a16 kvs e k x hk).pats s,
      fun kvs s e h k x hk => (a16 kvs e k x hk).addl s h,
      fun kvs e h k x hk => (a16 kvs e k x hk).uneval h,
      fun kvs s e h k x hk => (a16 kvs e k x hk).names s h, a17, a18, a19, a20, a21, a22, a23, a24, a25, a26⟩
  · intro L
    exact ⟨L.type, L.enum, L.const, ⟨L.maximum, L.exclusiveMaximum⟩, ⟨L.minimum, L.exclusiveMinimum⟩, L.multipleOf,
      L.minLength, L.maxLength, L.minItems, L.maxItems, L.minProperties, L.maxProperties, L.uniqueItems, L.contains,
      ⟨L.prefixItems, L.items⟩, fun kvs e k x hk => ⟨fun s h => L.propertyNames kvs s e h k x hk,
        fun ps s h => L.properties kvs ps e h k x s hk, fun s => L.patternProperties kvs e k x s hk,
        fun s h => L.additionalProperties kvs s e h k x hk, fun h => L.unevaluatedProperties kvs e h k x hk⟩,
      L.required, L.dependentRequired, L.dependentSchemas, L.allOf, L.anyOf, L.oneOf, L.not, L.conditional, L.format,
      L.pattern⟩

end

theorem satN_main (w : World) (docs : List Doc) (voc : List Kw) (hp : VocPaired voc) (d : Nat) :
    ∀ n v ctx f, FitsN w voc d n v → v.NoBraces → CtxOk ctx → d + 2 ≤ f →
      Judges (validateN w docs voc f n v ctx) (SatN w voc d n v) := by
  induction d with
  | zero => intro n v ctx f h; exact h.elim
  | succ d ih =>
    intro n v ctx f hF hv hc hf
    obtain ⟨g, rfl⟩ : ∃ g, f = g + 3 := ⟨f - 3, by omega⟩
    cases n with
    | bool b =>
      rw [validateN_bool]
      cases b
      · exact Judges.false (by simp [SatN])
      · exact Judges.true (by simp [SatN])
    | obj items =>
      rw [validateN_recognised _ _ _ hp]
      exact layer_main (recog_recognised _ _) hc hv hF fun s x c h1 h2 h3 => ih s x c (g + 2) h1 h2 h3 (by omega)
    | _ => exact hF.elim

/-! ## Depth does not matter once it is large enough -/

theorem depthL_mem {xs : List Node} {n : Node} (h : n ∈ xs) : n.depth ≤ Node.depthL xs := by
  induction xs with
  | nil => simp at h
  | cons x xs ih =>
    rw [Node.depthL]
    rcases List.mem_cons.1 h with h | h
    · subst h; omega
    · have := ih h; omega

theorem depthD_mem {xs : List (Str × Node)} {p : Str × Node} (h : p ∈ xs) : p.2.depth ≤ Node.depthD xs := by
  induction xs with
  | nil => simp at h
  | cons x xs ih =>
    obtain ⟨k, n⟩ := x
    rw [Node.depthD]
    rcases List.mem_cons.1 h with h | h
    · subst h; simp only; omega
    · have := ih h; omega

theorem depthD_get {k : Str} {xs : List (Str × Node)} {n : Node} (h : dictGet k xs = some n) :
    n.depth ≤ Node.depthD xs := depthD_mem (p := (k, n)) (dictGet_mem h)

theorem depth_in_arr {k : Str} {its : List (Str × Node)} {xs : List Node} (h : dictGet k its = some (.arr xs)) {n : Node}
    (hn : n ∈ xs) : n.depth ≤ Node.depthD its := by
  have h1 := depthD_get h
  have h2 := depthL_mem hn
  rw [Node.depth] at h1; omega

theorem depth_in_obj {k : Str} {its : List (Str × Node)} {xs : List (Str × Node)} (h : dictGet k its = some (.obj xs))
    {p : Str × Node} (hn : p ∈ xs) : p.2.depth ≤ Node.depthD its := by
  have h1 := depthD_get h
  have h2 := depthD_mem hn
  rw [Node.depth] at h1; omega

theorem depth_prefix {its : List (Str × Node)} {n : Node} (h : n ∈ prefixOf its) : n.depth ≤ Node.depthD its := by
  unfold prefixOf at h
  split at h
  · rename_i h1; exact depth_in_arr h1 h
  · rename_i h1 _; exact depth_in_arr h1 h
  · simp at h

theorem depth_rest {its : List (Str × Node)} {n : Node} (h : restOf its = some n) : n.depth ≤ Node.depthD its := by
  unfold restOf at h
  split at h <;> exact depthD_get h

theorem depth_pattern {w : World} {its : List (Str × Node)} {k : Str} {n : Node} (h : PatternFor w its k n) :
    n.depth ≤ Node.depthD its := by
  obtain ⟨ps, p, m, h1, h2, _⟩ := h
  exact depth_in_obj (p := (p, n)) h1 h2

theorem Layer.congr' {w : World} {s1 s2 : Node → Val → Prop} {its : List (Str × Node)} {v : Val}
    (h : ∀ n x, n.depth ≤ Node.depthD its → (s1 n x ↔ s2 n x)) (L : Layer w s1 its v) : Layer w s2 its v := by
  constructor
  case type => exact L.type
  case enum => exact L.enum
  case const => exact L.const
  case maximum => exact L.maximum
  case exclusiveMaximum => exact L.exclusiveMaximum
  case minimum => exact L.minimum
  case exclusiveMinimum => exact L.exclusiveMinimum
  case multipleOf => exact L.multipleOf
  case minLength => exact L.minLength
  case maxLength => exact L.maxLength
  case minItems => exact L.minItems
  case maxItems => exact L.maxItems
  case minProperties => exact L.minProperties
  case maxProperties => exact L.maxProperties
  case uniqueItems => exact L.uniqueItems
  case contains =>
    intro xs s hv hs
    have := L.contains xs s hv hs
    have e : s1 s = s2 s := funext fun x => propext (h s x (depthD_get hs))
    rwa [e] at this
  case prefixItems =>
    intro xs hv i p x hp hx
    exact (h p x (depth_prefix (List.mem_of_getElem? hp))).1 (L.prefixItems xs hv i p x hp hx)
  case items =>
    intro xs s hv hs i x hi hx
    exact (h s x (depth_rest hs)).1 (L.items xs s hv hs i x hi hx)
  case properties =>
    intro kvs ps hv hps k x s hk hs
    exact (h s x (depth_in_obj hps (p := (k, s)) (dictGet_mem hs))).1 (L.properties kvs ps hv hps k x s hk hs)
  case patternProperties =>
    intro kvs hv k x s hk hs
    exact (h s x (depth_pattern hs)).1 (L.patternProperties kvs hv k x s hk hs)
  case additionalProperties =>
    intro kvs s hv hs k x hk h1 h2
    exact (h s x (depthD_get hs)).1 (L.additionalProperties kvs s hv hs k x hk h1 h2)
  case unevaluatedProperties => exact L.unevaluatedProperties
  case propertyNames =>
    intro kvs s hv hs k x hk
    exact (h s _ (depthD_get hs)).1 (L.propertyNames kvs s hv hs k x hk)
  case required => exact L.required
  case dependentRequired => exact L.dependentRequired
  case dependentSchemas =>
    intro kvs m hv hm k s hs hk
    exact (h s _ (depth_in_obj hm hs)).1 (L.dependentSchemas kvs m hv hm k s hs hk)
  case allOf =>
    intro xs hx s hs
    exact (h s _ (depth_in_arr hx hs)).1 (L.allOf xs hx s hs)
  case anyOf =>
    intro xs hx
    obtain ⟨s, hs, hv⟩ := L.anyOf xs hx
    exact ⟨s, hs, (h s _ (depth_in_arr hx hs)).1 hv⟩
  case oneOf =>
    intro xs hx
    rw [← L.oneOf xs hx]
    congr 1
    refine List.filter_congr fun s hs => ?_
    simp only [decide_eq_decide]
    exact (h s _ (depth_in_arr hx hs)).symm
  case not =>
    intro s hs
    rw [← h s _ (depthD_get hs)]
    exact L.not s hs
  case conditional =>
    intro s hs
    rw [← h s _ (depthD_get hs)]
    obtain ⟨h1, h2⟩ := L.conditional s hs
    exact ⟨fun a t ht => (h t _ (depthD_get ht)).1 (h1 a t ht), fun a t ht => (h t _ (depthD_get ht)).1 (h2 a t ht)⟩
  case format => exact L.format
  case pattern => exact L.pattern

theorem depth_recognised (voc : List Kw) (items : List (Str × Node)) :
    Node.depthD (recognised voc items) ≤ Node.depthD items := by
  unfold recognised
  generalize (fun p : Str × Node => _) = q
  induction items with
  | nil => simp
  | cons x xs ih =>
    obtain ⟨k, n⟩ := x
    rw [List.filter_cons]
    split <;> simp only [Node.depthD] <;> omega

theorem satN_stable (w : World) (voc : List Kw) (d e : Nat) : ∀ n v, n.depth < d → n.depth < e →
    (SatN w voc d n v ↔ SatN w voc e n v) := by
  induction d generalizing e with
  | zero => intro n v h; omega
  | succ d ih =>
    intro n v hd he
    obtain ⟨e, rfl⟩ : ∃ e', e = e' + 1 := ⟨e - 1, by omega⟩
    cases n with
    | obj items =>
      rw [Node.depth] at hd he
      have hr := depth_recognised voc items
      have key : ∀ n x, n.depth ≤ Node.depthD (recognised voc items) → (SatN w voc d n x ↔ SatN w voc e n x) :=
        fun n x h => ih e n x (by omega) (by omega)
      exact ⟨Layer.congr' key, Layer.congr' fun n x h => (key n x h).symm⟩
    | _ => exact Iff.rfl

theorem sat_obj (w : World) (voc : List Kw) (items : List (Str × Node)) (v : Val) :
    Sat w voc (.obj items) v ↔ Layer w (Sat w voc) (recognised voc items) v := by
  have hr := depth_recognised voc items
  have key : ∀ n x, n.depth ≤ Node.depthD (recognised voc items) →
      (SatN w voc ((Node.obj items).depth) n x ↔ Sat w voc n x) := fun n x h =>
    satN_stable w voc _ _ n x (by rw [Node.depth]; omega) (by omega)
  exact ⟨Layer.congr' key, Layer.congr' fun n x h => (key n x h).symm⟩

end Verif
