import Verif.Proofs.Applicators
/-! # Loading the object, conditional and array families -/

namespace Verif

/-- One recognised keyword whose effect on the dictionary is idempotent. -/
theorem single_upd (w : World) (docs : List Doc) (voc : List Kw) (f : Nat) (items : List (Str × Node)) (v : Val)
    (ctx : Ctx) (k : Kw) (u : Upd Node) (d : Data Node) (ho : Only voc items k) (ha : k.isAssertion = true)
    (hp : dictHas k.key items = true) (hr : readKw w (view docs (f + 1)) id items k = .ok u)
    (h0 : u.apply k.key [] = .ok d) (h1 : u.apply k.key d = .ok d) :
    validateN w docs voc (f + 2) (.obj items) v ctx = runAll (validateN w docs voc (f + 1)) w (f + 1) v ctx d := by
  rw [validateN_obj]
  have stay : ∀ ks : List Kw, (∀ k' ∈ ks, k' ∈ voc) →
      loadAll w (view docs (f + 1)) (id : Node → Node) items ks d = (d, .ok ()) := by
    intro ks hks
    induction ks with
    | nil => rfl
    | cons k' ks ih =>
      have ih' := ih fun k'' h => hks k'' (by simp [h])
      rw [loadAll]
      split
      · rename_i h
        have hk : k' = k := ho.only k' (hks k' (by simp)) (by simp_all) (by simp_all)
        subst hk
        rw [applyKw_eq, hr, Res.ok_bind, h1]; exact ih'
      · exact ih'
  have : loadAll w (view docs (f + 1)) (id : Node → Node) items voc [] = (d, .ok ()) := by
    suffices H : ∀ ks : List Kw, k ∈ ks → (∀ k' ∈ ks, k' ∈ voc) →
        loadAll w (view docs (f + 1)) (id : Node → Node) items ks [] = (d, .ok ()) from H voc ho.mem fun _ h => h
    intro ks hm hks
    induction ks with
    | nil => simp at hm
    | cons k' ks ih =>
      rw [loadAll]
      split
      · rename_i h
        have hk : k' = k := ho.only k' (hks k' (by simp)) (by simp_all) (by simp_all)
        subst hk
        rw [applyKw_eq, hr, Res.ok_bind, h0]
        exact stay ks fun k'' h => hks k'' (by simp [h])
      · rename_i h
        have : k ∈ ks := by
          rcases List.mem_cons.1 hm with e | e
          · subst e; simp [ha, hp] at h
          · exact e
        exact ih this fun k'' h => hks k'' (by simp [h])
  rw [this]

/-! ## The object family -/

/-- What the object family reads. -/
def objTarget (k : Kw) (T : ObjV Node) : Upd Node → Prop
  | .props kvs => k = .properties ∧ (kvs.map Prod.fst).Nodup ∧ T.props = kvs
  | .patterns kvs => k = .patternProperties ∧ T.patterns = some kvs
  | .additional s => k = .additionalProperties ∧ T.additional = s
  | .unevaluated b => k = .unevaluatedProperties ∧ T.unevaluated = b
  | .names a => k = .propertyNames ∧ T.names = some a
  | _ => False

theorem dictGet_fold {β : Type} (kvs : List (Str × β)) (hn : (kvs.map Prod.fst).Nodup) (p : List (Str × β)) (n : Str) :
    dictGet n (kvs.foldl (fun p x => dictSet x.1 x.2 p) p) = (dictGet n kvs).or (dictGet n p) := by
  induction kvs generalizing p with
  | nil => rfl
  | cons q kvs ih =>
    obtain ⟨k, x⟩ := q
    simp only [List.map_cons, List.nodup_cons] at hn
    rw [List.foldl_cons, ih hn.2, dictGet_set]
    by_cases h : k = n
    · subst h
      have : dictGet k kvs = none := dictGet_none.2 hn.1
      simp [dictGet, this]
    · simp [dictGet, h, Ne.symm h]

/-- The state of the dictionary after the keywords in `S` have been applied. -/
def ObjRel (T : ObjV Node) (S : Kw → Bool) (d : Data Node) : Prop :=
  (d = [] ∧ S .properties = false ∧ S .patternProperties = false ∧ S .additionalProperties = false ∧
    S .unevaluatedProperties = false ∧ S .propertyNames = false) ∨
  ∃ o : ObjV Node, d = [(c!"properties", .object o)] ∧
    (∀ n, dictGet n o.props = if S .properties then dictGet n T.props else none) ∧
    o.patterns = (if S .patternProperties then T.patterns else none) ∧
    o.additional = (if S .additionalProperties then T.additional else none) ∧
    o.unevaluated = (if S .unevaluatedProperties then T.unevaluated else false) ∧
    o.names = (if S .propertyNames then T.names else none)

theorem objRel_step (T : ObjV Node) (S : Kw → Bool) (d : Data Node) (h : ObjRel T S d) (k : Kw) (u : Upd Node)
    (hu : objTarget k T u) :
    ∃ d', u.apply k.key d = .ok d' ∧ ObjRel T (fun k' => S k' || decide (k' = k)) d' := by
  have hobj : ∃ o : ObjV Node, objOf d = o ∧ (∀ g, setObj g d = [(c!"properties", .object (g o))]) ∧
      (∀ n, dictGet n o.props = if S .properties then dictGet n T.props else none) ∧
      o.patterns = (if S .patternProperties then T.patterns else none) ∧
      o.additional = (if S .additionalProperties then T.additional else none) ∧
      o.unevaluated = (if S .unevaluatedProperties then T.unevaluated else false) ∧
      o.names = (if S .propertyNames then T.names else none) := by
    rcases h with ⟨rfl, h1, h2, h3, h4, h5⟩ | ⟨o, rfl, h⟩
    · refine ⟨{}, rfl, fun g => rfl, ?_⟩
      simp [h1, h2, h3, h4, h5, dictGet]
    · exact ⟨o, rfl, fun g => rfl, h⟩
  obtain ⟨o, ho, hset, h1, h2, h3, h4, h5⟩ := hobj
  cases u <;> simp only [objTarget] at hu
  case props kvs =>
    obtain ⟨rfl, hn, hT⟩ := hu
    refine ⟨_, rfl, .inr ⟨_, hset _, ?_, ?_, ?_, ?_, ?_⟩⟩
    · intro n; simp only [dictGet_fold kvs hn, h1, hT]
      cases S .properties <;> cases dictGet n kvs <;> simp
    · simpa using h2
    · simpa using h3
    · simpa using h4
    · simpa using h5
  case patterns kvs =>
    obtain ⟨rfl, hT⟩ := hu
    refine ⟨_, rfl, .inr ⟨_, hset _, ?_, ?_, ?_, ?_, ?_⟩⟩
    · simpa using h1
    · simp [hT]
    · simpa using h3
    · simpa using h4
    · simpa using h5
  case additional s =>
    obtain ⟨rfl, hT⟩ := hu
    refine ⟨_, rfl, .inr ⟨_, hset _, ?_, ?_, ?_, ?_, ?_⟩⟩
    · simpa using h1
    · simpa using h2
    · simp only [h3, hT]; cases S .additionalProperties <;> cases s <;> simp
    · simpa using h4
    · simpa using h5
  case unevaluated b =>
    obtain ⟨rfl, hT⟩ := hu
    refine ⟨_, rfl, .inr ⟨_, hset _, ?_, ?_, ?_, ?_, ?_⟩⟩
    · simpa using h1
    · simpa using h2
    · simpa using h3
    · simp only [h4, hT]; cases S .unevaluatedProperties <;> cases b <;> simp
    · simpa using h5
  case names a =>
    obtain ⟨rfl, hT⟩ := hu
    refine ⟨_, rfl, .inr ⟨_, hset _, ?_, ?_, ?_, ?_, ?_⟩⟩
    · simpa using h1
    · simpa using h2
    · simpa using h3
    · simpa using h4
    · simp [hT]

/-- Whether a keyword is recognised and present. -/
def presentB (voc : List Kw) (items : List (Str × Node)) (k : Kw) : Bool :=
  decide (k ∈ voc) && k.isAssertion && dictHas k.key items

theorem presentB_iff {voc : List Kw} {items : List (Str × Node)} {k : Kw} :
    presentB voc items k = true ↔ Present voc items k := by
  simp [presentB, Present, and_assoc]

theorem loadAll_object (w : World) (vw : Node → Res Node) (items : List (Str × Node)) (voc : List Kw) (T : ObjV Node)
    (h : ∀ k, Present voc items k → ∃ u, readKw w vw (id : Node → Node) items k = .ok u ∧ objTarget k T u) :
    ∃ d, loadAll w vw (id : Node → Node) items voc [] = (d, .ok ()) ∧ ObjRel T (presentB voc items) d := by
  suffices H : ∀ (ks : List Kw) (S : Kw → Bool) (d : Data Node), (∀ k, Present ks items k → Present voc items k) →
      ObjRel T S d → ∃ d', loadAll w vw (id : Node → Node) items ks d = (d', .ok ()) ∧
        ObjRel T (fun k => S k || presentB ks items k) d' by
    have := H voc (fun _ => false) [] (fun _ h => h) (.inl (by simp))
    simpa using this
  intro ks
  induction ks with
  | nil =>
    intro S d _ hd
    refine ⟨d, rfl, ?_⟩
    simpa [presentB] using hd
  | cons k ks ih =>
    intro S d hks hd
    have hks' : ∀ k', Present ks items k' → Present voc items k' :=
      fun k' h' => hks k' ⟨by simp [h'.1], h'.2⟩
    rw [loadAll]
    by_cases hp : (k.isAssertion && dictHas k.key items) = true
    · have hp2 : k.isAssertion = true ∧ dictHas k.key items = true := by simpa using hp
      obtain ⟨u, hr, ht⟩ := h k (hks k ⟨by simp, hp2⟩)
      obtain ⟨d1, ha, hd1⟩ := objRel_step T S d hd k u ht
      obtain ⟨d', hl, hd'⟩ := ih _ d1 hks' hd1
      rw [if_pos hp, applyKw_eq, hr, Res.ok_bind, ha]
      refine ⟨d', hl, ?_⟩
      have e : (fun k' => (S k' || decide (k' = k)) || presentB ks items k') =
          fun k' => S k' || presentB (k :: ks) items k' := by
        funext k'
        by_cases e : k' = k
        · subst e; simp [presentB, hp2]
        · simp [presentB, e]
      rw [e] at hd'; exact hd'
    · rw [if_neg hp]
      obtain ⟨d', hl, hd'⟩ := ih S d hks' hd
      refine ⟨d', hl, ?_⟩
      have e : presentB (k :: ks) items = presentB ks items := by
        funext k'
        by_cases e : k' = k
        · subst e
          have : (k'.isAssertion && dictHas k'.key items) = false := by simpa using hp
          simp [presentB, Bool.and_assoc, this]
        · simp [presentB, e]
      rw [e]; exact hd'

/-! ## The conditional family -/

def condTarget (k : Kw) (i t e : Option Node) : Upd Node → Prop
  | .ifs a => k = .if ∧ i = some a
  | .thens a => k = .then ∧ t = some a
  | .elses a => k = .else ∧ e = some a
  | _ => False

def CondRel (i t e : Option Node) (S : Kw → Bool) (d : Data Node) : Prop :=
  (d = [] ∧ S .if = false ∧ S .then = false ∧ S .else = false) ∨
  d = [(c!"if", .cond (if S .if then i else none) (if S .then then t else none) (if S .else then e else none))]

theorem condRel_step (i t e : Option Node) (S : Kw → Bool) (d : Data Node) (h : CondRel i t e S d) (k : Kw)
    (u : Upd Node) (hu : condTarget k i t e u) :
    ∃ d', u.apply k.key d = .ok d' ∧ CondRel i t e (fun k' => S k' || decide (k' = k)) d' := by
  rcases h with ⟨rfl, h1, h2, h3⟩ | rfl
  · cases u <;> simp only [condTarget] at hu <;> obtain ⟨rfl, hT⟩ := hu <;> refine ⟨_, rfl, .inr ?_⟩ <;>
      simp [h1, h2, h3, hT, condOf, dictGet, dictSet]
  · cases u <;> simp only [condTarget] at hu <;> obtain ⟨rfl, hT⟩ := hu <;> refine ⟨_, rfl, .inr ?_⟩ <;>
      simp [hT, condOf, dictGet, dictSet]

theorem loadAll_cond (w : World) (vw : Node → Res Node) (items : List (Str × Node)) (voc : List Kw)
    (i t e : Option Node)
    (h : ∀ k, Present voc items k → ∃ u, readKw w vw (id : Node → Node) items k = .ok u ∧ condTarget k i t e u) :
    ∃ d, loadAll w vw (id : Node → Node) items voc [] = (d, .ok ()) ∧ CondRel i t e (presentB voc items) d := by
  suffices H : ∀ (ks : List Kw) (S : Kw → Bool) (d : Data Node), (∀ k, Present ks items k → Present voc items k) →
      CondRel i t e S d → ∃ d', loadAll w vw (id : Node → Node) items ks d = (d', .ok ()) ∧
        CondRel i t e (fun k => S k || presentB ks items k) d' by
    have := H voc (fun _ => false) [] (fun _ h => h) (.inl (by simp))
    simpa using this
  intro ks
  induction ks with
  | nil =>
    intro S d _ hd
    refine ⟨d, rfl, ?_⟩
    simpa [presentB] using hd
  | cons k ks ih =>
    intro S d hks hd
    have hks' : ∀ k', Present ks items k' → Present voc items k' :=
      fun k' h' => hks k' ⟨by simp [h'.1], h'.2⟩
    rw [loadAll]
    by_cases hp : (k.isAssertion && dictHas k.key items) = true
    · have hp2 : k.isAssertion = true ∧ dictHas k.key items = true := by simpa using hp
      obtain ⟨u, hr, ht⟩ := h k (hks k ⟨by simp, hp2⟩)
      obtain ⟨d1, ha, hd1⟩ := condRel_step i t e S d hd k u ht
      obtain ⟨d', hl, hd'⟩ := ih _ d1 hks' hd1
      rw [if_pos hp, applyKw_eq, hr, Res.ok_bind, ha]
      refine ⟨d', hl, ?_⟩
      have e' : (fun k' => (S k' || decide (k' = k)) || presentB ks items k') =
          fun k' => S k' || presentB (k :: ks) items k' := by
        funext k'
        by_cases e : k' = k
        · subst e; simp [presentB, hp2]
        · simp [presentB, e]
      rw [e'] at hd'; exact hd'
    · rw [if_neg hp]
      obtain ⟨d', hl, hd'⟩ := ih S d hks' hd
      refine ⟨d', hl, ?_⟩
      have e' : presentB (k :: ks) items = presentB ks items := by
        funext k'
        by_cases e : k' = k
        · subst e
          have : (k'.isAssertion && dictHas k'.key items) = false := by simpa using hp
          simp [presentB, Bool.and_assoc, this]
        · simp [presentB, e]
      rw [e']; exact hd'

end Verif
