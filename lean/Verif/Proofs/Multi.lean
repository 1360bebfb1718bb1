import Verif.Proofs.Single
/-! # Schemas whose keywords each fill their own dictionary slot -/

namespace Verif

/-- The keyword with a given key. -/
def kwOfKey (s : Str) : Kw := (allKw.find? fun k => k.key = s).getD .ref

theorem kwOfKey_key (k : Kw) : kwOfKey k.key = k := by cases k <;> decide

theorem key_inj {k k' : Kw} (h : k.key = k'.key) : k = k' := by
  rw [← kwOfKey_key k, ← kwOfKey_key k', h]

theorem mem_dictSet {β : Type} {k : Str} {x : β} {d : List (Str × β)} {p : Str × β} (h : p ∈ dictSet k x d) :
    p = (k, x) ∨ p ∈ d := by
  induction d with
  | nil => simp [dictSet] at h; exact .inl h
  | cons q d ih =>
    obtain ⟨k', y⟩ := q
    by_cases hk : k' = k
    · simp only [dictSet, hk, if_true, List.mem_cons] at h
      rcases h with h | h
      · exact .inl h
      · exact .inr (by simp [h])
    · simp only [dictSet, hk, if_false, List.mem_cons] at h
      rcases h with h | h
      · exact .inr (by simp [h])
      · rcases ih h with h | h
        · exact .inl h
        · exact .inr (by simp [h])

theorem mem_dictSet_self {β : Type} (k : Str) (x : β) (d : List (Str × β)) : (k, x) ∈ dictSet k x d := by
  induction d with
  | nil => simp [dictSet]
  | cons q d ih =>
    obtain ⟨k', y⟩ := q
    by_cases hk : k' = k
    · simp [dictSet, hk]
    · simp [dictSet, hk, ih]

theorem mem_dictSet_other {β : Type} {k : Str} (x : β) {d : List (Str × β)} {p : Str × β} (h : p ∈ d) (hk : p.1 ≠ k) :
    p ∈ dictSet k x d := by
  induction d with
  | nil => simp at h
  | cons q d ih =>
    obtain ⟨k', y⟩ := q
    by_cases e : k' = k
    · simp only [dictSet, e, if_true, List.mem_cons]
      rcases List.mem_cons.1 h with h | h
      · subst h; exact absurd e hk
      · exact .inr h
    · simp only [dictSet, e, if_false, List.mem_cons]
      rcases List.mem_cons.1 h with h | h
      · exact .inl h
      · exact .inr (ih h)

variable {α : Type}

/-- The keyword occurs and is recognised. -/
def Present (voc : List Kw) (items : List (Str × Node)) (k : Kw) : Prop :=
  k ∈ voc ∧ k.isAssertion = true ∧ dictHas k.key items = true

theorem loadAll_sets (w : World) (vw : Node → Res Node) (mk : Node → α) (items : List (Str × Node)) (voc : List Kw)
    (h : ∀ k, Present voc items k →
      readKw w vw mk items k = .ok .nop ∨ ∃ x, readKw w vw mk items k = .ok (.set x)) :
    ∃ d, loadAll w vw mk items voc [] = (d, .ok ()) ∧
      ∀ p, p ∈ d ↔ ∃ k, Present voc items k ∧ readKw w vw mk items k = .ok (.set p.2) ∧ p.1 = k.key := by
  suffices H : ∀ (ks : List Kw), (∀ k ∈ ks, k ∈ voc) → ∀ d : Data α,
      (∀ p ∈ d, ∃ k, Present voc items k ∧ readKw w vw mk items k = .ok (.set p.2) ∧ p.1 = k.key) →
      ∃ d', loadAll w vw mk items ks d = (d', .ok ()) ∧ (∀ p, p ∈ d' ↔ p ∈ d ∨
        ∃ k, k ∈ ks ∧ Present voc items k ∧ readKw w vw mk items k = .ok (.set p.2) ∧ p.1 = k.key) by
    obtain ⟨d, h1, h2⟩ := H voc (fun _ h => h) [] (by simp)
    refine ⟨d, h1, fun p => ?_⟩
    rw [h2]
    constructor
    · rintro (h | ⟨k, _, h⟩)
      · simp at h
      · exact ⟨k, h⟩
    · rintro ⟨k, hk, h⟩; exact .inr ⟨k, hk.1, hk, h⟩
  intro ks
  induction ks with
  | nil => intro _ d _; exact ⟨d, rfl, by simp⟩
  | cons k ks ih =>
    intro hks d hd
    have ih' := ih fun k' h' => hks k' (by simp [h'])
    rw [loadAll]
    by_cases hp : (k.isAssertion && dictHas k.key items) = true
    · have hp' : Present voc items k := ⟨hks k (by simp), by simpa using hp⟩
      rw [if_pos hp, applyKw_eq]
      rcases h k hp' with hr | ⟨x, hr⟩
      · rw [hr]
        obtain ⟨d', h1, h2⟩ := ih' d hd
        refine ⟨d', h1, fun p => ?_⟩
        rw [h2]
        constructor
        · rintro (h | ⟨k', a, b⟩)
          · exact .inl h
          · exact .inr ⟨k', by simp [a], b⟩
        · rintro (h | ⟨k', a, b, c, e⟩)
          · exact .inl h
          · rcases List.mem_cons.1 a with a | a
            · subst a; rw [hr] at c; cases c
            · exact .inr ⟨k', a, b, c, e⟩
      · rw [hr]
        simp only [Res.ok_bind, Upd.apply]
        obtain ⟨d', h1, h2⟩ := ih' (dictSet k.key x d) (by
          intro p hp
          rcases mem_dictSet hp with e | e
          · subst e; exact ⟨k, hp', hr, rfl⟩
          · exact hd p e)
        refine ⟨d', h1, fun p => ?_⟩
        rw [h2]
        constructor
        · rintro (h | ⟨k', a, b⟩)
          · rcases mem_dictSet h with e | e
            · subst e; exact .inr ⟨k, by simp, hp', hr, rfl⟩
            · exact .inl e
          · exact .inr ⟨k', by simp [a], b⟩
        · rintro (h | ⟨k', a, b, c, e⟩)
          · left
            by_cases e : p.1 = k.key
            · obtain ⟨k', _, c, e'⟩ := hd p h
              have : k' = k := key_inj (e'.symm.trans e)
              subst this
              rw [hr] at c; injection c with c; injection c with c
              have : p = (k'.key, x) := by rw [← e', c]
              rw [this]; exact mem_dictSet_self ..
            · exact mem_dictSet_other _ h e
          · rcases List.mem_cons.1 a with a | a
            · subst a
              rw [hr] at c; injection c with c; injection c with c
              have : p = (k'.key, x) := by rw [← e, c]
              left; rw [this]; exact mem_dictSet_self ..
            · exact .inr ⟨k', a, b, c, e⟩
    · rw [if_neg hp]
      obtain ⟨d', h1, h2⟩ := ih' d hd
      refine ⟨d', h1, fun p => ?_⟩
      rw [h2]
      constructor
      · rintro (h | ⟨k', a, b⟩)
        · exact .inl h
        · exact .inr ⟨k', by simp [a], b⟩
      · rintro (h | ⟨k', a, b, c, e⟩)
        · exact .inl h
        · rcases List.mem_cons.1 a with a | a
          · subst a; exact absurd (by simp [b.2.1, b.2.2]) hp
          · exact .inr ⟨k', a, b, c, e⟩

theorem runAll_two (rec : α → Val → Ctx → Res Unit) (w : World) (f : Nat) (v : Val) (ctx : Ctx) (d : Data α)
    (e : PyErr) (h : ∀ p ∈ d, run rec w f p.2 v ctx = .ok () ∨ run rec w f p.2 v ctx = .err e) :
    runAll rec w f v ctx d = .ok () ∨ runAll rec w f v ctx d = .err e := by
  induction d with
  | nil => exact .inl rfl
  | cons p d ih =>
    obtain ⟨k, x⟩ := p
    rw [runAll]
    rcases h (k, x) (by simp) with h1 | h1
    · rw [h1]; exact ih fun p hp => h p (by simp [hp])
    · rw [h1]; exact .inr rfl

/-- A schema whose recognised keywords each fill their own slot, all of which answer "accepted" or raise the same
exception `e`. -/
theorem multi_set (w : World) (docs : List Doc) (voc : List Kw) (f : Nat) (items : List (Str × Node)) (v : Val)
    (ctx : Ctx) (e : PyErr)
    (h : ∀ k, Present voc items k →
      readKw w (view docs (f + 1)) (id : Node → Node) items k = .ok .nop ∨
      ∃ x, readKw w (view docs (f + 1)) (id : Node → Node) items k = .ok (.set x) ∧
        (run (validateN w docs voc (f + 1)) w (f + 1) x v ctx = .ok () ∨
          run (validateN w docs voc (f + 1)) w (f + 1) x v ctx = .err e)) :
    (validateN w docs voc (f + 2) (.obj items) v ctx = .ok () ↔
      ∀ k x, Present voc items k → readKw w (view docs (f + 1)) (id : Node → Node) items k = .ok (.set x) →
        run (validateN w docs voc (f + 1)) w (f + 1) x v ctx = .ok ()) ∧
    (validateN w docs voc (f + 2) (.obj items) v ctx = .ok () ∨
      validateN w docs voc (f + 2) (.obj items) v ctx = .err e) := by
  obtain ⟨d, hl, hm⟩ := loadAll_sets w (view docs (f + 1)) (id : Node → Node) items voc fun k hk => by
    rcases h k hk with h | ⟨x, h, _⟩
    · exact .inl h
    · exact .inr ⟨x, h⟩
  rw [validateN_obj, hl]
  constructor
  · simp only [runAll_ok_iff]
    constructor
    · intro hall k x hk hr
      exact hall (k.key, x) ((hm _).2 ⟨k, hk, hr, rfl⟩)
    · intro hall p hp
      obtain ⟨k, hk, hr, _⟩ := (hm p).1 hp
      exact hall k p.2 hk hr
  · apply runAll_two
    intro p hp
    obtain ⟨k, hk, hr, _⟩ := (hm p).1 hp
    rcases h k hk with h | ⟨x, h, h'⟩
    · rw [hr] at h; cases h
    · rw [hr] at h; injection h with h; injection h with h; rw [h]; exact h'

end Verif
