import Verif.Proofs.Heap
import Verif.Model.Vocabulary
/-!
# C31: validation has no memory

A schema object keeps its lazy validators, loaded or half loaded, from one call of `validate` to the next (`Memo`).  The outcome
of a call does not depend on the calls before it.
-/

namespace Verif

section
variable (w : World) (docs : List Doc) (voc : List Kw) (root : Node)

/-- A call of `validate` on a schema object in state `m` that comes to an end, with outcome `r` (it returned or raised), leaving
the state `m'`. -/
def Ended (m : Memo) (v : Val) (r : Res Unit) (m' : Memo) : Prop :=
  r ≠ .timeout ∧ ∃ f, m.validate w docs voc f root v = (r, m')

/-- The states of a schema object after some calls of `validate`, whatever their outcomes. -/
inductive Used : Memo → Prop where
  | new : Used {}
  | call {m m' : Memo} {v : Val} {r : Res Unit} : Used m → Ended w docs voc root m v r m' → Used m'

/-- What holds of the states. -/
structure Sound (m : Memo) : Prop where
  good : Good w docs voc m.heap
  lazy : ∀ a, m.validator = some (some a) → a < m.heap.length ∧ nodeAt m.heap a = root ∧ ∃ g items, view docs g root = .ok (.obj items)
  empty : m.validator = some none → ∃ g x, view docs g root = .ok x ∧ ∀ items, x ≠ .obj items

variable {w docs voc root}

theorem Sound.new : Sound w docs voc root {} := ⟨fun a c h => by simp at h, by simp, by simp⟩

theorem schemaValidate_mono {f g : Nat} (h : f ≤ g) (v : Val) : schemaValidate w docs voc f root v ⊑ schemaValidate w docs voc g root v := by
  unfold schemaValidate
  refine (view_mono docs h root).bind fun m => ?_
  cases m with
  | obj items => exact validateN_mono w docs voc h root v []
  | _ => exact .refl _

/-- `JsonSchema.validator` when it ends: the state is as required, and the validator is the one for the root. -/
theorem Sound.get {m : Memo} (hm : Sound w docs voc root m) (f : Nat) (ht : (m.get docs f root).1 ≠ .timeout) :
    Sound w docs voc root (m.get docs f root).2 ∧
      (∀ x, (m.get docs f root).1 = .ok x → (m.get docs f root).2.validator = .some x) ∧
      (∀ e, (m.get docs f root).1 = .err e → view docs f root = .err e) := by
  unfold Memo.get at ht ⊢
  cases hv : m.validator with
  | some x => exact ⟨hm, fun y h => by simpa [hv] using h, by simp⟩
  | none =>
    rw [hv] at ht
    simp only at ht ⊢
    cases hr : view docs f root with
    | err e => exact ⟨hm, by simp, by simp⟩
    | timeout => rw [hr] at ht; exact absurd rfl ht
    | ok x =>
      have other : (∀ items, x ≠ .obj items) → Sound w docs voc root { m with validator := .some .none } :=
        fun h => ⟨hm.good, by simp, fun _ => ⟨f, x, hr, h⟩⟩
      cases x with
      | obj items =>
        simp only
        have hg : Grow m.heap (m.heap ++ [{ node := root }]) := ⟨[root], rfl⟩
        refine ⟨⟨hm.good.grow hg, ?_, by simp⟩, by simp, by simp⟩
        rintro a ⟨⟩
        exact ⟨by simp, by simp [nodeAt], f, items, hr⟩
      | _ => exact ⟨other (by simp), by simp, by simp⟩

theorem Sound.validate {m : Memo} (hm : Sound w docs voc root m) (f : Nat) (v : Val) (ht : (m.validate w docs voc f root v).1 ≠ .timeout) :
    Sound w docs voc root (m.validate w docs voc f root v).2 ∧
      ∃ F, schemaValidate w docs voc F root v = (m.validate w docs voc f root v).1 := by
  have hget := hm.get f
  unfold Memo.validate at ht ⊢
  revert ht hget
  rcases m.get docs f root with ⟨r, m'⟩
  cases r with
  | err e =>
    intro _ hget
    obtain ⟨s, _, he⟩ := hget (by simp)
    exact ⟨s, f, by simp [schemaValidate, he e rfl]⟩
  | timeout => exact fun ht => absurd rfl ht
  | ok x =>
    intro ht hget
    obtain ⟨s, hx, _⟩ := hget (by simp)
    cases x with
    | none =>
      obtain ⟨g, y, hg, hy⟩ := s.empty (hx _ rfl)
      refine ⟨s, g, ?_⟩
      cases y with
      | obj items => exact absurd rfl (hy items)
      | _ => simp [schemaValidate, hg]
    | some a =>
      obtain ⟨ha, hn, g, items, hg⟩ := s.lazy a (hx _ rfl)
      simp only at ht ⊢
      obtain ⟨s1, s2, F, s3⟩ := validateH_spec f a v [] m'.heap s.good ha ht
      refine ⟨⟨s1, ?_, s.empty⟩, max F g, ?_⟩
      · intro b hb
        obtain ⟨hb1, hb2, hb3⟩ := s.lazy b hb
        exact ⟨Nat.lt_of_lt_of_le hb1 s2.1, by rw [s2.2 b hb1, hb2], hb3⟩
      · rw [hn] at s3
        simp only [schemaValidate, view_big (Nat.le_max_right F g) hg, Res.ok_bind]
        rw [validateN_mono w docs voc (Nat.le_max_left F g) _ _ _ (by rw [s3]; exact ht), s3]

theorem Sound.ends {m : Memo} (hm : Sound w docs voc root m) (f : Nat) (v : Val) (ht : schemaValidate w docs voc f root v ≠ .timeout) :
    (m.validate w docs voc f root v).1 ≠ .timeout := by
  have hview : view docs f root ≠ .timeout := by
    intro e; rw [schemaValidate, e] at ht; exact ht rfl
  have hget : (m.get docs f root).1 ≠ .timeout := by
    unfold Memo.get
    split
    · simp
    · cases hr : view docs f root with
      | ok x => cases x <;> simp
      | err e => simp
      | timeout => exact absurd hr hview
  have hget' := hm.get f hget
  unfold Memo.validate
  revert hget hget'
  rcases m.get docs f root with ⟨r, m'⟩
  cases r with
  | err e => simp
  | timeout => exact fun h _ => absurd rfl h
  | ok x =>
    intro _ hget'
    obtain ⟨s, hx, _⟩ := hget'
    cases x with
    | none => simp
    | some a =>
      obtain ⟨ha, hn, g, items, hg⟩ := s.lazy a (hx _ rfl)
      simp only
      refine validateH_ends f a v [] m'.heap s.good ha ?_
      have hv : view docs f root = .ok (.obj items) := by
        rw [← hg]
        exact Res.Ext.agree (F := fun f => view docs f root) (fun h => view_mono docs h _) hview (by simp [hg])
      rw [hn]
      simpa [schemaValidate, hv] using ht

theorem Used.sound {m : Memo} (h : Used w docs voc root m) : Sound w docs voc root m := by
  induction h with
  | new => exact .new
  | call _ he ih =>
    obtain ⟨ht, f, e⟩ := he
    have := (ih.validate f _ (by rw [e]; exact ht)).1
    rw [e] at this
    exact this

/-- The outcomes of a used schema object are those of `schemaValidate`, which loads everything anew: what is proved about it holds
of schema objects with memory. -/
theorem C31_agrees {m : Memo} (h : Used w docs voc root m) (v : Val) (r : Res Unit) :
    (∃ m', Ended w docs voc root m v r m') ↔ r ≠ .timeout ∧ ∃ f, schemaValidate w docs voc f root v = r := by
  constructor
  · rintro ⟨m', ht, f, e⟩
    obtain ⟨_, F, hF⟩ := h.sound.validate f v (by rw [e]; exact ht)
    exact ⟨ht, F, by rw [hF, e]⟩
  · rintro ⟨ht, f, e⟩
    have hends := h.sound.ends f v (by rw [e]; exact ht)
    obtain ⟨_, F, hF⟩ := h.sound.validate f v hends
    have : schemaValidate w docs voc f root v = (m.validate w docs voc f root v).1 := by
      rw [← hF]
      exact Res.Ext.agree (F := fun f => schemaValidate w docs voc f root v) (fun h => schemaValidate_mono h v) (by rw [e]; exact ht)
        (by simp only [hF]; exact hends)
    exact ⟨(m.validate w docs voc f root v).2, ht, f, by rw [← e, this]⟩

/-- C31: a call of `validate` has the same outcomes on a schema object with any history as on a new one. -/
theorem C31_no_memory {m : Memo} (h : Used w docs voc root m) (v : Val) (r : Res Unit) :
    (∃ m', Ended w docs voc root m v r m') ↔ ∃ m', Ended w docs voc root {} v r m' := by
  rw [C31_agrees h, C31_agrees .new]

/-- C31: there is only one outcome, whatever the histories. -/
theorem C31_one_outcome {m₁ m₂ m₁' m₂' : Memo} (h₁ : Used w docs voc root m₁) (h₂ : Used w docs voc root m₂) {v : Val} {r₁ r₂ : Res Unit}
    (e₁ : Ended w docs voc root m₁ v r₁ m₁') (e₂ : Ended w docs voc root m₂ v r₂ m₂') : r₁ = r₂ := by
  obtain ⟨t₁, f₁, x₁⟩ := (C31_agrees h₁ v r₁).1 ⟨_, e₁⟩
  obtain ⟨t₂, f₂, x₂⟩ := (C31_agrees h₂ v r₂).1 ⟨_, e₂⟩
  rw [← x₁, ← x₂]
  exact Res.Ext.agree (F := fun f => schemaValidate w docs voc f root v) (fun h => schemaValidate_mono h v) (by rw [x₁]; exact t₁)
    (by rw [x₂]; exact t₂)

/-- C31 for whole histories: the list of outcomes of a sequence of calls on one object is the list of the outcomes on new
objects. -/
theorem C31_history {m : Memo} (h : Used w docs voc root m) (vs : List Val) (f : Nat)
    (ht : ∀ v ∈ vs, schemaValidate w docs voc f root v ≠ .timeout) :
    ((vs.foldl (fun (s : List (Res Unit) × Memo) v => ((s.2.validate w docs voc f root v).1 :: s.1, (s.2.validate w docs voc f root v).2))
      ([], m)).1).reverse = vs.map fun v => (({} : Memo).validate w docs voc f root v).1 := by
  have one : ∀ (m : Memo), Used w docs voc root m → ∀ v ∈ vs, (m.validate w docs voc f root v).1 = schemaValidate w docs voc f root v ∧
      Used w docs voc root (m.validate w docs voc f root v).2 := by
    intro m h v hv
    have hends := h.sound.ends f v (ht v hv)
    obtain ⟨_, F, hF⟩ := h.sound.validate f v hends
    refine ⟨?_, h.call ⟨hends, f, rfl⟩⟩
    rw [← hF]
    exact (Res.Ext.agree (F := fun f => schemaValidate w docs voc f root v) (fun h => schemaValidate_mono h v) (ht v hv)
      (by simp only [hF]; exact hends)).symm
  have gen : ∀ (us : List Val) (acc : List (Res Unit)) (m : Memo), (∀ v ∈ us, v ∈ vs) → Used w docs voc root m →
      ((us.foldl (fun (s : List (Res Unit) × Memo) v => ((s.2.validate w docs voc f root v).1 :: s.1, (s.2.validate w docs voc f root v).2))
        (acc, m)).1).reverse = acc.reverse ++ us.map fun v => (({} : Memo).validate w docs voc f root v).1 := by
    intro us
    induction us with
    | nil => intro acc m _ _; simp
    | cons u us ih =>
      intro acc m hu hm
      have h1 := one m hm u (hu u (by simp))
      have h2 := one {} .new u (hu u (by simp))
      rw [List.foldl_cons, ih _ _ (fun v hv => hu v (by simp [hv])) h1.2]
      simp [h1.1, h2.1]
  simpa using gen vs [] m (fun _ h => h) h

end

/-! ## A schema whose validators fail to load half-way

`{"properties": {"a": {"maxLength": 1, "pattern": 0}}}`: the subschema has loaded `maxLength` when `pattern` raises. -/

section
variable (w : World)

def halfSub : Node := .obj [(c!"maxLength", .num (.fin 1)), (c!"pattern", .num (.fin 0))]
def halfRoot : Node := .obj [(c!"properties", .obj [(c!"a", halfSub)])]
def halfVoc : List Kw := [.properties, .maxLength, .pattern]

/-- After one call the subschema is half loaded: it has `maxLength`, but not the flag. -/
example : ((({} : Memo).validate w [] halfVoc 5 halfRoot (.dict [(c!"a", .str c!"xy")])).1 = .err .schemaParse) ∧
    ((({} : Memo).validate w [] halfVoc 5 halfRoot (.dict [(c!"a", .str c!"xy")])).2.heap.map fun c => (List.map Prod.fst c.data, c.loaded)) =
      [([c!"properties"], true), ([c!"maxLength"], false)] := ⟨rfl, rfl⟩

/-- That state is one of those the theorems speak about, and a second call gives the same error again, not the error of
`maxLength`. -/
example : ∃ m, Used w [] halfVoc halfRoot m ∧ (m.heap.map fun c => (List.map Prod.fst c.data, c.loaded)) =
    [([c!"properties"], true), ([c!"maxLength"], false)] ∧
    (m.validate w [] halfVoc 5 halfRoot (.dict [(c!"a", .str c!"xy")])).1 = .err .schemaParse ∧
    (m.validate w [] halfVoc 5 halfRoot (.dict [(c!"b", .str c!"xy")])).1 = .ok () :=
  ⟨(({} : Memo).validate w [] halfVoc 5 halfRoot (.dict [(c!"a", .str c!"xy")])).2,
    .call .new (v := .dict [(c!"a", .str c!"xy")]) (r := .err .schemaParse) ⟨by simp, 5, rfl⟩, rfl, rfl, rfl⟩
end

end Verif
