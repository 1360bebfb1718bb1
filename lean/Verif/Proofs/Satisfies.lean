import Verif.Proofs.Families
import Verif.Spec.Satisfies
/-! # Judging a schema group by group -/

namespace Verif

/-! ## Loading never raises a `ValidationError` -/

/-- Not a `ValidationError`. -/
def NoVal {β : Type} (r : Res β) : Prop := ∀ e, r ≠ .err (.validation e)

theorem NoVal.ok {β : Type} (x : β) : NoVal (.ok x) := by intro e h; cases h
theorem NoVal.timeout {β : Type} : NoVal (.timeout : Res β) := by intro e h; cases h
theorem NoVal.bind {β γ : Type} {x : Res β} {g : β → Res γ} (hx : NoVal x) (hg : ∀ a, x = .ok a → NoVal (g a)) :
    NoVal (x >>= g) := by
  cases x with
  | ok a => exact hg a rfl
  | err e => intro e' h; exact hx e' (by simpa using h)
  | timeout => intro e' h; simp at h

theorem NoVal.bind' {β γ : Type} {x : Res β} {g : β → Res γ} (hx : NoVal x) (hg : ∀ a, NoVal (g a)) :
    NoVal (x >>= g) := hx.bind fun a _ => hg a

theorem getKey_noVal (items : List (Str × Node)) (k : Str) : NoVal (getKey items k) := by
  intro e; unfold getKey; split <;> simp

theorem pyIndex_noVal {β : Type} (xs : List β) (i : Int) : NoVal (pyIndex xs i) := by
  intro e; simp only [pyIndex]
  generalize (if i < 0 then i + (xs.length : Int) else i) = j
  split
  · simp
  · split <;> simp

theorem intInArr_noVal (i : Int) (xs : List Node) : NoVal (intInArr i xs) := by
  induction xs with
  | nil => intro e; simp [intInArr]
  | cons x xs ih =>
    cases x <;> simp only [intInArr] <;> first | exact ih | (split <;> first | exact ih | (intro e; simp)) | (intro e; simp)

theorem queryStep_noVal (n v : Node) (k : Str) : NoVal (queryStep n v k) := by
  unfold queryStep
  split
  · split
    · split
      · intro e; simp
      · split
        · intro e; simp
        · refine (intInArr_noVal _ _).bind' fun b => ?_
          split
          · exact pyIndex_noVal _ _
          · intro e; simp
    · split
      · intro e; simp
      · split
        · intro e; simp
        · exact pyIndex_noVal _ _
  · split <;> intro e <;> simp
  · intro e; simp

theorem queryLoop_noVal (vw : Node → Res Node) (hv : ∀ n, NoVal (vw n)) (ks : List Str) (n : Node) :
    NoVal (queryLoop vw n ks) := by
  induction ks generalizing n with
  | nil => exact .ok _
  | cons k ks ih => exact (hv n).bind' fun a => (queryStep_noVal _ _ _).bind' fun b => ih b

theorem queryDoc_noVal (vw : Node → Res Node) (hv : ∀ n, NoVal (vw n)) (d : Doc) (ks : List Str) :
    NoVal (queryDoc vw d ks) := by
  unfold queryDoc
  split
  · split
    · exact .ok _
    · split
      · exact .ok _
      · exact queryLoop_noVal vw hv _ _
  · exact queryLoop_noVal vw hv _ _

theorem view_noVal (docs : List Doc) (f : Nat) (n : Node) : NoVal (view docs f n) := by
  induction f generalizing n with
  | zero => exact .timeout
  | succ f ih =>
    rw [view.eq_def]
    split
    · exact .timeout
    · rename_i f' _ heq
      cases heq
      split
      · split
        · intro e; simp
        · refine (queryDoc_noVal _ (fun n => ih n) _ _).bind' fun a => (ih a).bind' fun b => ?_
          split <;> exact .ok _
      · exact .ok _

theorem toInt_noVal (m : Num) : NoVal m.toInt := by
  intro e; cases m <;> simp [Num.toInt]

theorem seqOf_noVal (n : Node) (xs : List Node) : NoVal (seqOf n xs) := by
  intro e he
  rcases seqOf_cases n xs with ⟨h, -⟩ | ⟨-, e', h, h'⟩
  · rw [h] at he; simp at he
  · rw [h] at he; injection he with he; exact h' e he

theorem strItems_noVal (w : World) (n : Node) : NoVal (strItems w n) := by
  intro e; cases n <;> simp [strItems]

theorem strItemsMap_noVal (w : World) (m : List (Str × Node)) : NoVal (strItemsMap w m) := by
  induction m with
  | nil => exact .ok _
  | cons p m ih => exact (strItems_noVal _ _).bind' fun _ => ih.bind' fun _ => .ok _

theorem eqTrue_noVal (vw : Node → Res Node) (hv : ∀ n, NoVal (vw n)) (n : Node) : NoVal (eqTrue vw n) := by
  refine (hv n).bind' fun a => ?_
  cases a <;> intro e <;> simp

theorem NoVal.ofErr {β : Type} {x : PyErr} (h : ∀ e, x ≠ .validation e) : NoVal (.err x : Res β) := by
  intro e he; injection he with he; exact h e he

section
variable {α : Type} (w : World) (vw : Node → Res Node) (hv : ∀ n, NoVal (vw n)) (mk : Node → α)
  (items : List (Str × Node))
include hv

theorem readKw_noVal (k : Kw) : NoVal (readKw w vw mk items k) := by
  cases k <;> simp only [readKw, numKey, intKey, intValueKey, subKey, subsKey, subMapKey] <;>
    repeat' first
      | exact NoVal.ok _
      | exact NoVal.ofErr (by simp)
      | exact getKey_noVal _ _
      | exact hv _
      | exact toInt_noVal _
      | exact strItemsMap_noVal _ _
      | exact eqTrue_noVal _ hv _
      | exact seqOf_noVal _ _
      | refine NoVal.bind' ?_ fun _ => ?_
      | split

end

theorem Upd.apply_noVal {α : Type} (key : Str) (d : Data α) (u : Upd α) : NoVal (u.apply key d) := by
  cases u <;> simp only [Upd.apply] <;> repeat' first
    | exact NoVal.ok _
    | exact NoVal.ofErr (by simp)
    | split

theorem loadAll_noVal (w : World) (docs : List Doc) (f : Nat) (items : List (Str × Node)) (voc : List Kw)
    (d : Data Node) : NoVal (loadAll w (view docs f) (id : Node → Node) items voc d).2 := by
  induction voc generalizing d with
  | nil => exact .ok _
  | cons k ks ih =>
    rw [loadAll]
    split
    · have : NoVal (applyKw w (view docs f) (id : Node → Node) items k d) := by
        rw [applyKw_eq]
        exact (readKw_noVal w _ (fun n => view_noVal docs f n) _ _ _).bind' fun u => u.apply_noVal _ _
      cases hr : applyKw w (view docs f) (id : Node → Node) items k d with
      | ok d' => exact ih d'
      | err e => intro e' h; injection h with h; exact this e' (h ▸ hr)
      | timeout => exact .timeout
    · exact ih d

/-! ## The groups decide the whole -/

theorem runAll_decides (rec : Node → Val → Ctx → Res Unit) (w : World) (f : Nat) (v : Val) (ctx : Ctx) (d : Data Node)
    (h : ∀ g, Decides (runAll rec w f v ctx (d.filter fun p => inGroup g p.1))) : Decides (runAll rec w f v ctx d) := by
  induction d with
  | nil => exact .inl rfl
  | cons p d ih =>
    obtain ⟨k, x⟩ := p
    rw [runAll]
    cases hr : run rec w f x v ctx with
    | ok u =>
      apply ih
      intro g
      have := h g
      by_cases hg : inGroup g k = true
      · rw [List.filter_cons_of_pos (by simpa using hg), runAll, hr] at this
        exact this
      · rwa [List.filter_cons_of_neg (by simpa using hg)] at this
    | err e =>
      have := h (slotOwner k)
      rw [List.filter_cons_of_pos (by simp [inGroup]), runAll, hr] at this
      exact this
    | timeout =>
      have := h (slotOwner k)
      rw [List.filter_cons_of_pos (by simp [inGroup]), runAll, hr] at this
      exact this

theorem decides_load (w : World) (docs : List Doc) (voc : List Kw) (f : Nat) (items : List (Str × Node)) (v : Val)
    (ctx : Ctx) (h : Decides (validateN w docs voc (f + 2) (.obj items) v ctx)) :
    ∃ d, loadAll w (view docs (f + 1)) (id : Node → Node) items voc [] = (d, .ok ()) ∧
      Decides (runAll (validateN w docs voc (f + 1)) w (f + 1) v ctx d) := by
  have hn := loadAll_noVal w docs (f + 1) items voc []
  rw [validateN_obj] at h
  revert h hn
  generalize loadAll w (view docs (f + 1)) (id : Node → Node) items voc [] = r
  obtain ⟨d, r⟩ := r
  intro h hn
  cases r with
  | ok u => exact ⟨d, rfl, h⟩
  | err e =>
    rcases h with h | ⟨e', h⟩
    · cases h
    · injection h with h; exact absurd (by rw [h]) (hn e')
  | timeout =>
    rcases h with h | ⟨e', h⟩ <;> cases h

theorem load_unassertive (w : World) (vw : Node → Res Node) (items : List (Str × Node)) (voc : List Kw)
    (h : ∀ k ∈ voc, k.isAssertion = true → dictHas k.key items = false) (d : Data Node) :
    loadAll w vw (id : Node → Node) items voc d = (d, .ok ()) := by
  induction voc with
  | nil => rfl
  | cons k ks ih =>
    rw [loadAll, if_neg]
    · exact ih fun k' h' => h k' (by simp [h'])
    · intro hk
      simp only [Bool.and_eq_true] at hk
      rw [h k (by simp) hk.1] at hk
      simp at hk

/-- Without recognised keywords everything is accepted. -/
theorem none_present (w : World) (docs : List Doc) (voc : List Kw) (f : Nat) (items : List (Str × Node)) (v : Val)
    (ctx : Ctx) (h : ∀ k ∈ voc, k.isAssertion = true → dictHas k.key items = false) :
    validateN w docs voc (f + 2) (.obj items) v ctx = .ok () := by
  rw [validateN_obj, load_unassertive w _ items voc h]; rfl

theorem decides_groups (w : World) (docs : List Doc) (voc : List Kw) (f : Nat) (items : List (Str × Node))
    (v : Val) (ctx : Ctx)
    (h : ∀ G ∈ cooperating, Decides (validateN w docs voc (f + 2) (.obj (items.filter fun p => p.1 ∈ G)) v ctx)) :
    Decides (validateN w docs voc (f + 2) (.obj items) v ctx) := by
  have key : ∀ g, ∃ d, loadAll w (view docs (f + 1)) id items (voc.filter fun k => k.group = g) [] = (d, .ok ()) ∧
      Decides (runAll (validateN w docs voc (f + 1)) w (f + 1) v ctx d) := by
    intro g
    by_cases hg : g.group = g ∧ g.isAssertion = true
    · have := decides_load _ _ _ _ _ _ _ (h _ (hg.1 ▸ groupKeys_cooperating g hg.2))
      rw [loadAll_restrict _ _ _ _ _ hg.1] at this
      exact this
    · refine ⟨[], load_unassertive _ _ _ _ ?_ _, .inl rfl⟩
      intro k hk ha
      have hk : k.group = g := by simpa using (List.mem_filter.1 hk).2
      exact absurd ⟨hk ▸ group_group k, by rw [← hk]; revert ha; clear hk; cases k <;> decide⟩ hg
  have hload := loadAll_ok_of_groups w (view docs (f + 1)) (id : Node → Node) items voc []
    (fun g => by obtain ⟨d, e, _⟩ := key g; simpa using congrArg Prod.snd e)
  rw [validateN_obj, show loadAll w (view docs (f + 1)) id items voc [] = (_, .ok ()) from Prod.ext rfl hload]
  apply runAll_decides
  intro g
  obtain ⟨d, e, hr⟩ := key g
  have e2 := loadAll_group_ok w (view docs (f + 1)) (id : Node → Node) items g voc [] _ (Prod.ext rfl hload)
  have : d = _ := congrArg Prod.fst (e.symm.trans e2)
  rw [this] at hr; exact hr

/-- The answer is "accepted" exactly if `P`, and a `ValidationError` otherwise. -/
def Judges (r : Res Unit) (P : Prop) : Prop := (r = .ok () ↔ P) ∧ Decides r

theorem judges_groups {w : World} {docs : List Doc} {voc : List Kw} {f : Nat} {items : List (Str × Node)}
    {v : Val} {ctx : Ctx} (P : List Str → Prop)
    (h : ∀ G ∈ cooperating, Judges (validateN w docs voc (f + 2) (.obj (items.filter fun p => p.1 ∈ G)) v ctx) (P G)) :
    Judges (validateN w docs voc (f + 2) (.obj items) v ctx) (∀ G ∈ cooperating, P G) := by
  refine ⟨?_, decides_groups _ _ _ _ _ _ _ fun G hG => (h G hG).2⟩
  rw [accept_iff_groups]
  exact ⟨fun H G hG => (h G hG).1.1 (H G hG), fun H G hG => (h G hG).1.2 (H G hG)⟩

theorem Judges.ite {P : Prop} [Decidable P] {c p d : Str} : Judges (if P then .ok () else rejected c p d) P := by
  by_cases h : P
  · simp [Judges, h, Decides]
  · simp [Judges, h, Decides, rejected]

theorem Judges.of {r : Res Unit} {P : Prop} {c p d : Str} (h1 : P → r = .ok ()) (h2 : ¬ P → r = rejected c p d) :
    Judges r P := by
  by_cases h : P
  · exact ⟨⟨fun _ => h, h1⟩, .inl (h1 h)⟩
  · rw [h2 h]; exact ⟨⟨(fun e => by cases e), fun e => absurd e h⟩, .inr ⟨_, rfl⟩⟩

theorem Judges.congr {r : Res Unit} {P Q : Prop} (h : Judges r P) (e : P ↔ Q) : Judges r Q := ⟨h.1.trans e, h.2⟩

theorem Judges.ok {r : Res Unit} {P : Prop} (h : r = .ok ()) (hP : P) : Judges r P := ⟨by simp [h, hP], .inl h⟩

theorem Judges.firstFail {β : Type} (xs : List β) (g : β → Res Unit) (P : β → Prop) (h : ∀ x ∈ xs, Judges (g x) (P x)) :
    Judges (firstFail (xs.map g)) (∀ x ∈ xs, P x) := by
  constructor
  · rw [firstFail_map_ok]
    exact ⟨fun H x hx => (h x hx).1.1 (H x hx), fun H x hx => (h x hx).1.2 (H x hx)⟩
  · apply firstFail_decides
    intro r hr
    obtain ⟨x, hx, rfl⟩ := List.mem_map.1 hr
    exact (h x hx).2

open Classical in
theorem countOk_judges {β : Type} (xs : List β) (g : β → Res Unit) (P : β → Prop) (h : ∀ x ∈ xs, Judges (g x) (P x)) :
    countOk (xs.map g) = (xs.filter fun x => P x).length := by
  induction xs with
  | nil => rfl
  | cons x xs ih =>
    have ih' := ih fun y hy => h y (by simp [hy])
    have hx := h x (by simp)
    rw [List.map_cons]
    by_cases hp : P x
    · rw [List.filter_cons_of_pos (by simpa using hp), hx.1.2 hp, countOk, ih', List.length_cons]
    · rw [List.filter_cons_of_neg (by simpa using hp), ← ih']
      obtain ⟨e, he⟩ := hx.2.not_ok fun e => hp (hx.1.1 e)
      rw [he, countOk]; simp

/-! ## Recognised members -/

/-- Every keyword that occurs is in the vocabulary. -/
def Recog (voc : List Kw) (its : List (Str × Node)) : Prop :=
  ∀ k : Kw, k.isAssertion = true → dictHas k.key its = true → k ∈ voc

theorem recog_recognised (voc : List Kw) (items : List (Str × Node)) : Recog voc (recognised voc items) := by
  intro k ha hk
  obtain ⟨p, hp, e⟩ := List.mem_map.1 (dictHas_iff.1 hk)
  have := (List.mem_filter.1 hp).2
  simp only [decide_eq_true_eq, e, List.mem_map, List.mem_filter] at this
  rcases this with ⟨k', ⟨hk', _⟩, e'⟩ | h
  · exact key_inj e' ▸ hk'
  · revert h; cases k <;> simp [Kw.key, Kw.keys]

/-- Unknown members make no difference. -/
theorem validateN_recognised (w : World) (docs : List Doc) (voc : List Kw) (hv : VocPaired voc) (f : Nat)
    (items : List (Str × Node)) (v : Val) (ctx : Ctx) :
    validateN w docs voc (f + 2) (.obj items) v ctx =
      validateN w docs voc (f + 2) (.obj (recognised voc items)) v ctx := by
  have skip : ∀ (ks : List Kw) (its : List (Str × Node)) (d : Data Node),
      loadAll w (view docs (f + 1)) (id : Node → Node) its ks d =
        loadAll w (view docs (f + 1)) (id : Node → Node) its (ks.filter Kw.isAssertion) d := by
    intro ks its
    induction ks with
    | nil => intro d; rfl
    | cons k ks ih =>
      intro d
      cases hk : k.isAssertion with
      | true => rw [List.filter_cons_of_pos hk]; simp only [loadAll, ih]
      | false => rw [List.filter_cons_of_neg (by simp [hk]), loadAll, hk]; simp [ih]
  rw [validateN_obj, validateN_obj, skip voc items, skip voc (recognised voc items)]
  rw [loadAll_congr w _ _ items (recognised voc items)]
  intro k hk s hs
  obtain ⟨hk1, hk2⟩ := List.mem_filter.1 hk
  symm
  unfold recognised
  apply dictGet_filter fun s => decide (s ∈ (voc.filter Kw.isAssertion).map Kw.key ∨
    s ∈ [c!"minContains", c!"maxContains", c!"additionalItems"])
  simp only [decide_eq_true_eq]
  have mem : ∀ k' ∈ voc, k'.isAssertion = true → k'.key ∈ (voc.filter Kw.isAssertion).map Kw.key :=
    fun k' h h' => List.mem_map.2 ⟨k', List.mem_filter.2 ⟨h, h'⟩, rfl⟩
  obtain ⟨⟨v1, v2⟩, v3, v4⟩ := hv
  by_cases e : k.reads = [k.key]
  · rw [e] at hs; simp at hs; subst hs; exact .inl (mem k hk1 hk2)
  · cases k <;> simp [Kw.reads, Kw.key, Kw.keys] at e hs
    · rcases hs with rfl | rfl
      · exact .inl (mem .maximum hk1 rfl)
      · exact .inl (mem .exclusiveMaximum (v1 hk1) rfl)
    · rcases hs with rfl | rfl
      · exact .inl (mem .minimum hk1 rfl)
      · exact .inl (mem .exclusiveMinimum (v3 hk1) rfl)
    · rcases hs with rfl | rfl
      · exact .inl (mem .exclusiveMaximum hk1 rfl)
      · exact .inl (mem .maximum (v2 hk1) rfl)
    · rcases hs with rfl | rfl
      · exact .inl (mem .exclusiveMinimum hk1 rfl)
      · exact .inl (mem .minimum (v4 hk1) rfl)
    · rcases hs with rfl | rfl | rfl
      · exact .inl (mem .contains hk1 rfl)
      · simp
      · simp
    · rcases hs with rfl | rfl
      · exact .inl (mem .items hk1 rfl)
      · simp

/-! ## Groups of one key, of several keys -/

theorem get_group {its : List (Str × Node)} {G : List Str} {s : Str} (h : s ∈ G) :
    dictGet s (its.filter fun p => p.1 ∈ G) = dictGet s its :=
  dictGet_filter (fun s => decide (s ∈ G)) s its (by simpa using h)

theorem has_group {its : List (Str × Node)} {G : List Str} {s : Str}
    (h : dictHas s (its.filter fun p => p.1 ∈ G) = true) : s ∈ G ∧ dictHas s its = true := by
  obtain ⟨p, hp, e⟩ := List.mem_map.1 (dictHas_iff.1 h)
  obtain ⟨h1, h2⟩ := List.mem_filter.1 hp
  rw [e] at h2
  exact ⟨by simpa using h2, dictHas_iff.2 (List.mem_map.2 ⟨p, h1, e⟩)⟩

theorem Recog.group {voc : List Kw} {its : List (Str × Node)} (h : Recog voc its) (G : List Str) :
    Recog voc (its.filter fun p => p.1 ∈ G) := fun k ha hk => h k ha (has_group hk).2

/-- A group led by one keyword. -/
theorem judge_single {w : World} {docs : List Doc} {voc : List Kw} {f : Nat} {its : List (Str × Node)} {v : Val}
    {ctx : Ctx} (hr : Recog voc its) (k : Kw) (s : Str) (hs : k.key = s) (ha : k.isAssertion = true) (G : List Str)
    (hG : ∀ k' : Kw, k'.isAssertion = true → k'.key ∈ G → k' = k) (P : Prop) (h0 : dictGet s its = none → P)
    (h1 : ∀ n, dictGet s its = some n → ∀ itsG, Only voc itsG k → (∀ s ∈ G, dictGet s itsG = dictGet s its) →
      Judges (validateN w docs voc (f + 2) (.obj itsG) v ctx) P) :
    Judges (validateN w docs voc (f + 2) (.obj (its.filter fun p => p.1 ∈ G)) v ctx) P := by
  subst hs
  cases hn : dictGet k.key its with
  | none =>
    refine .ok (none_present _ _ _ _ _ _ _ fun k' hk' ha' => ?_) (h0 hn)
    cases hh : dictHas k'.key (its.filter fun p => p.1 ∈ G) with
    | false => rfl
    | true =>
      have := has_group hh
      rw [hG k' ha' this.1, dictHas, hn] at this
      simp at this
  | some n =>
    refine h1 n hn _ ⟨hr k ha (dictHas_of_get hn), fun k' _ ha' hh => hG k' ha' (has_group hh).1⟩ fun s hs => get_group hs

theorem solo (k : Kw) : ∀ k' : Kw, k'.isAssertion = true → k'.key ∈ [k.key] → k' = k := by
  intro k' _ h; exact key_inj (by simpa using h)

/-- A group of one keyword. -/
theorem judge_one {w : World} {docs : List Doc} {voc : List Kw} {f : Nat} {its : List (Str × Node)} {v : Val}
    {ctx : Ctx} (hr : Recog voc its) (k : Kw) (s : Str) (hs : k.key = s) (ha : k.isAssertion = true) (P : Prop)
    (h0 : dictGet s its = none → P)
    (h1 : ∀ n, dictGet s its = some n → ∀ itsG, Only voc itsG k → dictGet s itsG = some n →
      Judges (validateN w docs voc (f + 2) (.obj itsG) v ctx) P) :
    Judges (validateN w docs voc (f + 2) (.obj (its.filter fun p => p.1 ∈ [s])) v ctx) P :=
  judge_single hr k s hs ha _ (hs ▸ solo k) P h0 fun n hn itsG ho hg => h1 n hn itsG ho ((hg s (by simp)).trans hn)

end Verif
