import Verif.Proofs.Group
/-! # Schemas with one recognised keyword; raising errors; small lemmas about results -/

namespace Verif

theorem Res.bind_unit (r : Res Unit) : (r >>= fun _ => .ok ()) = r := by cases r <;> rfl

/-- `k` is the only keyword of the vocabulary that occurs in the schema object. -/
structure Only (voc : List Kw) (items : List (Str × Node)) (k : Kw) : Prop where
  mem : k ∈ voc
  only : ∀ k' ∈ voc, k'.isAssertion = true → dictHas k'.key items = true → k' = k

theorem dictSet_idem {β : Type} (k : Str) (x : β) (d : List (Str × β)) :
    dictSet k x (dictSet k x d) = dictSet k x d := by
  induction d with
  | nil => simp [dictSet]
  | cons p d ih =>
    obtain ⟨k', y⟩ := p
    by_cases h : k' = k <;> simp [dictSet, h, ih]

theorem loadAll_only_set (w : World) (vw : Node → Res Node) (items : List (Str × Node)) (voc : List Kw) (k : Kw)
    (x : V Node) (ho : ∀ k' ∈ voc, k'.isAssertion = true → dictHas k'.key items = true → k' = k)
    (hr : readKw w vw id items k = .ok (.set x)) (d : Data Node) (hd : dictSet k.key x d = d) :
    loadAll w vw id items voc d = (d, .ok ()) := by
  induction voc with
  | nil => rfl
  | cons k' ks ih =>
    have ih' := ih fun k'' h => ho k'' (by simp [h])
    rw [loadAll]
    split
    · rename_i h
      have hk : k' = k := ho k' (by simp) (by simp_all) (by simp_all)
      subst hk
      rw [applyKw_eq, hr]
      simp [Upd.apply, hd, ih']
    · exact ih'

theorem loadAll_only_set' (w : World) (vw : Node → Res Node) (items : List (Str × Node)) (voc : List Kw) (k : Kw)
    (x : V Node) (hk : k ∈ voc) (ha : k.isAssertion = true) (hp : dictHas k.key items = true)
    (ho : ∀ k' ∈ voc, k'.isAssertion = true → dictHas k'.key items = true → k' = k)
    (hr : readKw w vw id items k = .ok (.set x)) :
    loadAll w vw id items voc [] = ([(k.key, x)], .ok ()) := by
  induction voc with
  | nil => simp at hk
  | cons k' ks ih =>
    rw [loadAll]
    split
    · rename_i h
      have hk : k' = k := ho k' (by simp) (by simp_all) (by simp_all)
      subst hk
      rw [applyKw_eq, hr]
      simp only [Res.ok_bind, Upd.apply, dictSet]
      exact loadAll_only_set w vw items ks k' x (fun k'' h => ho k'' (by simp [h])) hr _ (by simp [dictSet])
    · rename_i h
      have : k ∈ ks := by
        rcases List.mem_cons.1 hk with e | e
        · subst e; simp [ha, hp] at h
        · exact e
      exact ih this fun k'' h => ho k'' (by simp [h])

theorem single_set (w : World) (docs : List Doc) (voc : List Kw) (f : Nat) (items : List (Str × Node)) (v : Val)
    (ctx : Ctx) (k : Kw) (x : V Node) (ho : Only voc items k) (ha : k.isAssertion = true)
    (hp : dictHas k.key items = true) (hr : readKw w (view docs (f + 1)) id items k = .ok (.set x)) :
    validateN w docs voc (f + 2) (.obj items) v ctx = run (validateN w docs voc (f + 1)) w (f + 1) x v ctx := by
  rw [validateN_obj, loadAll_only_set' w _ items voc k x ho.mem ha hp ho.only hr]
  simp [runAll, Res.bind_unit]

/-- A keyword that fails to read makes every validation fail the same way. -/
theorem single_err (w : World) (docs : List Doc) (voc : List Kw) (f : Nat) (items : List (Str × Node)) (v : Val)
    (ctx : Ctx) (k : Kw) (e : PyErr) (ho : Only voc items k) (ha : k.isAssertion = true)
    (hp : dictHas k.key items = true) (hr : readKw w (view docs (f + 1)) (id : Node → Node) items k = .err e) :
    validateN w docs voc (f + 2) (.obj items) v ctx = .err e := by
  rw [validateN_obj]
  have : loadAll w (view docs (f + 1)) (id : Node → Node) items voc [] = ([], .err e) := by
    obtain ⟨hm, hon⟩ := ho
    induction voc with
    | nil => simp at hm
    | cons k' ks ih =>
      rw [loadAll]
      split
      · rename_i h
        have hk : k' = k := hon k' (by simp) (by simp_all) (by simp_all)
        subst hk
        rw [applyKw_eq, hr]; rfl
      · rename_i h
        have : k ∈ ks := by
          rcases List.mem_cons.1 hm with e | e
          · subst e; simp [ha, hp] at h
          · exact e
        exact ih this fun k'' h => hon k'' (by simp [h])
  rw [this]

/-- A keyword that leaves the dictionary alone accepts everything. -/
theorem single_nop (w : World) (docs : List Doc) (voc : List Kw) (f : Nat) (items : List (Str × Node)) (v : Val)
    (ctx : Ctx) (k : Kw) (ho : Only voc items k)
    (hr : readKw w (view docs (f + 1)) (id : Node → Node) items k = .ok .nop) :
    validateN w docs voc (f + 2) (.obj items) v ctx = .ok () := by
  rw [validateN_obj]
  have : loadAll w (view docs (f + 1)) (id : Node → Node) items voc [] = ([], .ok ()) := by
    obtain ⟨-, hon⟩ := ho
    induction voc with
    | nil => rfl
    | cons k' ks ih =>
      have ih' := ih fun k'' h => hon k'' (by simp [h])
      rw [loadAll]
      split
      · rename_i h
        have hk : k' = k := hon k' (by simp) (by simp_all) (by simp_all)
        subst hk
        rw [applyKw_eq, hr]; exact ih'
      · exact ih'
  rw [this]; rfl

theorem dictHas_of_get {β : Type} {k : Str} {d : List (Str × β)} {x : β} (h : dictGet k d = some x) :
    dictHas k d = true := by simp [dictHas, h]

theorem getKey_of_get {items : List (Str × Node)} {k : Str} {x : Node} (h : dictGet k items = some x) :
    getKey items k = .ok x := by simp [getKey, h]

/-! ## Raising -/

def noBrace (s : Str) : Prop := '{' ∉ s ∧ '}' ∉ s

theorem fmtGo_skip (known : List Str) (c : Char) (r : Str) (h1 : c ≠ '{') (h2 : c ≠ '}') :
    fmtGo known none (c :: r) = fmtGo known none r := by
  rw [fmtGo.eq_def]; split <;> simp_all

theorem fmtGo_append (known : List Str) (p r : Str) (h : noBrace p) :
    fmtGo known none (p ++ r) = fmtGo known none r := by
  induction p with
  | nil => rfl
  | cons c p ih =>
    obtain ⟨h1, h2⟩ := h
    simp only [List.mem_cons, not_or] at h1 h2
    rw [List.cons_append, fmtGo_skip _ _ _ (Ne.symm h1.1) (Ne.symm h2.1), ih ⟨h1.2, h2.2⟩]

theorem pyFormat_errText (known : List Str) (path msg : Str) (h : noBrace path) :
    pyFormat known (errText path msg) = pyFormat known (errText [] msg) := by
  unfold pyFormat errText
  have e : noBrace c!"Failed validation at `" := by constructor <;> decide
  rw [List.append_assoc, List.append_assoc, fmtGo_append _ _ _ e, fmtGo_append _ _ _ h]
  rw [List.append_assoc, List.append_assoc, fmtGo_append _ _ _ e, List.nil_append]

theorem tmpl_ok : ∀ c ∈ ErrClass.all, pyFormat (c!"path" :: c.fields) (errText [] c.tmpl) = none := by
  simp only [ErrClass.all, List.forall_mem_cons]
  refine ⟨?_, ?_, ?_, ?_, ?_, ?_, ?_, ?_, ?_, ?_, ?_, ?_, ?_, ?_, ?_, ?_, ?_, ?_, ?_, by simp⟩ <;> decide +kernel

theorem raiseErr_ok (c : ErrClass) (hc : c ∈ ErrClass.all) (path detail : Str) (h : noBrace path) :
    raiseErr c path detail = .validation ⟨c.code, path, detail⟩ := by
  unfold raiseErr
  rw [pyFormat_errText _ _ _ h, tmpl_ok c hc]

/-- No braces in any key of the context. -/
def CtxOk (ctx : Ctx) : Prop := ∀ k ∈ ctx, noBrace k

theorem noBrace_append {s t : Str} (hs : noBrace s) (ht : noBrace t) : noBrace (s ++ t) := by
  unfold noBrace at *; simp [hs, ht]

theorem noBrace_join (l : List Str) (h : ∀ k ∈ l, noBrace k) : noBrace (strJoin c!"." l) := by
  induction l with
  | nil => simp [strJoin, noBrace]
  | cons x l ih =>
    cases l with
    | nil => simpa [strJoin] using h
    | cons y r =>
      rw [strJoin]
      refine noBrace_append (noBrace_append (h x (by simp)) ?_) (ih fun k hk => h k (by simp [hk]))
      constructor <;> decide

theorem CtxOk.path {ctx : Ctx} (h : CtxOk ctx) : noBrace ctx.path := noBrace_join ctx h

theorem raise_ctx {ctx : Ctx} (h : CtxOk ctx) {c : ErrClass} (hc : c ∈ ErrClass.all) (detail : Str) :
    raiseErr c ctx.path detail = .validation ⟨c.code, ctx.path, detail⟩ := raiseErr_ok c hc _ _ h.path

theorem toDigits_noBrace (n : Nat) : noBrace (natStr n) := by
  have key : ∀ c ∈ natStr n, c.isDigit = true := by
    intro c hc; exact Nat.isDigit_of_mem_toDigits (by decide) (by decide) hc
  constructor <;> intro h <;> exact absurd (key _ h) (by decide)

theorem CtxOk.snoc {ctx : Ctx} (h : CtxOk ctx) {k : Str} (hk : noBrace k) : CtxOk (ctx ++ [k]) := by
  intro j hj
  rcases List.mem_append.1 hj with hj | hj
  · exact h j hj
  · simp at hj; subst hj; exact hk

end Verif
