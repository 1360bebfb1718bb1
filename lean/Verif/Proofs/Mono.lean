import Verif.Proofs.Prog
import Verif.Proofs.Order
/-!
# More fuel gives the same answer

`x ⊑ y`: unless `x` ran out of fuel, `y` is the same.
-/

namespace Verif
open Prog

variable {α β γ : Type}

def Res.Ext (x y : Res β) : Prop := x ≠ .timeout → y = x

infix:50 " ⊑ " => Res.Ext

theorem Res.Ext.refl (x : Res β) : x ⊑ x := fun _ => rfl

theorem Res.Ext.trans {x y z : Res β} (h : x ⊑ y) (h' : y ⊑ z) : x ⊑ z := by
  intro hx
  have := h hx
  rw [h' (by rw [this]; exact hx), this]

theorem Res.Ext.bind {x y : Res β} {f g : β → Res γ} (h : x ⊑ y) (hf : ∀ b, f b ⊑ g b) : (x >>= f) ⊑ (y >>= g) := by
  cases x with
  | ok b => rw [h (by simp)]; exact hf b
  | err e => rw [h (by simp)]; exact .refl _
  | timeout => exact fun hh => absurd rfl hh

theorem queryLoop_le {vw vw' : Node → Res Node} (h : ∀ n, vw n ⊑ vw' n) (ks : List Str) (n : Node) :
    queryLoop vw n ks ⊑ queryLoop vw' n ks := by
  induction ks generalizing n with
  | nil => exact .refl _
  | cons k ks ih => exact (h n).bind fun v => (Res.Ext.refl _).bind fun n => ih n

theorem queryDoc_le {vw vw' : Node → Res Node} (h : ∀ n, vw n ⊑ vw' n) (d : Doc) (p : List Str) : queryDoc vw d p ⊑ queryDoc vw' d p := by
  unfold queryDoc
  split
  · split
    · exact .refl _
    · split
      · exact .refl _
      · exact queryLoop_le h _ _
  · exact queryLoop_le h _ _

theorem view_le (docs : List Doc) (f : Nat) : ∀ n, view docs f n ⊑ view docs (f + 1) n := by
  induction f with
  | zero => exact fun n h => absurd rfl h
  | succ f ih =>
    intro n
    cases n with
    | ref own doc ptr =>
      rw [view, view]
      split
      · exact .refl _
      · exact (queryDoc_le ih _ _).bind fun _ => (ih _).bind fun _ => .refl _
    | _ => exact .refl _

theorem eqTrue_le {vw vw' : Node → Res Node} (h : ∀ n, vw n ⊑ vw' n) (n : Node) : eqTrue vw n ⊑ eqTrue vw' n :=
  (h n).bind fun _ => .refl _

theorem readKw_le (w : World) {vw vw' : Node → Res Node} (h : ∀ n, vw n ⊑ vw' n) (mk : Node → α) (items : List (Str × Node)) (k : Kw) :
    readKw w vw mk items k ⊑ readKw w vw' mk items k := by
  cases k <;> simp only [readKw, numKey, intKey, intValueKey, subKey, subsKey, subMapKey, Res.bind_assoc] <;>
    repeat' first
      | exact Res.Ext.refl _
      | exact h _
      | exact eqTrue_le h _
      | (refine Res.Ext.bind ?_ fun _ => ?_)
      | split

theorem loadAll_le (w : World) {vw vw' : Node → Res Node} (h : ∀ n, vw n ⊑ vw' n) (mk : Node → α) (items : List (Str × Node))
    (voc : List Kw) (d : Data α) (ht : (loadAll w vw mk items voc d).2 ≠ .timeout) :
    loadAll w vw' mk items voc d = loadAll w vw mk items voc d := by
  induction voc generalizing d with
  | nil => rfl
  | cons k ks ih =>
    rw [loadAll] at ht ⊢
    rw [loadAll]
    split
    · rename_i ha
      rw [if_pos ha] at ht
      have hl : applyKw w vw mk items k d ⊑ applyKw w vw' mk items k d := by
        rw [applyKw_eq, applyKw_eq]
        exact (readKw_le w h mk items k).bind fun _ => .refl _
      cases e : applyKw w vw mk items k d with
      | ok d' =>
        rw [hl (by simp [e]), e]
        rw [e] at ht
        exact ih _ ht
      | err x => rw [hl (by simp [e]), e]
      | timeout => rw [e] at ht; exact absurd rfl ht
    · rename_i ha
      rw [if_neg ha] at ht
      exact ih _ ht

theorem interp_le {rec rec' : α → Val → Ctx → Res Unit} (h : ∀ a v c, rec a v c ⊑ rec' a v c) (p : Prog α β) :
    interp rec p ⊑ interp rec' p := by
  induction p with
  | done r => exact .refl _
  | call a v c k ih =>
    by_cases ht : rec a v c = .timeout
    · rw [interp_call_timeout _ _ _ _ _ ht]; exact fun hh => absurd rfl hh
    · have := h a v c ht
      rw [interp_call _ _ _ _ _ ht, interp_call _ _ _ _ _ (by rw [this]; exact ht), this]
      exact ih _

/-- More rounds of the endless loop change nothing. -/
theorem prog_le (rec : α → Val → Ctx → Res Unit) (w : World) (f : Nat) (x : V α) (v : Val) (ctx : Ctx) :
    interp rec (prog w f x v ctx) ⊑ interp rec (prog w (f + 1) x v ctx) := by
  have hspin : ∀ p c f, interp rec (spinP p c f) ⊑ interp rec (spinP p c (f + 1)) := by
    intro p c f
    induction f with
    | zero => exact fun h => absurd rfl h
    | succ f ih =>
      rw [spinP, spinP]
      by_cases ht : rec p .null c = .timeout
      · rw [interp_call_timeout _ _ _ _ _ ht]; exact fun hh => absurd rfl hh
      · rw [interp_call _ _ _ _ _ ht, interp_call _ _ _ _ _ ht]
        cases rec p .null c with
        | ok u => exact ih
        | err e => exact .refl _
        | timeout => exact .refl _
  have harr : ∀ its ps xs i, interp rec (arrayP f its ctx i ps xs) ⊑ interp rec (arrayP (f + 1) its ctx i ps xs) := by
    intro its ps
    induction ps with
    | nil => intro xs i; exact .refl _
    | cons p ps ih =>
      intro xs i
      cases xs with
      | nil => exact hspin _ _ _
      | cons x xs =>
        simp only [arrayP, interp_bind]
        exact (Res.Ext.refl _).bind fun _ => ih _ _
  cases x with
  | array p i =>
    cases v <;> simp only [prog, runArrayP] <;> first | exact .refl _ | exact harr _ _ _ _
  | _ => exact .refl _

theorem progAll_le (rec : α → Val → Ctx → Res Unit) (w : World) (f : Nat) (v : Val) (ctx : Ctx) (d : Data α) :
    interp rec (progAll w f v ctx d) ⊑ interp rec (progAll w (f + 1) v ctx d) := by
  induction d with
  | nil => exact .refl _
  | cons p d ih =>
    simp only [progAll, interp_bind]
    exact (prog_le rec w f p.2 v ctx).bind fun _ => ih

theorem validateN_le (w : World) (docs : List Doc) (voc : List Kw) (f : Nat) :
    ∀ n v ctx, validateN w docs voc f n v ctx ⊑ validateN w docs voc (f + 1) n v ctx := by
  induction f with
  | zero => exact fun n v ctx h => absurd rfl h
  | succ f ih =>
    intro n v ctx
    rw [validateN, validateN]
    refine (view_le docs f n).bind fun m => ?_
    cases m with
    | obj items =>
      simp only
      by_cases ht : (loadAll w (view docs f) (id : Node → Node) items voc []).2 = .timeout
      · revert ht
        rcases loadAll w (view docs f) (id : Node → Node) items voc [] with ⟨d, r⟩
        rintro ht
        simp only at ht
        subst ht
        exact fun h => absurd rfl h
      · rw [loadAll_le w (view_le docs f) id items voc [] ht]
        rcases loadAll w (view docs f) (id : Node → Node) items voc [] with ⟨d, r⟩
        cases r with
        | ok u =>
          simp only
          rw [← interp_progAll, ← interp_progAll]
          exact (interp_le (fun a v c => ih a v c) _).trans (progAll_le _ w f v ctx d)
        | _ => exact .refl _
    | _ => exact .refl _

theorem validateN_mono (w : World) (docs : List Doc) (voc : List Kw) {f g : Nat} (h : f ≤ g) (n : Node) (v : Val) (ctx : Ctx) :
    validateN w docs voc f n v ctx ⊑ validateN w docs voc g n v ctx := by
  induction h with
  | refl => exact .refl _
  | step _ ih => exact ih.trans (validateN_le w docs voc _ n v ctx)

theorem view_mono (docs : List Doc) {f g : Nat} (h : f ≤ g) (n : Node) : view docs f n ⊑ view docs g n := by
  induction h with
  | refl => exact .refl _
  | step _ ih => exact ih.trans (view_le docs _ n)

theorem progAll_mono (rec : α → Val → Ctx → Res Unit) (w : World) {f g : Nat} (h : f ≤ g) (v : Val) (ctx : Ctx) (d : Data α) :
    interp rec (progAll w f v ctx d) ⊑ interp rec (progAll w g v ctx d) := by
  induction h with
  | refl => exact .refl _
  | step _ ih => exact ih.trans (progAll_le rec w _ v ctx d)

/-! ## Loading again -/

theorem dictSet_same {κ : Str} {x : β} {d : List (Str × β)} (h : dictGet κ d = some x) : dictSet κ x d = d := by
  induction d with
  | nil => simp [dictGet] at h
  | cons p d ih =>
    obtain ⟨k, y⟩ := p
    by_cases e : k = κ
    · subst e; simp_all [dictGet, dictSet]
    · simp_all [dictGet, dictSet]

/-- Assign all entries of a list of pairs. -/
def setMany (kvs : List (Str × β)) (p : List (Str × β)) : List (Str × β) := kvs.foldl (fun p x => dictSet x.1 x.2 p) p

theorem dictGet_setMany (kvs : List (Str × β)) (p : List (Str × β)) (s : Str) :
    dictGet s (setMany kvs p) = (dictGet s (setMany kvs [])).or (dictGet s p) := by
  induction kvs generalizing p with
  | nil => simp [setMany, dictGet]
  | cons x kvs ih =>
    simp only [setMany, List.foldl_cons] at ih ⊢
    rw [ih (dictSet x.1 x.2 p), ih (dictSet x.1 x.2 [])]
    simp only [dictGet_set]
    cases dictGet s (kvs.foldl (fun p x => dictSet x.1 x.2 p) []) with
    | some y => simp
    | none => by_cases e : x.1 = s <;> simp [e, dictGet]

theorem dictSet_twice (k : Str) (a b : β) (d : List (Str × β)) : dictSet k b (dictSet k a d) = dictSet k b d := by
  induction d with
  | nil => simp [dictSet]
  | cons p d ih =>
    obtain ⟨k', y⟩ := p
    by_cases e : k' = k
    · simp [dictSet, e]
    · simp [dictSet, e, ih]

theorem dictSet_swap {k k' : Str} (hk : k' ≠ k) (a b : β) (d : List (Str × β)) (h : dictHas k d = true) :
    dictSet k' b (dictSet k a d) = dictSet k a (dictSet k' b d) := by
  induction d with
  | nil => simp [dictHas, dictGet] at h
  | cons p d ih =>
    obtain ⟨q, y⟩ := p
    by_cases e : q = k
    · subst e
      simp [dictSet, Ne.symm hk]
    · have h' : dictHas k d = true := by simpa [dictHas, dictGet, e] using h
      by_cases e' : q = k'
      · subst e'; simp [dictSet, e]
      · simp [dictSet, e, e', ih h']

theorem dictHas_set' {k k' : Str} {b : β} {d : List (Str × β)} (h : dictHas k d = true) : dictHas k (dictSet k' b d) = true := by
  unfold dictHas at h ⊢
  rw [dictGet_set]
  split
  · rfl
  · exact h

theorem setMany_over {k : Str} (a : β) (r : List (Str × β)) (hr : k ∈ r.map Prod.fst) (q : List (Str × β)) (hq : dictHas k q = true) :
    setMany r (dictSet k a q) = setMany r q := by
  induction r generalizing q with
  | nil => simp at hr
  | cons x r ih =>
    obtain ⟨k', b⟩ := x
    simp only [setMany, List.foldl_cons] at ih ⊢
    by_cases e : k' = k
    · subst e; rw [dictSet_twice]
    · rw [dictSet_swap e a b q hq]
      exact ih (by simpa [Ne.symm e] using hr) _ (dictHas_set' hq)

theorem setMany_none {s : Str} (r : List (Str × β)) (h : s ∉ r.map Prod.fst) : dictGet s (setMany r []) = none := by
  have : ∀ p, dictGet s p = none → dictGet s (setMany r p) = none := by
    induction r with
    | nil => exact fun p hp => hp
    | cons x r ih =>
      intro p hp
      simp only [List.map_cons, List.mem_cons, not_or] at h
      refine ih h.2 _ ?_
      rw [dictGet_set, if_neg (Ne.symm h.1)]; exact hp
  exact this [] rfl

theorem setMany_keep (kvs : List (Str × β)) (q : List (Str × β)) (h : ∀ s x, dictGet s (setMany kvs []) = some x → dictGet s q = some x) :
    setMany kvs q = q := by
  induction kvs with
  | nil => rfl
  | cons x r ih =>
    obtain ⟨k, a⟩ := x
    have e : ∀ s, dictGet s (setMany ((k, a) :: r) []) = (dictGet s (setMany r [])).or (if k = s then some a else none) := by
      intro s
      show dictGet s (setMany r (dictSet k a [])) = _
      rw [dictGet_setMany, dictGet_set]
      simp [dictGet]
    have hr : ∀ s x, dictGet s (setMany r []) = some x → dictGet s q = some x := by
      intro s x hx
      exact h s x (by rw [e, hx]; rfl)
    show setMany r (dictSet k a q) = q
    by_cases hk : k ∈ r.map Prod.fst
    · rw [setMany_over a r hk q]
      · exact ih hr
      · have : ∃ y, dictGet k (setMany ((k, a) :: r) []) = some y := by
          rw [e]
          cases dictGet k (setMany r []) <;> simp
        obtain ⟨y, hy⟩ := this
        simp [dictHas, h k y hy]
    · have := h k a (by rw [e, setMany_none r hk]; simp)
      rw [dictSet_same this]
      exact ih hr

theorem setMany_idem (kvs : List (Str × β)) (p : List (Str × β)) : setMany kvs (setMany kvs p) = setMany kvs p := by
  apply setMany_keep
  intro s x hx
  rw [dictGet_setMany, hx]; rfl

/-- Applying the update changes nothing. -/
def Absorbed (key : Str) (u : Upd α) (d : Data α) : Prop := u.apply key d = .ok d

theorem slotSet_keep {u : Upd α} {key : Str} {d : Data α} (h : ∀ s φ, u.slot key = some (s, φ) → dictGet s d = some (φ (dictGet s d))) :
    slotSet (u.slot key) d = d := by
  cases e : u.slot key with
  | none => rfl
  | some p => exact dictSet_same (h p.1 p.2 e)

theorem slot_idem {u : Upd α} {key s : Str} {φ : Option (V α) → V α} (h : u.slot key = some (s, φ)) (o : Option (V α)) :
    φ (some (φ o)) = φ o := by
  cases u <;> simp only [Upd.slot, Option.some.injEq, Prod.mk.injEq, reduceCtorEq] at h <;> obtain ⟨rfl, rfl⟩ := h <;>
    simp only [objIn, condIn, arrayIn]
  case props kvs =>
    have := setMany_idem kvs (objIn o).props
    simp only [setMany, objIn] at this
    rw [this]
  all_goals first
    | (cases (‹Option (Sub α)› : Option (Sub α)) <;> simp)
    | (cases (‹Option α› : Option α) <;> simp)
    | simp

theorem absorb_self {k : Kw} {u : Upd α} {d d' : Data α} (h : u.apply k.key d = .ok d') : Absorbed k.key u d' := by
  by_cases hp : ∃ xs, u = .pre xs
  · obtain ⟨xs, rfl⟩ := hp
    unfold Absorbed
    have hne : c!"prefixItems" ≠ c!"items" := by decide
    simp only [Upd.apply] at h ⊢
    have hi : ∀ x : V α, dictHas c!"items" (dictSet c!"prefixItems" x d) = dictHas c!"items" d := by
      intro x; simp [dictHas, dictGet_set]
    have hs : ∀ x : V α, dictHas c!"prefixItems" (dictSet c!"prefixItems" x d) = true := by
      intro x; simp [dictHas, dictGet_set]
    split at h
    · rename_i hd
      split at h
      · cases h
        rw [hi, hd, hs]
        simp [arrayOf_in, dictGet_set, arrayIn, dictSet_twice]
      · cases h
    · rename_i hd
      cases h
      rw [hi]
      simp only [hd]
      simp [dictSet_twice]
  · have hn : ∀ xs d, u = .pre xs → dictHas c!"items" (d : Data α) = false := fun xs d e => absurd ⟨xs, e⟩ hp
    rw [Upd.apply_slot _ _ _ fun xs => hn xs d] at h
    cases h
    unfold Absorbed
    rw [Upd.apply_slot _ _ _ fun xs => hn xs _, slotSet_keep]
    intro s φ hs
    rw [slotSet_get, hs]
    simp [slot_idem hs]

/-- The entry that an update changes. -/
theorem apply_get {k : Kw} {u : Upd α} {d d' : Data α} (h : u.apply k.key d = .ok d') (s : Str) (hs : ∀ φ, u.slot k.key ≠ some (s, φ)) :
    dictGet s d' = dictGet s d := by
  by_cases hp : ∃ xs, u = .pre xs
  · obtain ⟨xs, rfl⟩ := hp
    have : c!"prefixItems" ≠ s := fun e => hs _ (by rw [← e]; rfl)
    simp only [Upd.apply] at h
    split at h
    · split at h
      · cases h; rw [dictGet_set, if_neg this]
      · cases h
    · cases h; rw [dictGet_set, if_neg this]
  · rw [Upd.apply_slot _ _ _ fun xs e => absurd ⟨xs, e⟩ hp] at h
    cases h
    rw [slotSet_get]
    cases e : u.slot k.key with
    | none => rfl
    | some p =>
      obtain ⟨t, φ⟩ := p
      simp only
      rw [if_neg]
      rintro rfl
      exact hs φ e

theorem apply_has {k : Kw} {u : Upd α} {d d' : Data α} (h : u.apply k.key d = .ok d') (s : Str) (hs : dictHas s d = true) :
    dictHas s d' = true := by
  cases u <;> simp only [Upd.apply, setObj] at h <;> repeat' split at h
  all_goals
    cases h
    try first | exact hs | exact dictHas_set' hs

theorem slot_prefix {k : Kw} {u : Upd α} (hu : u.fits' k) (hk : k ≠ .prefixItems) (φ : Option (V α) → V α) :
    u.slot k.key ≠ some (c!"prefixItems", φ) := by
  intro h
  cases u <;> simp only [Upd.slot, Option.some.injEq, Prod.mk.injEq, reduceCtorEq] at h <;> simp only [Upd.fits'] at hu <;>
    first
      | exact hk hu
      | exact hk (key_inj h.1)
      | exact absurd h.1 (by decide)

theorem absorb_step {k k' : Kw} {u u' : Upd α} (hk : k ≠ k') (hu : u.fits' k) (hu' : u'.fits' k') {d d' : Data α}
    (ha : Absorbed k.key u d) (h : u'.apply k'.key d = .ok d') : Absorbed k.key u d' := by
  by_cases hp : ∃ xs, u = .pre xs
  · obtain ⟨xs, rfl⟩ := hp
    simp only [Upd.fits'] at hu
    subst hu
    have hg := apply_get h c!"prefixItems" (slot_prefix hu' (Ne.symm hk))
    have hi := apply_has h c!"items"
    unfold Absorbed at ha ⊢
    simp only [Upd.apply] at ha ⊢
    have key : ∀ its, dictGet c!"prefixItems" d = some (.array (some xs) its) →
        (if dictHas c!"items" d' = true then
          if dictHas c!"prefixItems" d' = true then
            Res.ok (dictSet c!"prefixItems" (.array (some xs) (arrayOf c!"prefixItems" d').2) d')
          else .err .keyError
        else .ok (dictSet c!"prefixItems" (.array (some xs) none) d')) = .ok d' ∨ (dictHas c!"items" d' = false ∧ its ≠ none) := by
      intro its e
      rw [← hg] at e
      by_cases hd : dictHas c!"items" d' = true
      · left
        have hh : dictHas c!"prefixItems" d' = true := by simp [dictHas, e]
        rw [if_pos hd, if_pos hh, arrayOf_in, e]
        simp only [arrayIn]
        rw [dictSet_same e]
      · by_cases hn : its = none
        · left
          subst hn
          rw [if_neg hd, dictSet_same e]
        · exact .inr ⟨by simpa using hd, hn⟩
    have back : ∀ x : V α, dictSet c!"prefixItems" x d = d → dictGet c!"prefixItems" d = some x := by
      intro x e
      rw [← e, dictGet_set, if_pos rfl]
    split at ha
    · rename_i hd
      split at ha
      · have e := back _ (by injection ha)
        rcases key _ e with h | h
        · exact h
        · rw [hi hd] at h; cases h.1
      · cases ha
    · have e := back _ (by injection ha)
      rcases key _ e with h | h
      · exact h
      · exact absurd rfl h.2
  · have hn : ∀ xs (d : Data α), u = .pre xs → dictHas c!"items" d = false := fun xs d e => absurd ⟨xs, e⟩ hp
    unfold Absorbed at ha ⊢
    rw [Upd.apply_slot _ _ _ fun xs => hn xs _] at ha ⊢
    rw [slotSet_keep]
    intro s φ hs
    have ha : dictGet s d = some (φ (dictGet s d)) := by
      injection ha with ha
      have := slotSet_get (u.slot k.key) d s
      rw [ha, hs] at this
      simpa using this
    by_cases hs' : ∃ φ', u'.slot k'.key = some (s, φ')
    · obtain ⟨φ', hs'⟩ := hs'
      have hp' : ∀ xs, u' = .pre xs → dictHas c!"items" d = false := by
        rintro xs rfl
        simp only [Upd.fits'] at hu'
        subst hu'
        simp only [Upd.slot, Option.some.injEq, Prod.mk.injEq] at hs'
        obtain ⟨rfl, _⟩ := hs'
        exact absurd hs (slot_prefix hu hk φ)
      rw [Upd.apply_slot _ _ _ hp'] at h
      cases h
      rw [slotSet_get, hs']
      simp only [if_true]
      rw [← Upd.comm hk hu hu' hs hs', ← ha]
    · rw [apply_get h s fun φ' e => hs' ⟨φ', e⟩]
      exact ha

/-- Loading again what a load left behind gives the same. -/
theorem loadAll_again (w : World) (view : Node → Res Node) (mk : Node → α) (items : List (Str × Node)) (voc : List Kw) (d : Data α) :
    loadAll w view mk items voc (loadAll w view mk items voc d).1 = loadAll w view mk items voc d := by
  have keep : ∀ (k : Kw) (u : Upd α), readKw w view mk items k = .ok u → ∀ (ks : List Kw) (d : Data α), Absorbed k.key u d →
      Absorbed k.key u (loadAll w view mk items ks d).1 := by
    intro k u hu ks
    induction ks with
    | nil => exact fun d h => h
    | cons k' ks ih =>
      intro d h
      rw [loadAll]
      split
      · rw [applyKw_eq]
        cases hr : readKw w view mk items k' with
        | ok u' =>
          rw [Res.ok_bind]
          cases ha : u'.apply k'.key d with
          | ok d' =>
            refine ih _ ?_
            by_cases hk : k = k'
            · subst hk
              rw [hu] at hr
              cases hr
              exact absorb_self ha
            · exact absorb_step hk (readKw_fits' _ _ _ _ _ _ hu) (readKw_fits' _ _ _ _ _ _ hr) h ha
          | err e => exact h
          | timeout => exact h
        | err e => exact h
        | timeout => exact h
      · exact ih _ h
  induction voc generalizing d with
  | nil => rfl
  | cons k ks ih =>
    rw [loadAll.eq_def w view mk items (k :: ks) d]
    simp only
    by_cases hk : (k.isAssertion && dictHas k.key items) = true
    · rw [if_pos hk, applyKw_eq]
      cases hr : readKw w view mk items k with
      | ok u =>
        rw [Res.ok_bind]
        cases ha : u.apply k.key d with
        | ok d' =>
          simp only
          have := keep k u hr ks d' (absorb_self ha)
          rw [loadAll, if_pos hk, applyKw_eq, hr, Res.ok_bind, this]
          exact ih _
        | err e => simp only; rw [loadAll, if_pos hk, applyKw_eq, hr, Res.ok_bind, ha]
        | timeout => simp only; rw [loadAll, if_pos hk, applyKw_eq, hr, Res.ok_bind, ha]
      | err e => simp only [Res.err_bind]; rw [loadAll, if_pos hk, applyKw_eq, hr]; rfl
      | timeout => simp only [Res.timeout_bind]; rw [loadAll, if_pos hk, applyKw_eq, hr]; rfl
    · rw [if_neg hk, loadAll, if_neg hk]
      exact ih _

end Verif
