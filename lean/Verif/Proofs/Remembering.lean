import Verif.Model.Remembering
import Verif.Proofs.Validating
import Verif.Proofs.ValidatingMono
import Verif.Proofs.Bridge
/-! # Programs that are told when a look raises -/

set_option linter.unusedSimpArgs false

namespace Verif

/-! ## What the nodes are does not matter -/

section
variable {α α' β σ σ' : Type} {g1 : α → σ → β × σ} {g2 : α' → σ' → β × σ'} {m : α → α'} {φ : σ → σ'}

theorem travL_hom (h : ∀ a s, g2 (m a) (φ s) = ((g1 a s).1, φ (g1 a s).2)) (xs : List α) (s : σ) :
    travL g2 (xs.map m) (φ s) = ((travL g1 xs s).1, φ (travL g1 xs s).2) := by
  induction xs generalizing s with
  | nil => rfl
  | cons a as ih => simp only [List.map_cons, travL, h, ih]

theorem travD_hom (h : ∀ a s, g2 (m a) (φ s) = ((g1 a s).1, φ (g1 a s).2)) (xs : List (Str × α)) (s : σ) :
    travD g2 (mapD m xs) (φ s) = ((travD g1 xs s).1, φ (travD g1 xs s).2) := by
  induction xs generalizing s with
  | nil => rfl
  | cons a as ih => obtain ⟨k, a⟩ := a; simp only [mapD_cons, travD, h, ih]

theorem travO_hom (h : ∀ a s, g2 (m a) (φ s) = ((g1 a s).1, φ (g1 a s).2)) (x : Option α) (s : σ) :
    travO g2 (x.map m) (φ s) = ((travO g1 x s).1, φ (travO g1 x s).2) := by
  cases x with
  | none => rfl
  | some a => simp only [Option.map_some, travO, h]

theorem travSub_hom (h : ∀ a s, g2 (m a) (φ s) = ((g1 a s).1, φ (g1 a s).2)) (x : Sub α) (s : σ) :
    travSub g2 (x.map m) (φ s) = ((travSub g1 x s).1, φ (travSub g1 x s).2) := by
  cases x with
  | fail => rfl
  | lazy a => simp only [Sub.map, travSub, h]

theorem V.trav_hom (h : ∀ a s, g2 (m a) (φ s) = ((g1 a s).1, φ (g1 a s).2)) (x : V α) (s : σ) :
    (x.map m).trav g2 (φ s) = ((x.trav g1 s).1, φ (x.trav g1 s).2) := by
  cases x with
  | contains c mn mx => simp only [V.map_contains, V.trav, h]
  | array p i => simp only [V.map_array, V.trav, travO_hom (travL_hom h), travO_hom h]
  | object o => simp only [V.map_object, V.trav, ObjV.map, travD_hom h, travO_hom (travD_hom h), travO_hom (travSub_hom h), travO_hom h]
  | dependentSchemas m => simp only [V.map_dep, V.trav, travD_hom h]
  | allOf xs => simp only [V.map_allOf, V.trav, travL_hom h]
  | anyOf xs => simp only [V.map_anyOf, V.trav, travL_hom h]
  | oneOf xs => simp only [V.map_oneOf, V.trav, travL_hom h]
  | not x => simp only [V.map_not, V.trav, h]
  | cond i t e => simp only [V.map_cond, V.trav, travO_hom h]
  | _ => rfl

end

section
variable {ν ν' : Type} (g : ν → ν')

def LazyObj.map (c : LazyObj ν) : LazyObj ν' := { node := g c.node, data := c.data, fail := c.fail, loaded := c.loaded }

/-- The second program does with the images of the nodes what the first does with the nodes. -/
def VLike {ρ ρ' : Type} (h : ρ → ρ') : Visit ν ρ → Visit ν' ρ' → Prop
  | .done a, .done b => b = h a
  | .stop, .stop => True
  | .sight n k, .sight n' k' => n' = g n ∧ ∀ x, VLike h (k x) (k' (x.fmap (Sight.map g)))
  | .tree n k, .tree n' k' => n' = g n ∧ ∀ x, VLike h (k x) (k' x)
  | _, _ => False

variable {g} {ρ ρ' σ σ' : Type}

theorem VLike.bind {h : ρ → ρ'} {h' : σ → σ'} {p : Visit ν ρ} {q : Visit ν' ρ'} {f : ρ → Visit ν σ} {f' : ρ' → Visit ν' σ'} (hp : VLike g h p q)
    (hf : ∀ a, VLike g h' (f a) (f' (h a))) : VLike g h' (p >>= f) (q >>= f') := by
  change VLike g h' (p.bind f) (q.bind f')
  induction p generalizing q with
  | done a =>
    cases q with
    | done b => simp only [VLike] at hp; subst hp; exact hf a
    | _ => exact hp.elim
  | stop =>
    cases q with
    | stop => trivial
    | _ => exact hp.elim
  | sight n k ih =>
    cases q with
    | sight n' k' => exact ⟨hp.1, fun x => ih x (hp.2 x)⟩
    | _ => exact hp.elim
  | tree n k ih =>
    cases q with
    | tree n' k' => exact ⟨hp.1, fun x => ih x (hp.2 x)⟩
    | _ => exact hp.elim

theorem VLike.pure {h : ρ → ρ'} {a : ρ} {b : ρ'} (e : b = h a) : VLike g h (Pure.pure a) (Pure.pure b) := e

theorem Like.visit {h : ρ → ρ'} {p : Look ν ρ} {q : Look ν' ρ'} (hp : Like g h p q) : VLike g (Res.fmap h) p.visit q.visit := by
  induction p generalizing q with
  | done r =>
    cases q with
    | done r' => simp only [Like] at hp; subst hp; cases r <;> first | exact rfl | exact trivial
    | _ => exact hp.elim
  | sight n k ih =>
    cases q with
    | sight n' k' =>
      rw [Look.visit, Look.visit]
      refine ⟨hp.1, fun x => ?_⟩
      cases x with
      | ok x => exact ih x (hp.2 x)
      | err e => exact rfl
      | timeout => exact trivial
    | _ => exact hp.elim
  | tree n k ih =>
    cases q with
    | tree n' k' =>
      rw [Look.visit, Look.visit]
      refine ⟨hp.1, fun x => ?_⟩
      cases x with
      | ok x => exact ih x (hp.2 x)
      | err e => exact rfl
      | timeout => exact trivial
    | _ => exact hp.elim

theorem loadKeep_like (w : World) (items : List (Str × ν)) (voc : List Kw) (d : Data (ν ⊕ Nat)) :
    VLike g (fun p => (p.1.map (Sum.map g id), p.2)) (loadKeep w items voc d) (loadKeep w (mapD g items) voc (d.map (Sum.map g id))) := by
  induction voc generalizing d with
  | nil => exact rfl
  | cons k ks ih =>
    rw [loadKeep, loadKeep]
    simp only [dictHas_mapD]
    split
    · refine (readL_like (g := g) items (g' := Sum.map g id) (mk := Sum.inl) (mk' := Sum.inl) (fun _ => rfl) w k).visit.bind fun r => ?_
      cases r with
      | ok u =>
        simp only [Res.fmap_ok, Upd.apply_map]
        cases u.apply k.key d with
        | ok d' => exact ih d'
        | err e => exact rfl
        | timeout => exact trivial
      | err e => exact rfl
      | timeout => exact trivial
    · exact ih d

theorem alloc_hom (a : ν ⊕ Nat) (h : List (LazyObj ν)) : alloc (Sum.map g id a) (h.map (LazyObj.map g)) = ((alloc a h).1, (alloc a h).2.map (LazyObj.map g)) := by
  cases a <;> simp [alloc, LazyObj.map]

theorem loadObj_like (w : World) (voc : List Kw) (c : LazyObj ν) (h : List (LazyObj ν)) :
    VLike g (fun p => (p.1, p.2.1.map g, p.2.2.map (LazyObj.map g))) (loadObj w voc c h) (loadObj w voc (c.map g) (h.map (LazyObj.map g))) := by
  refine ⟨rfl, fun x => ?_⟩
  have other : ∀ x : Sight ν, VLike g (fun p => (p.1, p.2.1.map g, p.2.2.map (LazyObj.map g)))
      ((loadOtherL x voc).visit >>= fun
        | .ok _ => pure (.ok (), { c with loaded := true }, h)
        | r => pure (r, c, h))
      ((loadOtherL (x.map g) voc).visit >>= fun
        | .ok _ => pure (.ok (), { c.map g with loaded := true }, h.map (LazyObj.map g))
        | r => pure (r, c.map g, h.map (LazyObj.map g))) := by
    intro x
    refine (loadOtherL_like x voc).visit.bind fun r => ?_
    cases r <;> exact rfl
  cases x with
  | err e => exact rfl
  | timeout => exact trivial
  | ok x =>
    cases x with
    | bool b => exact rfl
    | obj items =>
      have e : (c.map g).data.map Sum.inr = (c.data.map Sum.inr).map (Sum.map g id) := by rw [Data.map_map]; rfl
      change VLike g _ (loadKeep w items voc (c.data.map Sum.inr) >>= _) (loadKeep w (mapD g items) voc ((c.map g).data.map Sum.inr) >>= _)
      rw [e]
      refine (loadKeep_like w items voc _).bind fun p => ?_
      simp only [Data.map_eq, travD_hom (V.trav_hom alloc_hom)]
      exact rfl
    | null => exact other .null
    | num n => exact other (.num n)
    | str t => exact other (.str t)
    | arr xs => exact other (.arr xs)

theorem interpV_like {β : Type} {rec : Nat → Val → Ctx → List (LazyObj ν) → Visit ν (Res Unit × List (LazyObj ν))}
    {rec' : Nat → Val → Ctx → List (LazyObj ν') → Visit ν' (Res Unit × List (LazyObj ν'))}
    (hrec : ∀ a v c h, VLike g (fun p => (p.1, p.2.map (LazyObj.map g))) (rec a v c h) (rec' a v c (h.map (LazyObj.map g)))) (p : Prog Nat β) (h : List (LazyObj ν)) :
    VLike g (fun p => (p.1, p.2.map (LazyObj.map g))) (interpV rec p h) (interpV rec' p (h.map (LazyObj.map g))) := by
  induction p generalizing h with
  | done r => cases r <;> first | exact rfl | exact trivial
  | call a v c k ih => exact (hrec a v c h).bind fun q => ih q.1 q.2

theorem validateV_like (w : World) (voc : List Kw) (f a : Nat) (v : Val) (ctx : Ctx) (h : List (LazyObj ν)) :
    VLike g (fun p => (p.1, p.2.map (LazyObj.map g))) (validateV w voc f a v ctx h) (validateV w voc f a v ctx (h.map (LazyObj.map g))) := by
  induction f generalizing a v ctx h with
  | zero => exact trivial
  | succ f ih =>
    have hrun : ∀ (c : LazyObj ν) (h : List (LazyObj ν)), VLike g (fun p => (p.1, p.2.map (LazyObj.map g))) (runObj w (validateV w voc f) f c v ctx h)
        (runObj w (validateV w voc f) f (c.map g) v ctx (h.map (LazyObj.map g))) := by
      intro c h
      unfold runObj
      change VLike g _ _ (if c.fail then _ else _)
      split
      · exact rfl
      · exact interpV_like ih _ _
    rw [validateV, validateV, List.getElem?_map]
    cases h[a]? with
    | none => exact rfl
    | some c =>
      simp only [Option.map_some]
      change VLike g _ _ (if c.loaded then _ else _)
      split
      · exact hrun c h
      · refine (loadObj_like w voc c h).bind fun p => ?_
        simp only
        rw [← List.map_set]
        cases p.1 with
        | ok u => exact hrun _ _
        | err e => exact rfl
        | timeout => exact rfl

end

/-! ## More fuel -/

section
variable {ν ρ σ : Type}

/-- The second program does what the first does, as long as that does not stop. -/
def VLe : Visit ν ρ → Visit ν ρ → Prop
  | .stop, _ => True
  | .done a, q => q = .done a
  | .sight n k, q => ∃ k', q = .sight n k' ∧ ∀ x, VLe (k x) (k' x)
  | .tree n k, q => ∃ k', q = .tree n k' ∧ ∀ x, VLe (k x) (k' x)

theorem VLe.refl (p : Visit ν ρ) : VLe p p := by
  induction p with
  | done a => exact rfl
  | stop => trivial
  | sight n k ih => exact ⟨k, rfl, ih⟩
  | tree n k ih => exact ⟨k, rfl, ih⟩

theorem VLe.bind {p q : Visit ν ρ} {f f' : ρ → Visit ν σ} (h : VLe p q) (hf : ∀ a, VLe (f a) (f' a)) : VLe (p >>= f) (q >>= f') := by
  change VLe (p.bind f) (q.bind f')
  induction p generalizing q with
  | done a => rw [VLe] at h; subst h; exact hf a
  | stop => trivial
  | sight n k ih => obtain ⟨k', rfl, hk⟩ := h; exact ⟨_, rfl, fun x => ih x (hk x)⟩
  | tree n k ih => obtain ⟨k', rfl, hk⟩ := h; exact ⟨_, rfl, fun x => ih x (hk x)⟩

theorem interpV_le {β : Type} {rec rec' : Nat → Val → Ctx → List (LazyObj ν) → Visit ν (Res Unit × List (LazyObj ν))} (hr : ∀ a v c h, VLe (rec a v c h) (rec' a v c h))
    {p q : Prog Nat β} (hp : p.Le q) (h : List (LazyObj ν)) : VLe (interpV rec p h) (interpV rec' q h) := by
  induction p generalizing q h with
  | done r =>
    cases r with
    | timeout => trivial
    | _ => rw [hp.of_done (by simp)]; exact rfl
  | call a v c k ih =>
    obtain ⟨k', rfl, hk⟩ := hp
    exact (hr a v c h).bind fun x => ih _ (hk _) _

theorem validateV_le (w : World) (voc : List Kw) {f g : Nat} (hle : f ≤ g) (a : Nat) (v : Val) (ctx : Ctx) (h : List (LazyObj ν)) :
    VLe (validateV w voc f a v ctx h) (validateV w voc g a v ctx h) := by
  induction f generalizing g a v ctx h with
  | zero => trivial
  | succ f ih =>
    obtain ⟨g, rfl⟩ : ∃ k, g = k + 1 := ⟨g - 1, by omega⟩
    have h' : f ≤ g := by omega
    have hrun : ∀ (c : LazyObj ν) (h : List (LazyObj ν)), VLe (runObj w (validateV w voc f) f c v ctx h) (runObj w (validateV w voc g) g c v ctx h) := by
      intro c h
      unfold runObj
      split
      · exact rfl
      · exact interpV_le (fun a v c h => ih h' a v c h) (progAll_fuel w h' v ctx c.data) h
    rw [validateV, validateV]
    cases h[a]? with
    | none => exact rfl
    | some c =>
      simp only
      split
      · exact hrun c h
      · refine (VLe.refl _).bind fun p => ?_
        cases p.1 with
        | ok u => exact hrun _ _
        | err e => exact rfl
        | timeout => exact rfl

end

/-! ## Trees -/

/-- Be told whether it raised. -/
def Res.attempt {α : Type} : Res α → Res (Res α)
  | .timeout => .timeout
  | r => .ok r

/-- What is looked at are trees. -/
def visitT {ρ : Type} (vw : Node → Res Node) : Visit Node ρ → Res ρ
  | .done a => .ok a
  | .stop => .timeout
  | .sight n k => (vw n).attempt >>= fun x => visitT vw (k (x.fmap Node.sight))
  | .tree n k => visitT vw (k (.ok n))

/-- The outcome and the rest, unless it takes too long. -/
def packed {α β : Type} : Res α × β → Res (Res α × β)
  | (.timeout, _) => .timeout
  | p => .ok p

section
variable {vw : Node → Res Node} {ρ σ : Type}

theorem visitT_bind (p : Visit Node ρ) (f : ρ → Visit Node σ) : visitT vw (p >>= f) = visitT vw p >>= fun a => visitT vw (f a) := by
  change visitT vw (p.bind f) = _
  induction p with
  | done a => rfl
  | stop => rfl
  | sight n k ih =>
    simp only [Visit.bind, visitT]
    cases (vw n).attempt with
    | ok x => exact ih _
    | err e => rfl
    | timeout => rfl
  | tree n k ih => exact ih _

theorem visitT_look (p : Look Node ρ) : visitT vw p.visit = (lookT vw p).attempt := by
  induction p with
  | done r => cases r <;> rfl
  | sight n k ih =>
    simp only [Look.visit, visitT, lookT]
    cases vw n with
    | ok x => exact ih _
    | err e => rfl
    | timeout => rfl
  | tree n k ih =>
    rw [Look.visit]
    exact ih n

theorem Res.Ext.attempt {α : Type} {x y : Res α} (h : x ⊑ y) : x.attempt ⊑ y.attempt := by
  intro hx
  cases x with
  | timeout => exact absurd rfl hx
  | _ => rw [h (by simp)]

theorem visitT_le {vw' : Node → Res Node} (h : ∀ n, vw n ⊑ vw' n) {p q : Visit Node ρ} (hp : VLe p q) : visitT vw p ⊑ visitT vw' q := by
  induction p generalizing q with
  | done a => rw [VLe] at hp; subst hp; exact .refl _
  | stop => exact fun h => absurd rfl h
  | sight n k ih => obtain ⟨k', rfl, hk⟩ := hp; exact (h n).attempt.bind fun x => ih _ (hk _)
  | tree n k ih => obtain ⟨k', rfl, hk⟩ := hp; rw [visitT, visitT]; exact ih (.ok n) (hk (.ok n))

theorem loadKeep_tree (w : World) (hvw : ∀ n x, vw n = .ok x → x.isRef = false) (items : List (Str × Node)) (voc : List Kw) (d : Data (Node ⊕ Nat)) :
    visitT vw (loadKeep w items voc d) = match loadAll w vw Sum.inl items voc d with
      | (_, .timeout) => .timeout
      | p => .ok p := by
  induction voc generalizing d with
  | nil => rfl
  | cons k ks ih =>
    rw [loadKeep, loadAll]
    split
    · rw [visitT_bind, visitT_look, readKw_tree items hvw, applyKw_eq]
      cases readKw w vw Sum.inl items k with
      | ok u =>
        simp only [Res.attempt, Res.ok_bind]
        cases u.apply k.key d with
        | ok d' => exact ih d'
        | err e => rfl
        | timeout => rfl
      | err e => rfl
      | timeout => rfl
    · exact ih d

end

theorem loadObj_tree (w : World) (docs : List Doc) (voc : List Kw) (f : Nat) (c : Cell) (h : Heap) :
    visitT (view docs f) (loadObj w voc c h) = packed (loadCell w docs voc f c h) := by
  rw [loadObj, loadCell, visitT]
  have hvw : ∀ n x, view docs f n = .ok x → x.isRef = false := fun n x hx => by
    cases x with
    | ref own d p => exact absurd rfl (Obj.view_not_ref hx own d p)
    | _ => rfl
  cases hv : view docs f c.node with
  | err e => rfl
  | timeout => rfl
  | ok x =>
    have hx := hvw _ _ hv
    have other : visitT (view docs f) ((loadOtherL x.sight voc).visit >>= fun
          | .ok _ => pure (.ok (), { c with loaded := true }, h)
          | r => pure (r, c, h)) = packed (match loadNonObject x voc with
        | .ok _ => (.ok (), { c with loaded := true }, h)
        | r => (r, c, h)) := by
      rw [visitT_bind, visitT_look, loadOther_tree x hx]
      cases loadNonObject x voc <;> rfl
    cases x with
    | bool b => rfl
    | obj items =>
      simp only [Res.attempt, Res.ok_bind, Res.fmap_ok, Node.sight]
      rw [visitT_bind, loadKeep_tree w hvw]
      rcases loadAll w (view docs f) Sum.inl items voc (c.data.map Sum.inr) with ⟨d, r⟩
      cases r <;> rfl
    | ref => cases hx
    | null => exact other
    | num n => exact other
    | str t => exact other
    | arr xs => exact other

theorem packed_ok {α β : Type} {r : Res α} (h : r ≠ .timeout) (x : β) : packed (r, x) = .ok (r, x) := by
  cases r with
  | timeout => exact absurd rfl h
  | _ => rfl

section
variable {β : Type} {vw : Node → Res Node} {rec : Nat → Val → Ctx → Heap → Visit Node (Res Unit × Heap)} {recH : Nat → Val → Ctx → Heap → Res Unit × Heap}

theorem interpH_packed (a : Nat) (v : Val) (c : Ctx) (k : Res Unit → Prog Nat β) (h : Heap) :
    packed (interpH recH (.call a v c k) h) = packed (recH a v c h) >>= fun q => packed (interpH recH (k q.1) q.2) := by
  rw [interpH]
  rcases recH a v c h with ⟨r, h'⟩
  cases r <;> rfl

theorem interpV_to (hrec : ∀ a v c h, packed (recH a v c h) ⊑ visitT vw (rec a v c h)) {p q : Prog Nat β} (hp : p.Le q) (h : Heap) :
    packed (interpH recH p h) ⊑ visitT vw (interpV rec q h) := by
  induction p generalizing q h with
  | done r =>
    cases r with
    | timeout => exact fun h => absurd rfl h
    | _ => rw [hp.of_done (by simp)]; exact .refl _
  | call a v c k ih =>
    obtain ⟨k', rfl, hk⟩ := hp
    rw [interpH_packed, interpV, visitT_bind]
    exact (hrec a v c h).bind fun x => ih _ (hk _) _

theorem interpV_of (hrec : ∀ a v c h, visitT vw (rec a v c h) ⊑ packed (recH a v c h)) {p q : Prog Nat β} (hp : p.Le q) (h : Heap) :
    visitT vw (interpV rec p h) ⊑ packed (interpH recH q h) := by
  induction p generalizing q h with
  | done r =>
    cases r with
    | timeout => exact fun h => absurd rfl h
    | _ => rw [hp.of_done (by simp)]; exact .refl _
  | call a v c k ih =>
    obtain ⟨k', rfl, hk⟩ := hp
    rw [interpH_packed, interpV, visitT_bind]
    exact (hrec a v c h).bind fun x => ih _ (hk _) _
end

theorem validateH_packed (w : World) (docs : List Doc) (voc : List Kw) (f a : Nat) (v : Val) (ctx : Ctx) (h : Heap) (c : Cell) (hc : h[a]? = some c) (hl : c.loaded = false) :
    packed (validateH w docs voc (f + 1) a v ctx h) = packed (loadCell w docs voc f c h) >>= fun p => match p.1 with
      | .ok _ => packed (runCell (validateH w docs voc f) w f p.2.1 v ctx (p.2.2.set a p.2.1))
      | r => .ok (r, p.2.2.set a p.2.1) := by
  rw [validateH, hc]
  simp only [hl, Bool.false_eq_true, if_false]
  rcases loadCell w docs voc f c h with ⟨r, c', h'⟩
  cases r <;> rfl

section
variable (w : World) (docs : List Doc) (voc : List Kw)

/-- On trees this is `Model/Lazy`. -/
theorem validateV_to {f k g : Nat} (hk : f ≤ k) (hg : f ≤ g) (a : Nat) (v : Val) (ctx : Ctx) (h : Heap) :
    packed (validateH w docs voc f a v ctx h) ⊑ visitT (view docs g) (validateV w voc k a v ctx h) := by
  induction f generalizing k a v ctx h with
  | zero => exact fun h => absurd rfl h
  | succ f ih =>
    obtain ⟨k, rfl⟩ : ∃ j, k = j + 1 := ⟨k - 1, by omega⟩
    have h' : f ≤ g := by omega
    have hrun : ∀ (c : Cell) (h : Heap), packed (runCell (validateH w docs voc f) w f c v ctx h) ⊑ visitT (view docs g) (runObj w (validateV w voc k) k c v ctx h) := by
      intro c h
      unfold runCell runObj
      split
      · exact .refl _
      · exact interpV_to (fun a v c h => ih (by omega) h' a v c h) (progAll_fuel w (by omega) v ctx c.data) h
    rw [validateV]
    cases hc : h[a]? with
    | none => rw [validateH, hc]; exact .refl _
    | some c =>
      cases hl : c.loaded with
      | true =>
        rw [validateH, hc]
        simp only [hl, if_true]
        exact hrun c h
      | false =>
        rw [validateH_packed w docs voc f a v ctx h c hc hl]
        simp only [hl, Bool.false_eq_true, if_false]
        rw [visitT_bind, ← loadObj_tree]
        refine (visitT_le (view_mono docs h') (.refl _)).bind fun p => ?_
        cases p.1 with
        | ok u => exact hrun _ _
        | err e => exact .refl _
        | timeout => exact .refl _

theorem validateV_of (k g : Nat) (a : Nat) (v : Val) (ctx : Ctx) (h : Heap) :
    visitT (view docs g) (validateV w voc k a v ctx h) ⊑ packed (validateH w docs voc (k + g) a v ctx h) := by
  induction k generalizing a v ctx h with
  | zero => exact fun h => absurd rfl h
  | succ k ih =>
    rw [show k + 1 + g = (k + g) + 1 by omega]
    have hrun : ∀ (c : Cell) (h : Heap), visitT (view docs g) (runObj w (validateV w voc k) k c v ctx h) ⊑ packed (runCell (validateH w docs voc (k + g)) w (k + g) c v ctx h) := by
      intro c h
      unfold runCell runObj
      split
      · exact .refl _
      · exact interpV_of (fun a v c h => ih a v c h) (progAll_fuel w (by omega) v ctx c.data) h
    rw [validateV]
    cases hc : h[a]? with
    | none => rw [validateH, hc]; exact .refl _
    | some c =>
      cases hl : c.loaded with
      | true =>
        rw [validateH, hc]
        simp only [hl, if_true]
        exact hrun c h
      | false =>
        rw [validateH_packed w docs voc (k + g) a v ctx h c hc hl]
        simp only [hl, Bool.false_eq_true, if_false]
        rw [visitT_bind, ← loadObj_tree]
        refine (visitT_le (view_mono docs (by omega)) (.refl _)).bind fun p => ?_
        cases p.1 with
        | ok u => exact hrun _ _
        | err e => exact .refl _
        | timeout => exact .refl _
end

end Verif
