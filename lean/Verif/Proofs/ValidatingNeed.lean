import Verif.Proofs.ValidatingMono
import Verif.Proofs.OnDemand
/-! # Validation on the objects, with schemas loaded on demand

As in `Proofs/OnDemand`, what is read from the loaded schemas and which schema would have to be loaded to go on. -/

set_option linter.unusedSimpArgs false

namespace Verif.Obj
open Verif Verif.Spec

section
variable {α β γ ρ σ : Type}

def eachLW (g : Nat → Want α) : List Nat → Want (List α)
  | [] => pure []
  | x :: xs => do
    let y ← g x
    let ys ← eachLW g xs
    pure (y :: ys)

def eachDW (g : Nat → Want α) : List (Str × Nat) → Want (List (Str × α))
  | [] => pure []
  | (k, x) :: xs => do
    let y ← g x
    let ys ← eachDW g xs
    pure ((k, y) :: ys)

def nodeW (s : St) : Nat → Nat → Want Node
  | 0, _ => .got .timeout
  | f + 1, i => do
    match (← cellW s i).shape with
    | .null => pure .null
    | .bool b => pure (.bool b)
    | .num n => pure (.num n)
    | .str t => pure (.str t)
    | .arr xs => do
      let ys ← eachLW (nodeW s f) xs
      pure (.arr ys)
    | .obj kvs => do
      let ys ← eachDW (nodeW s f) kvs
      pure (.obj ys)
    | .ref n d p => do
      match ← nodeW s f n with
      | .obj own => pure (.ref own d p)
      | _ => .got (.err .unmodelled)

def finalW (s : St) : Nat → Nat → Want Nat
  | 0, _ => .got .timeout
  | f + 1, i => do
    match (← cellW s i).shape with
    | .ref _ d p => do
      let j ← (wopsOf s f).query d p
      finalW s f j
    | _ => pure i

def sightW (s : St) (f i : Nat) : Want (Sight Nat) := do
  match ← (wopsOf s f).kind i with
  | .array => do
    let xs ← (wopsOf s f).elems i
    pure (.arr xs)
  | .object => do
    let kvs ← (wopsOf s f).members i
    pure (.obj kvs)
  | _ => do
    let j ← finalW s f i
    match (← cellW s j).shape with
    | .null => pure .null
    | .bool b => pure (.bool b)
    | .num n => pure (.num n)
    | .str t => pure (.str t)
    | _ => .got (.err .unmodelled)

def lookW (s : St) (f : Nat) : Look Nat ρ → Want ρ
  | .done r => .got r
  | .sight n k => do
    let x ← sightW s f n
    lookW s f (k x)
  | .tree n k => do
    let x ← nodeW s f n
    lookW s f (k x)

def interpW (rec : α → Val → Ctx → Want Unit) : Prog α β → Want β
  | .done r => .got r
  | .call a v c k => match rec a v c with
    | .need d => .need d
    | .got .timeout => .got .timeout
    | .got r => interpW rec (k r)

def validateW (s : St) (w : World) (voc : List Kw) : Nat → Nat → Val → Ctx → Want Unit
  | 0, _, _, _ => .got .timeout
  | f + 1, i, v, ctx => do
    match ← sightW s f i with
    | .bool b => if b then pure () else .got (.err (raisePlain ctx.path))
    | .obj items => do
      let d ← lookW s f (loadAllL w id items voc [])
      interpW (validateW s w voc f) (progAll w f v ctx d)
    | x => lookW s f (loadOtherL x voc)

def validateSW (s : St) (w : World) (f d : Nat) (v : Val) : Want Unit := do
  (wopsOf s f).load d
  let x ← readyW s d
  match ← (wopsOf s f).kind x.value with
  | .object => validateW s w x.vocabulary f x.value v []
  | _ => pure ()

theorem interpW_map (g : α → γ) (rec : γ → Val → Ctx → Want Unit) (p : Prog α β) : interpW rec (p.map g) = interpW (fun a => rec (g a)) p := by
  induction p with
  | done r => rfl
  | call a v c k ih =>
    simp only [Prog.map, interpW]
    cases rec (g a) v c with
    | need d => rfl
    | got r =>
      cases r with
      | timeout => rfl
      | _ => simp only [ih]

variable {E : Env} {s : St} {f : Nat}

theorem each_does {X : Nat → Nat → M α} {W : Nat → Want α} (h : ∀ i, InView s i → Does E s f (fun h => X h i) (fun _ => True) (W i)) (xs : List Nat) (hx : ∀ x ∈ xs, InView s x) :
    Does E s f (fun h => eachL (X h) xs) (fun _ => True) (eachLW W xs) := by
  induction xs with
  | nil => exact .pure trivial
  | cons x xs ih => exact (h x (hx x (by simp))).bind fun y _ _ => (ih fun z hz => hx z (List.mem_cons_of_mem _ hz)).bind fun ys _ _ => .pure trivial

theorem eachD_does {X : Nat → Nat → M α} {W : Nat → Want α} (h : ∀ i, InView s i → Does E s f (fun h => X h i) (fun _ => True) (W i)) (xs : List (Str × Nat))
    (hx : ∀ k x, (k, x) ∈ xs → InView s x) : Does E s f (fun h => eachD (X h) xs) (fun _ => True) (eachDW W xs) := by
  induction xs with
  | nil => exact .pure trivial
  | cons p xs ih =>
    obtain ⟨k, x⟩ := p
    exact (h x (hx k x (by simp))).bind fun y _ _ => (ih fun k z hz => hx k z (List.mem_cons_of_mem _ hz)).bind fun ys _ _ => .pure trivial

theorem node_does (i : Nat) (hi : InView s i) : Does E s f (fun h => (ops E h).node i) (fun _ => True) (nodeW s f i) := by
  induction f generalizing i with
  | zero => exact .zero fun _ => rfl
  | succ f ih =>
    refine Does.shift (X := fun h => nodeS (ops E h) i) ?_ fun h => rfl
    refine (cell_does hi).bind fun c hc _ => ?_
    obtain ⟨sh, q, k⟩ := c
    cases sh with
    | arr xs => exact (each_does ih xs fun x hx => .elem hi hc rfl hx).bind fun ys _ _ => .pure trivial
    | obj kvs => exact (eachD_does ih kvs fun k x hx => .member hi hc rfl hx).bind fun ys _ _ => .pure trivial
    | ref n d p =>
      refine (ih n (.own hi hc rfl)).bind fun t _ _ => ?_
      cases t with
      | obj own => exact .pure trivial
      | _ => exact .raise
    | _ => exact .pure trivial

section
variable (hw : Whole s)
include hw

theorem final_does (i : Nat) (hi : InView s i) : Does E s f (fun h => final E h i) (InView s) (finalW s f i) := by
  induction f generalizing i with
  | zero => exact .zero fun _ => rfl
  | succ f ih =>
    refine Does.shift (X := fun h => do
      match (← cell i).shape with
      | .ref _ d p => do
        let j ← (ops E h).query d p
        final E h j
      | _ => pure i) ?_ fun h => rfl
    refine (cell_does hi).bind fun c hc _ => ?_
    obtain ⟨sh, q, k⟩ := c
    cases sh with
    | ref n d p => exact ((does_all hw f).query d p (hw.doc hi hc rfl)).bind fun j hj _ => ih j hj
    | _ => exact .pure hi

/-- What is seen is in view. -/
def SightIn (s : St) : Sight Nat → Prop
  | .arr xs => ∀ x ∈ xs, InView s x
  | .obj kvs => ∀ k j, (k, j) ∈ kvs → InView s j
  | _ => True

theorem sight_does (i : Nat) (hi : InView s i) : Does E s f (fun h => sightS E h i) (SightIn s) (sightW s f i) := by
  have ha := does_all (E := E) hw f
  refine (ha.kind i hi).bind fun k _ hk => ?_
  cases k with
  | array => exact (ha.elems i _ hi hk).bind fun xs hx _ => .pure hx
  | object => exact (ha.members i _ hi hk).bind fun xs hx _ => .pure hx
  | _ =>
    refine (final_does hw i hi).bind fun j hj _ => (cell_does hj).bind fun c _ _ => ?_
    obtain ⟨sh, q, k⟩ := c
    cases sh <;> first | exact .pure trivial | exact .raise

omit hw in
theorem lift_in : ∀ {xs : List Nat}, (∀ x ∈ xs, InView s x) → ∃ ys : List {i // InView s i}, xs = ys.map Subtype.val
  | [], _ => ⟨[], rfl⟩
  | x :: xs, h => by
    obtain ⟨ys, rfl⟩ := lift_in fun y hy => h y (List.mem_cons_of_mem _ hy)
    exact ⟨⟨x, h x (by simp)⟩ :: ys, rfl⟩

omit hw in
theorem lift_inD : ∀ {xs : List (Str × Nat)}, (∀ k x, (k, x) ∈ xs → InView s x) → ∃ ys : List (Str × {i // InView s i}), xs = mapD Subtype.val ys
  | [], _ => ⟨[], rfl⟩
  | (k, x) :: xs, h => by
    obtain ⟨ys, rfl⟩ := lift_inD fun k y hy => h k y (List.mem_cons_of_mem _ hy)
    exact ⟨(k, ⟨x, h k x (by simp)⟩) :: ys, rfl⟩

omit hw in
theorem lift_sight {x : Sight Nat} (h : SightIn s x) : ∃ y : Sight {i // InView s i}, x = y.map Subtype.val := by
  cases x with
  | arr xs =>
    obtain ⟨ys, rfl⟩ := lift_in h
    exact ⟨.arr ys, rfl⟩
  | obj kvs =>
    obtain ⟨ys, rfl⟩ := lift_inD h
    exact ⟨.obj ys, rfl⟩
  | null => exact ⟨.null, rfl⟩
  | bool b => exact ⟨.bool b, rfl⟩
  | num n => exact ⟨.num n, rfl⟩
  | str t => exact ⟨.str t, rfl⟩

/-- A looking program does what it reads, if it looks at what is in view. -/
theorem look_does {h : ρ → σ} (p : Look {i // InView s i} ρ) : ∀ q : Look Nat σ, Like Subtype.val h p q →
    Does E s f (fun j => lookS E j q) (fun a => ∃ b, a = h b) (lookW s f q) := by
  induction p with
  | done r =>
    intro q hq
    cases q with
    | done r' =>
      simp only [Like] at hq
      subst hq
      refine .lift fun a e => ?_
      cases r with
      | ok b => cases e; exact ⟨b, rfl⟩
      | _ => cases e
    | _ => exact hq.elim
  | sight n k ih =>
    intro q hq
    cases q with
    | sight n' k' =>
      obtain ⟨rfl, hk⟩ := hq
      refine (sight_does hw n.1 n.2).bind fun x hx _ => ?_
      obtain ⟨y, rfl⟩ := lift_sight hx
      exact ih y _ (hk y)
    | _ => exact hq.elim
  | tree n k ih =>
    intro q hq
    cases q with
    | tree n' k' =>
      obtain ⟨rfl, hk⟩ := hq
      exact (node_does n.1 n.2).bind fun x _ _ => ih x _ (hk x)
    | _ => exact hq.elim
end

/-- A validator does what it reads. -/
theorem interp_does {rec : Nat → α → Val → Ctx → M Unit} {recW : α → Val → Ctx → Want Unit} (hrec : ∀ a v c, Does E s f (fun h => rec h a v c) (fun _ => True) (recW a v c))
    (q : Prog α β) : ∀ p : Nat → Prog α β, p f = q → (∀ h, f ≤ h → q.Le (p h)) → Does E s f (fun h => interpS (rec h) (p h)) (fun _ => True) (interpW recW q) := by
  induction q with
  | done r =>
    intro p hp hle
    refine ⟨fun t _ => by change interpS (rec f) (p f) t = _; rw [hp]; rfl, fun hr t _ h hh => ?_, fun _ _ => trivial⟩
    change interpS (rec h) (p h) t = _
    rw [(hle h hh).of_done hr]
    rfl
  | call a v c k ih =>
    intro p hp hle
    let K : Nat → Res Unit → Prog α β := fun h => match p h with
      | .call _ _ _ k => k
      | _ => fun _ => .done .timeout
    have hK : ∀ h, f ≤ h → p h = .call a v c (K h) ∧ ∀ r, (k r).Le (K h r) := by
      intro h hh
      obtain ⟨k', e, hk⟩ := hle h hh
      have : K h = k' := by simp only [K, e]
      rw [this]
      exact ⟨e, hk⟩
    have hKf : ∀ r, K f r = k r := by
      intro r
      simp only [K, hp]
    have hr := hrec a v c
    rw [interpW]
    generalize recW a v c = w at hr
    match w, hr with
    | .need d, hr =>
      refine ⟨hr.1, fun s' hs' => ?_⟩
      obtain ⟨h0, hh⟩ := hr.2 s' hs'
      refine ⟨max f h0, fun h hle => ?_⟩
      change interpS (rec h) (p h) s = interpS (rec h) (p h) s'
      rw [(hK h (by omega)).1]
      simp only [interpS, hh h (by omega)]
    | .got .timeout, hr =>
      refine ⟨fun t ht => ?_, fun h => absurd rfl h, fun _ e => by cases e⟩
      change interpS (rec f) (p f) t = _
      rw [(hK f (Nat.le_refl f)).1]
      exact interpS_call_timeout (hr.1 t ht)
    | .got (.ok u), hr =>
      have main := ih (.ok u) (fun h => K h (.ok u)) (hKf _) fun h hh => (hK h hh).2 _
      have step : ∀ h, f ≤ h → ∀ t, Keeps s t → interpS (rec h) (p h) t = interpS (rec h) (K h (.ok u)) t := by
        intro h hh t ht
        rw [(hK h hh).1]
        exact interpS_call (hr.2.1 (by simp) t ht h hh) (by simp)
      simp only
      generalize interpW recW (k (.ok u)) = w' at main
      match w', main with
      | .got y, main =>
        exact ⟨fun t ht => (step f (Nat.le_refl f) t ht).trans (main.1 t ht), fun hy t ht h hh => (step h hh t ht).trans (main.2.1 hy t ht h hh), fun _ _ => trivial⟩
      | .need d, main =>
        refine ⟨main.1, fun s' hs' => ?_⟩
        obtain ⟨h0, hh⟩ := main.2 s' hs'
        exact ⟨max f h0, fun h hle => (step h (by omega) s (.refl s)).trans ((hh h (by omega)).trans (step h (by omega) s' hs'.keeps).symm)⟩
    | .got (.err u), hr =>
      have main := ih (.err u) (fun h => K h (.err u)) (hKf _) fun h hh => (hK h hh).2 _
      have step : ∀ h, f ≤ h → ∀ t, Keeps s t → interpS (rec h) (p h) t = interpS (rec h) (K h (.err u)) t := by
        intro h hh t ht
        rw [(hK h hh).1]
        exact interpS_call (hr.2.1 (by simp) t ht h hh) (by simp)
      simp only
      generalize interpW recW (k (.err u)) = w' at main
      match w', main with
      | .got y, main =>
        exact ⟨fun t ht => (step f (Nat.le_refl f) t ht).trans (main.1 t ht), fun hy t ht h hh => (step h hh t ht).trans (main.2.1 hy t ht h hh), fun _ _ => trivial⟩
      | .need d, main =>
        refine ⟨main.1, fun s' hs' => ?_⟩
        obtain ⟨h0, hh⟩ := main.2 s' hs'
        exact ⟨max f h0, fun h hle => (step h (by omega) s (.refl s)).trans ((hh h (by omega)).trans (step h (by omega) s' hs'.keeps).symm)⟩

variable (hw : Whole s)
include hw

theorem validateO_does (voc : List Kw) (i : Nat) (v : Val) (ctx : Ctx) (hi : InView s i) :
    Does E s f (fun h => validateO E voc h i v ctx) (fun _ => True) (validateW s E.w voc f i v ctx) := by
  induction f generalizing i v ctx with
  | zero => exact .zero fun _ => rfl
  | succ f ih =>
    refine Does.shift (X := fun h => do
      match ← sightS E h i with
      | .bool b => if b then pure () else raise (raisePlain ctx.path)
      | .obj items => do
        let d ← lookS E h (loadAllL E.w id items voc [])
        interpS (validateO E voc h) (progAll E.w h v ctx d)
      | x => lookS E h (loadOtherL x voc)) ?_ fun h => rfl
    refine (sight_does hw i hi).bind fun x hx _ => ?_
    have other : ∀ x, SightIn s x → Does E s f (fun h => lookS E h (loadOtherL x voc)) (fun _ => True) (lookW s f (loadOtherL x voc)) := by
      intro x hx
      obtain ⟨y, rfl⟩ := lift_sight hx
      exact (look_does hw _ _ (loadOtherL_like y voc)).weaken fun _ _ _ => trivial
    cases x with
    | bool b =>
      cases b
      · exact .raise
      · exact .pure trivial
    | obj items =>
      obtain ⟨ys, rfl⟩ := lift_inD hx
      refine (look_does hw _ _ (loadAllL_like ys E.w voc [])).bind fun d hd _ => ?_
      obtain ⟨d, rfl⟩ := hd
      simp only [progAll_map, interpS_map, interpW_map]
      exact interp_does (rec := fun h (a : {i // InView s i}) => validateO E voc h a.1) (recW := fun a => validateW s E.w voc f a.1) (fun a v c => ih a.1 v c a.2) _
        (fun h => progAll E.w h v ctx d) rfl fun h hh => progAll_fuel E.w hh v ctx d
    | null => exact other _ hx
    | num n => exact other _ hx
    | str t => exact other _ hx
    | arr xs => exact other _ hx

theorem validateS_does (d : Nat) (hd : d < s.docs.length) (v : Val) : Does E s f (fun h => validateS E h d v) (fun _ => True) (validateSW s E.w f d v) := by
  have ha := does_all (E := E) hw f
  refine (ha.load d hd).bind fun _ ⟨x, hx, hr⟩ _ => ?_
  refine (schema_does hx hr).bind fun y hy _ => ?_
  subst hy
  refine (ha.kind _ (.value hx hr)).bind fun k _ _ => ?_
  cases k with
  | object => exact validateO_does hw _ _ _ _ (.value hx hr)
  | _ => exact .pure trivial

end
end Verif.Obj
