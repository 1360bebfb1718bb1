import Verif.Proofs.Subs
import Verif.Proofs.Multi
/-!
# Keywords commute

The change a keyword makes is confined to one entry of the validator dictionary (`Upd.slot`), and two different keywords
change different entries or different parts of one entry.
-/

namespace Verif

variable {α : Type}

/-- Dictionaries with the same entries, whatever their order. -/
def Same (d d' : Data α) : Prop := ∀ s, dictGet s d = dictGet s d'

def objIn : Option (V α) → ObjV α
  | some (.object o) => o
  | _ => {}

def condIn : Option (V α) → Option α × Option α × Option α
  | some (.cond i t e) => (i, t, e)
  | _ => (none, none, none)

def arrayIn : Option (V α) → Option (List α) × Option α
  | some (.array p i) => (p, i)
  | _ => (none, none)

theorem objOf_in (d : Data α) : objOf d = objIn (dictGet c!"properties" d) := by
  unfold objOf objIn; split <;> simp_all

theorem condOf_in (d : Data α) : condOf d = condIn (dictGet c!"if" d) := by
  unfold condOf condIn; split <;> simp_all

theorem arrayOf_in (k : Str) (d : Data α) : arrayOf k d = arrayIn (dictGet k d) := by
  unfold arrayOf arrayIn; split <;> simp_all

/-- The entry an update changes, and how. -/
def Upd.slot (key : Str) : Upd α → Option (Str × (Option (V α) → V α))
  | .nop => none
  | .set x => some (key, fun _ => x)
  | .props kvs => some (c!"properties", fun o => .object { objIn o with props := kvs.foldl (fun p x => dictSet x.1 x.2 p) (objIn o).props })
  | .patterns kvs => some (c!"properties", fun o => .object { objIn o with patterns := some kvs })
  | .additional s => some (c!"properties", fun o => .object { objIn o with additional := s.or (objIn o).additional })
  | .unevaluated b => some (c!"properties", fun o => .object { objIn o with unevaluated := b || (objIn o).unevaluated })
  | .names a => some (c!"properties", fun o => .object { objIn o with names := some a })
  | .ifs a => some (c!"if", fun o => .cond (some a) (condIn o).2.1 (condIn o).2.2)
  | .thens a => some (c!"if", fun o => .cond (condIn o).1 (some a) (condIn o).2.2)
  | .elses a => some (c!"if", fun o => .cond (condIn o).1 (condIn o).2.1 (some a))
  | .itemsArr ps its => some (c!"items", fun o => .array (some ps) (its.or (arrayIn o).2))
  | .itemsOne its => some (c!"items", fun o => .array (arrayIn o).1 (its.or (arrayIn o).2))
  | .pre xs => some (c!"prefixItems", fun _ => .array (some xs) none)

def slotSet (s : Option (Str × (Option (V α) → V α))) (d : Data α) : Data α :=
  match s with
  | none => d
  | some (s, φ) => dictSet s (φ (dictGet s d)) d

theorem Upd.apply_slot (key : Str) (u : Upd α) (d : Data α) (h : ∀ xs, u = .pre xs → dictHas c!"items" d = false) :
    u.apply key d = .ok (slotSet (u.slot key) d) := by
  cases u with
  | pre xs => simp [Upd.apply, h xs rfl, slotSet, Upd.slot]
  | _ => simp [Upd.apply, slotSet, Upd.slot, setObj, objOf_in, condOf_in, arrayOf_in]

theorem slotSet_get (s : Option (Str × (Option (V α) → V α))) (d : Data α) (t : Str) :
    dictGet t (slotSet s d) = match s with
      | none => dictGet t d
      | some (s, φ) => if s = t then some (φ (dictGet t d)) else dictGet t d := by
  cases s with
  | none => rfl
  | some p =>
    obtain ⟨s, φ⟩ := p
    simp only [slotSet, dictGet_set]
    split
    · rename_i e; rw [e]
    · rfl

theorem slotSet_same (s : Option (Str × (Option (V α) → V α))) {d d' : Data α} (h : Same d d') : Same (slotSet s d) (slotSet s d') := by
  intro t; rw [slotSet_get, slotSet_get, h t]

theorem slotSet_nodup (s : Option (Str × (Option (V α) → V α))) (d : Data α) (h : (d.map Prod.fst).Nodup) :
    ((slotSet s d).map Prod.fst).Nodup := by
  cases s with
  | none => exact h
  | some p => exact nodup_set _ _ _ h

/-- The updates a keyword makes. -/
def Upd.fits' : Kw → Upd α → Prop
  | _, .nop => True
  | k, .set _ => k.group ≠ .properties ∧ k.group ≠ .if ∧ k.group ≠ .items
  | k, .props _ => k = .properties
  | k, .patterns _ => k = .patternProperties
  | k, .additional _ => k = .additionalProperties
  | k, .unevaluated _ => k = .unevaluatedProperties
  | k, .names _ => k = .propertyNames
  | k, .ifs _ => k = .if
  | k, .thens _ => k = .then
  | k, .elses _ => k = .else
  | k, .itemsArr _ _ => k = .items
  | k, .itemsOne _ => k = .items
  | k, .pre _ => k = .prefixItems

theorem readKw_fits' (w : World) (view : Node → Res Node) (mk : Node → α) (items : List (Str × Node)) (k : Kw)
    (u : Upd α) (h : readKw w view mk items k = .ok u) : u.fits' k := by
  revert u
  change Res.All (fun u : Upd α => u.fits' k) (readKw w view mk items k)
  cases k <;> simp only [readKw] <;>
    repeat' first
      | exact Res.All.err
      | exact Res.All.ok (by simp [Upd.fits', Kw.group])
      | (refine Res.All.bind fun _ => ?_)
      | split

theorem Upd.comm {k k' : Kw} (hk : k ≠ k') {u u' : Upd α} (hu : u.fits' k) (hu' : u'.fits' k') {s : Str}
    {φ φ' : Option (V α) → V α} (h : u.slot k.key = some (s, φ)) (h' : u'.slot k'.key = some (s, φ')) (o : Option (V α)) :
    φ' (some (φ o)) = φ (some (φ' o)) := by
  have key : ∀ (k : Kw) (t : Kw), k.key = t.key → k = t := fun k t e => key_inj e
  have hkk : k.key ≠ k'.key := fun e => hk (key_inj e)
  have p1 : ∀ k : Kw, k.group ≠ .properties → k.key ≠ c!"properties" := fun k hg e => hg (by rw [key k .properties e]; rfl)
  have p2 : ∀ k : Kw, k.group ≠ .if → k.key ≠ c!"if" := fun k hg e => hg (by rw [key k .if e]; rfl)
  have p3 : ∀ k : Kw, k.group ≠ .items → k.key ≠ c!"items" := fun k hg e => hg (by rw [key k .items e]; rfl)
  have p4 : ∀ k : Kw, k.group ≠ .items → k.key ≠ c!"prefixItems" := fun k hg e => hg (by rw [key k .prefixItems e]; rfl)
  cases u with
  | nop => simp [Upd.slot] at h
  | set x =>
    simp only [Upd.slot, Option.some.injEq, Prod.mk.injEq] at h
    obtain ⟨rfl, rfl⟩ := h
    simp only [Upd.fits'] at hu
    cases u' <;> simp only [Upd.slot, Option.some.injEq, Prod.mk.injEq, reduceCtorEq] at h' <;> obtain ⟨e, _⟩ := h' <;>
      first
        | exact absurd e.symm hkk
        | exact absurd e.symm (p1 k hu.1)
        | exact absurd e.symm (p2 k hu.2.1)
        | exact absurd e.symm (p3 k hu.2.2)
        | exact absurd e.symm (p4 k hu.2.2)
  | _ =>
    simp only [Upd.fits'] at hu
    subst hu
    simp only [Upd.slot, Option.some.injEq, Prod.mk.injEq] at h
    obtain ⟨rfl, rfl⟩ := h
    cases u' <;> simp only [Upd.slot, Option.some.injEq, Prod.mk.injEq, reduceCtorEq] at h' <;> obtain ⟨e, e'⟩ := h' <;>
      simp only [Upd.fits'] at hu' <;>
      first
        | exact absurd e (p1 k' hu'.1)
        | exact absurd e (p2 k' hu'.2.1)
        | exact absurd e (p3 k' hu'.2.2)
        | exact absurd e (p4 k' hu'.2.2)
        | (subst hu'; exact absurd rfl hk)
        | (subst e'; rfl)
        | (exact absurd e (by decide))

theorem slotSet_comm {k k' : Kw} {u u' : Upd α} (hk : k ≠ k') (hu : u.fits' k) (hu' : u'.fits' k') (d : Data α) :
    Same (slotSet (u'.slot k'.key) (slotSet (u.slot k.key) d)) (slotSet (u.slot k.key) (slotSet (u'.slot k'.key) d)) := by
  intro t
  cases h : u.slot k.key with
  | none => simp [slotSet]
  | some p =>
    cases h' : u'.slot k'.key with
    | none => simp [slotSet]
    | some p' =>
      obtain ⟨s, φ⟩ := p
      obtain ⟨s', φ'⟩ := p'
      simp only [slotSet_get]
      by_cases e : s = t
      · by_cases e' : s' = t
        · subst e; subst e'
          simp [Upd.comm hk hu hu' h h' (dictGet s' d)]
        · simp [e, e']
      · by_cases e' : s' = t <;> simp [e, e']

section
variable (w : World) (view : Node → Res Node) (mk : Node → α) (items : List (Str × Node))

/-- The keyword is looked at for this schema object. -/
def Applies (k : Kw) : Prop := k.isAssertion = true ∧ dictHas k.key items = true

instance (k : Kw) : Decidable (Applies items k) := inferInstanceAs (Decidable (_ ∧ _))

/-- One keyword, as a change of the dictionary. -/
def stepKw (d : Data α) (k : Kw) : Data α :=
  if Applies items k then
    match readKw w view mk items k with
    | .ok u => slotSet (u.slot k.key) d
    | _ => d
  else d

theorem loadAll_fold (voc : List Kw) (d : Data α)
    (hpre : .prefixItems ∈ voc → Applies items .prefixItems → dictHas c!"items" d = false ∧ ¬ (.items ∈ voc ∧ Applies items .items)) :
    ((∀ k ∈ voc, Applies items k → ∃ u, readKw w view mk items k = .ok u) →
      loadAll w view mk items voc d = (voc.foldl (stepKw w view mk items) d, .ok ())) ∧
    ((loadAll w view mk items voc d).2 = .ok () → ∀ k ∈ voc, Applies items k → ∃ u, readKw w view mk items k = .ok u) := by
  induction voc generalizing d with
  | nil => simp [loadAll]
  | cons k ks ih =>
    rw [loadAll, List.foldl_cons]
    by_cases ha : Applies items k
    · rw [if_pos (by simpa [Applies] using ha), applyKw_eq]
      have hs : stepKw w view mk items d k = match readKw w view mk items k with
        | .ok u => slotSet (u.slot k.key) d
        | _ => d := by simp [stepKw, ha]
      cases hr : readKw w view mk items k with
      | ok u =>
        rw [hr] at hs
        have hf := readKw_fits' w view mk items k u hr
        have hap : u.apply k.key d = .ok (slotSet (u.slot k.key) d) := by
          refine Upd.apply_slot _ _ _ fun xs e => ?_
          subst e
          simp only [Upd.fits'] at hf
          subst hf
          exact (hpre (by simp) ha).1
        simp only [Res.ok_bind, hap]
        have key := ih (slotSet (u.slot k.key) d) (by
          intro hm hp
          obtain ⟨h1, h2⟩ := hpre (by simp [hm]) hp
          refine ⟨?_, fun h => h2 ⟨by simp [h.1], h.2⟩⟩
          unfold dictHas
          rw [slotSet_get]
          unfold dictHas at h1
          cases e : u.slot k.key with
          | none => exact h1
          | some p =>
            obtain ⟨s, φ⟩ := p
            simp only
            rw [if_neg]
            · exact h1
            · intro e'
              subst e'
              refine h2 ⟨?_, ?_⟩
              · suffices k = .items by simp [this]
                cases u <;> simp only [Upd.slot, Option.some.injEq, Prod.mk.injEq, reduceCtorEq] at e <;> simp only [Upd.fits'] at hf <;>
                  first
                    | exact hf
                    | exact key_inj e.1
                    | exact absurd e.1 (by decide)
              · suffices k = .items by rw [← this]; exact ha
                cases u <;> simp only [Upd.slot, Option.some.injEq, Prod.mk.injEq, reduceCtorEq] at e <;> simp only [Upd.fits'] at hf <;>
                  first
                    | exact hf
                    | exact key_inj e.1
                    | exact absurd e.1 (by decide))
        simp only at hs
        rw [hs]
        refine ⟨fun h => key.1 fun k' hk' => h k' (by simp [hk']), fun h k' hk' hak' => ?_⟩
        rcases List.mem_cons.1 hk' with rfl | hk'
        · exact ⟨u, hr⟩
        · exact key.2 h k' hk' hak'
      | err e =>
        refine ⟨fun h => ?_, fun h => by simp at h⟩
        obtain ⟨u, hu⟩ := h k (by simp) ha
        rw [hu] at hr; cases hr
      | timeout =>
        refine ⟨fun h => ?_, fun h => by simp at h⟩
        obtain ⟨u, hu⟩ := h k (by simp) ha
        rw [hu] at hr; cases hr
    · rw [if_neg (by simpa [Applies] using ha)]
      have hs : stepKw w view mk items d k = d := by simp [stepKw, ha]
      rw [hs]
      have key := ih d (fun hm hp => ⟨(hpre (by simp [hm]) hp).1, fun h => (hpre (by simp [hm]) hp).2 ⟨by simp [h.1], h.2⟩⟩)
      refine ⟨fun h => key.1 fun k' hk' => h k' (by simp [hk']), fun h k' hk' hak' => ?_⟩
      rcases List.mem_cons.1 hk' with rfl | hk'
      · exact absurd hak' ha
      · exact key.2 h k' hk' hak'

theorem stepKw_same {d d' : Data α} (h : Same d d') (k : Kw) : Same (stepKw w view mk items d k) (stepKw w view mk items d' k) := by
  unfold stepKw
  split
  · split
    · exact slotSet_same _ h
    · exact h
  · exact h

theorem fold_same (voc : List Kw) {d d' : Data α} (h : Same d d') :
    Same (voc.foldl (stepKw w view mk items) d) (voc.foldl (stepKw w view mk items) d') := by
  induction voc generalizing d d' with
  | nil => exact h
  | cons k ks ih => exact ih (stepKw_same w view mk items h k)

theorem stepKw_comm (d : Data α) (k k' : Kw) :
    Same (stepKw w view mk items (stepKw w view mk items d k) k') (stepKw w view mk items (stepKw w view mk items d k') k) := by
  by_cases hk : k = k'
  · subst hk; exact fun _ => rfl
  · have e : ∀ (k : Kw), (∀ d, stepKw w view mk items d k = d) ∨
        ∃ u, readKw w view mk items k = .ok u ∧ ∀ d, stepKw w view mk items d k = slotSet (u.slot k.key) d := by
      intro k
      by_cases ha : Applies items k
      · cases hr : readKw w view mk items k with
        | ok u => exact .inr ⟨u, rfl, fun d => by simp [stepKw, ha, hr]⟩
        | _ => exact .inl fun d => by simp [stepKw, ha, hr]
      · exact .inl fun d => by simp [stepKw, ha]
    rcases e k with h | ⟨u, hr, h⟩
    · rw [h, h]; exact fun _ => rfl
    · rcases e k' with h' | ⟨u', hr', h'⟩
      · rw [h', h']; exact fun _ => rfl
      · rw [h, h', h', h]
        exact slotSet_comm hk (readKw_fits' _ _ _ _ _ _ hr) (readKw_fits' _ _ _ _ _ _ hr') d

theorem fold_perm {voc voc' : List Kw} (h : voc.Perm voc') {d d' : Data α} (hd : Same d d') :
    Same (voc.foldl (stepKw w view mk items) d) (voc'.foldl (stepKw w view mk items) d') := by
  induction h generalizing d d' with
  | nil => exact hd
  | cons k _ ih => exact ih (stepKw_same w view mk items hd k)
  | swap k k' l =>
    refine fold_same w view mk items l ?_
    intro s
    rw [stepKw_comm w view mk items d k' k s]
    exact stepKw_same w view mk items (stepKw_same w view mk items hd k) k' s
  | trans _ _ ih ih' => exact fun s => (ih hd s).trans (ih' (fun _ => rfl) s)

theorem fold_nodup (voc : List Kw) (d : Data α) (h : (d.map Prod.fst).Nodup) :
    ((voc.foldl (stepKw w view mk items) d).map Prod.fst).Nodup := by
  induction voc generalizing d with
  | nil => exact h
  | cons k ks ih =>
    refine ih _ ?_
    unfold stepKw
    split
    · split
      · exact slotSet_nodup _ _ h
      · exact h
    · exact h

end

end Verif
