import Verif.Proofs.LoadPlain
/-! # What no program on documents changes -/

namespace Verif.Obj
open Verif

/-- The program relates the state before to the state after, whatever it returns. -/
def Pres {α : Type} (R : St → St → Prop) (x : M α) : Prop := ∀ s, R s (x s).2

/-- Ready schemas stay ready, no schema or object goes away, and objects keep their parents and keys. -/
structure Later (s s' : St) : Prop where
  ready : ∀ (d : Nat) (x : Schema), s.docs[d]? = some x → ∃ y : Schema, s'.docs[d]? = some y ∧ y.vocabulary = x.vocabulary ∧ (x.ready = true → y.ready = true)
  slots : SameSlots s.mem s'.mem

theorem Later.refl (s : St) : Later s s := ⟨fun _ x h => ⟨x, h, rfl, fun h => h⟩, SameSlots.refl _⟩
theorem Later.trans {a b c : St} (h : Later a b) (h' : Later b c) : Later a c := by
  refine ⟨fun d x hx => ?_, h.slots.trans h'.slots⟩
  obtain ⟨y, hy, e, r⟩ := h.ready d x hx
  obtain ⟨z, hz, e', r'⟩ := h'.ready d y hy
  exact ⟨z, hz, e'.trans e, fun h => r' (r h)⟩

section
variable {α β : Type}

theorem Pres.bind {x : M α} {f : α → M β} (hx : Pres Later x) (hf : ∀ a, Pres Later (f a)) : Pres Later (x >>= f) := by
  intro s
  rw [M.bind_apply]
  have h := hx s
  cases e : x s with
  | mk r s1 =>
    rw [e] at h
    cases r with
    | ok a => exact h.trans (hf a s1)
    | err e => exact h
    | timeout => exact h

theorem pres_pure (a : α) : Pres Later (Pure.pure a : M α) := fun s => .refl s
theorem pres_lift (x : Res α) : Pres Later (lift x) := fun s => .refl s
theorem pres_raise (e : PyErr) : Pres Later (raise e : M α) := fun s => .refl s
theorem pres_state : Pres Later state := fun s => .refl s
theorem pres_cell (i : Nat) : Pres Later (cell i) := by
  intro s; unfold Obj.cell; split <;> exact .refl s
theorem pres_schema (i : Nat) : Pres Later (schema i) := by
  intro s; unfold Obj.schema; split <;> exact .refl s
theorem pres_setStorage (x : List (Str × Nat)) : Pres Later (setStorage x) :=
  fun _ => ⟨fun _ x h => ⟨x, h, rfl, fun h => h⟩, SameSlots.refl _⟩

theorem SameSlots.append (m ext : Mem) : SameSlots m (m ++ ext) := by
  intro i c h
  exact ⟨c, by rw [List.getElem?_append_left (List.getElem?_eq_some_iff.1 h).1]; exact h, rfl, rfl⟩

theorem SameSlots.setShape {m : Mem} {i : Nat} {c : Cell} (h : m[i]? = some c) (sh : Shape) :
    SameSlots m (m.set i { c with shape := sh }) := by
  intro j x hx
  by_cases e : i = j
  · subst e
    rw [h] at hx; cases hx
    refine ⟨{ c with shape := sh }, ?_, rfl, rfl⟩
    rw [List.getElem?_set_self (List.getElem?_eq_some_iff.1 h).1]
  · exact ⟨x, by rw [List.getElem?_set_ne e]; exact hx, rfl, rfl⟩

theorem pres_setShape (i : Nat) (sh : Shape) : Pres Later (setShape i sh) := by
  intro s; unfold Obj.setShape; split
  · next h => exact ⟨fun _ x h => ⟨x, h, rfl, fun h => h⟩, SameSlots.setShape h sh⟩
  · exact .refl s

theorem pres_newCell (c : Cell) : Pres Later (newCell c) :=
  fun _ => ⟨fun _ x h => ⟨x, h, rfl, fun h => h⟩, SameSlots.append _ _⟩

theorem pres_newSchema (c : Schema) : Pres Later (newSchema c) :=
  fun _ => ⟨fun _ x h => ⟨x, by rw [Obj.newSchema, List.getElem?_append_left (List.getElem?_eq_some_iff.1 h).1]; exact h, rfl, fun h => h⟩,
    SameSlots.refl _⟩

/-- Reading a schema and writing it back with changes that keep it ready. -/
theorem pres_update (d : Nat) (g : Schema → Schema) (k : M β) (hg : ∀ x, (g x).vocabulary = x.vocabulary ∧ (x.ready = true → (g x).ready = true))
    (hk : Pres Later k) : Pres Later (schema d >>= fun s => setSchema d (g s) >>= fun _ => k) := by
  intro s
  cases h : s.docs[d]? with
  | none =>
    have : schema d s = (.err .unmodelled, s) := by simp [Obj.schema, h]
    rw [M.bind_err this]; exact .refl s
  | some x =>
    rw [M.bind_ok (schema_apply h)]
    have : setSchema d (g x) s = (.ok (), { s with docs := s.docs.set d (g x) }) := rfl
    rw [M.bind_ok this]
    refine Later.trans (b := { s with docs := s.docs.set d (g x) }) ⟨fun j y hy => ?_, SameSlots.refl _⟩ (hk _)
    by_cases e : d = j
    · subst e
      rw [h] at hy; cases hy
      exact ⟨g x, by rw [List.getElem?_set_self (List.getElem?_eq_some_iff.1 h).1], (hg x).1, (hg x).2⟩
    · exact ⟨y, by rw [List.getElem?_set_ne e]; exact hy, rfl, fun h => h⟩

theorem pres_eachL {f : Nat → M α} (hf : ∀ i, Pres Later (f i)) : ∀ xs, Pres Later (eachL f xs)
  | [] => pres_pure _
  | x :: xs => by
    unfold Obj.eachL
    exact (hf x).bind fun _ => (pres_eachL hf xs).bind fun _ => pres_pure _

theorem pres_eachD {f : Nat → M α} (hf : ∀ i, Pres Later (f i)) : ∀ xs, Pres Later (eachD f xs)
  | [] => pres_pure _
  | (k, x) :: xs => by
    unfold Obj.eachD
    exact (hf x).bind fun _ => (pres_eachD hf xs).bind fun _ => pres_pure _

theorem pres_newDocument (v : Val) (voc : List Kw) : Pres Later (newDocument v voc) := by
  have key : (∃ xs, v = .list xs) ∨ (∃ kvs, v = .dict kvs) → Pres Later (newDocument v voc) := by
    intro h s
    obtain ⟨ext, -, e⟩ := newDocument_spec h voc s
    rw [e]
    exact (pres_newSchema ⟨s.mem.length, false, voc, [], none⟩ s).trans
      ⟨fun _ x h => ⟨x, h, rfl, fun h => h⟩, SameSlots.append _ _⟩
  cases v
  case list xs => exact key (.inl ⟨xs, rfl⟩)
  case dict xs => exact key (.inr ⟨xs, rfl⟩)
  all_goals exact pres_raise _

end

/-- The functions called with less fuel. -/
structure Ops.Pres (r : Ops) : Prop where
  kind : ∀ i, Obj.Pres Later (r.kind i)
  members : ∀ i, Obj.Pres Later (r.members i)
  elems : ∀ i, Obj.Pres Later (r.elems i)
  node : ∀ i, Obj.Pres Later (r.node i)
  query : ∀ d p, Obj.Pres Later (r.query d p)
  load : ∀ d, Obj.Pres Later (r.load d)
  process : ∀ d k i, Obj.Pres Later (r.process d k i)

section
variable (E : Env) {r : Ops} (hr : r.Pres)
include hr

theorem kindS_pres (i : Nat) : Pres Later (kindS r i) := by
  unfold kindS
  refine (pres_cell i).bind fun c => ?_
  split <;> first | exact pres_pure _ | exact (hr.query _ _).bind fun _ => hr.kind _

theorem membersS_pres (i : Nat) : Pres Later (membersS r i) := by
  unfold membersS
  refine (pres_cell i).bind fun c => ?_
  split
  · exact pres_pure _
  · refine (pres_schema _).bind fun s => ?_
    split
    · exact hr.members _
    · refine (hr.query _ _).bind fun _ => (hr.kind _).bind fun _ => ?_
      split
      · exact pres_raise _
      · exact (hr.members _).bind fun _ => (hr.members _).bind fun _ => pres_pure _
  · exact pres_raise _

theorem elemsS_pres (i : Nat) : Pres Later (elemsS r i) := by
  unfold elemsS
  refine (pres_cell i).bind fun c => ?_
  split
  · exact pres_pure _
  · refine (pres_schema _).bind fun s => ?_
    split
    · exact pres_raise _
    · exact (hr.query _ _).bind fun _ => hr.elems _
  · exact pres_raise _

omit hr in
theorem intIn_pres (i : Int) : ∀ xs, Pres Later (intIn i xs)
  | [] => pres_pure _
  | x :: xs => by
    unfold intIn
    refine (pres_cell x).bind fun c => ?_
    split
    · split
      · exact pres_pure _
      · exact intIn_pres i xs
    · exact pres_raise _
    · exact pres_raise _
    · exact intIn_pres i xs

theorem nodeS_pres (i : Nat) : Pres Later (nodeS r i) := by
  unfold nodeS
  refine (pres_cell i).bind fun c => ?_
  split
  · exact pres_pure _
  · exact pres_pure _
  · exact pres_pure _
  · exact pres_pure _
  · exact (pres_eachL hr.node _).bind fun _ => pres_pure _
  · exact (pres_eachD hr.node _).bind fun _ => pres_pure _
  · refine (hr.node _).bind fun _ => ?_
    split
    · exact pres_pure _
    · exact pres_raise _

theorem item_pres (i : Nat) (k : Str) : Pres Later (item r i k) := by
  unfold item
  refine (hr.members i).bind fun c => ?_
  split
  · exact pres_pure _
  · exact pres_raise _

theorem itemText_pres (i : Nat) (k : Str) : Pres Later (itemText E r i k) := by
  unfold itemText
  exact (item_pres hr i k).bind fun _ => (hr.node _).bind fun _ => pres_pure _

theorem loadS_pres (d : Nat) : Pres Later (loadS r d) := by
  unfold loadS
  refine (pres_schema d).bind fun s => ?_
  split
  · exact pres_pure _
  · refine (hr.process _ _ _).bind fun v => ?_
    have := pres_update d (fun s => { s with value := v, ready := true }) (Pure.pure () : M Unit) (fun x => ⟨rfl, fun _ => rfl⟩) (pres_pure _)
    intro s
    have h := this s
    rw [M.bind_apply] at h ⊢
    cases e : schema d s with
    | mk a s1 =>
      rw [e] at h
      cases a <;> exact h

theorem walk_pres (ptr : List Str) (n : Nat) : Pres Later (walk r n ptr) := by
  induction ptr generalizing n with
  | nil => exact pres_pure _
  | cons k ks ih =>
    unfold walk
    refine (hr.kind n).bind fun t => ?_
    split
    · refine (pres_cell n).bind fun c => ?_
      split
      · split
        · exact pres_raise _
        · split
          · exact pres_raise _
          · exact (pres_lift _).bind fun x => ih x
      · split
        · exact pres_raise _
        · split
          · exact pres_raise _
          · refine (hr.elems n).bind fun xs => (intIn_pres _ xs).bind fun b => ?_
            split
            · exact (pres_lift _).bind fun x => ih x
            · exact pres_raise _
    · exact (item_pres hr n k).bind fun x => ih x
    · exact pres_raise _

theorem queryS_pres (d : Nat) (ptr : List Str) : Pres Later (queryS r d ptr) := by
  unfold queryS
  refine (hr.load d).bind fun _ => (pres_schema d).bind fun s => ?_
  split
  · split
    · exact pres_pure _
    · split
      · exact pres_pure _
      · exact walk_pres hr _ _
  · exact walk_pres hr _ _

omit hr in
theorem storeLoad_pres (u : Uri) (voc : List Kw) : Pres Later (storeLoad E u voc) := by
  unfold storeLoad
  refine (pres_lift _).bind fun t => pres_state.bind fun s => ?_
  split
  · exact pres_pure _
  · split
    · exact (pres_newDocument _ _).bind fun d => pres_state.bind fun s => (pres_setStorage _).bind fun _ => pres_pure _
    · exact pres_raise _
    · exact pres_raise _
    · exact pres_lift _

omit hr in
theorem storeAdd_pres (u : Uri) (d : Nat) : Pres Later (storeAdd E u d) := by
  unfold storeAdd
  refine (pres_lift _).bind fun t => ?_
  split
  · exact (pres_lift _).bind fun _ => pres_state.bind fun _ => pres_setStorage _
  · exact pres_raise _

theorem applyRef_pres (d n : Nat) : Pres Later (applyRef E r d n) := by
  unfold applyRef
  refine (itemText_pres E hr _ _).bind fun t => (pres_lift _).bind fun u => (pres_lift _).bind fun p => (pres_lift _).bind fun b =>
    (pres_cell _).bind fun c => ?_
  split
  · exact pres_newCell _
  · exact (pres_schema _).bind fun _ => (storeLoad_pres E _ _).bind fun _ => pres_newCell _

theorem applyAnchor_pres (d n : Nat) : Pres Later (applyAnchor E r d n) := by
  unfold applyAnchor
  refine (itemText_pres E hr _ _).bind fun t => ?_
  refine pres_update d (fun s => { s with anchors := dictSet t n s.anchors }) _ (fun x => ⟨rfl, fun h => h⟩) ?_
  refine (pres_cell _).bind fun c => ?_
  split
  · exact (pres_setShape _ _).bind fun _ => pres_pure _
  · exact pres_raise _

theorem childUri_pres (n : Nat) (u : Uri) : Pres Later (childUri E r n u) := by
  unfold childUri
  refine (pres_lift _).bind fun a => ?_
  split
  · exact pres_pure _
  · refine pres_state.bind fun s => (pres_lift _).bind fun t => (hr.members _).bind fun kvs => ?_
    split
    · exact (itemText_pres E hr _ _).bind fun _ => (pres_lift _).bind fun _ => pres_lift _
    · split
      · exact (itemText_pres E hr _ _).bind fun _ => (pres_lift _).bind fun _ => pres_lift _
      · exact pres_raise _

theorem applyId_pres (d n : Nat) : Pres Later (applyId E r d n) := by
  unfold applyId
  have ht : Pres Later (idText E r n) := by
    unfold idText
    refine (hr.members n).bind fun kvs => ?_
    split <;> exact itemText_pres E hr _ _
  refine ht.bind fun t => (pres_lift _).bind fun u => ?_
  split
  · exact pres_raise _
  · refine (pres_cell _).bind fun c => ?_
    split
    · refine pres_update d (fun s => { s with ident := some u }) _ (fun x => ⟨rfl, fun h => h⟩) ?_
      refine (pres_lift _).bind fun t => pres_state.bind fun s => ?_
      split
      · exact pres_pure _
      · exact (storeAdd_pres E _ _).bind fun _ => pres_pure _
    · refine pres_state.bind fun s => (pres_lift _).bind fun p => ?_
      split
      · exact pres_pure _
      · refine (childUri_pres E hr _ _).bind fun u => ?_
        split
        · exact (pres_schema _).bind fun s => (pres_newSchema _).bind fun c => (storeAdd_pres E _ _).bind fun _ => pres_pure _
        · exact pres_raise _

theorem applyAll_pres (d : Nat) (ks : List Kw) (n : Nat) : Pres Later (applyAll E r d ks n) := by
  induction ks generalizing n with
  | nil => exact pres_pure _
  | cons k ks ih =>
    unfold applyAll
    have : Pres Later (canApply r k n) := (hr.members n).bind fun _ => pres_pure _
    refine this.bind fun b => ?_
    split
    · refine Pres.bind ?_ fun n' => ih n'
      unfold applyCore
      split
      · exact applyRef_pres E hr _ _
      · exact applyAnchor_pres E hr _ _
      · exact applyId_pres E hr _ _
      · exact pres_raise _
    · exact ih n

theorem processS_pres (d : Nat) (ks : List Kw) (n : Nat) : Pres Later (processS E r d ks n) := by
  unfold processS
  refine (hr.kind n).bind fun t => ?_
  split
  · exact pres_pure _
  · refine (hr.members n).bind fun kvs => (pres_eachD (hr.process d ks) _).bind fun kvs' => Pres.bind ?_ fun _ => applyAll_pres E hr _ _ _
    unfold setMembers
    refine (pres_cell n).bind fun c => ?_
    split
    · exact pres_setShape _ _
    · exact pres_raise _

end

theorem ops_pres (E : Env) : ∀ f, (ops E f).Pres
  | 0 => ⟨fun _ => pres_lift _, fun _ => pres_lift _, fun _ => pres_lift _, fun _ => pres_lift _, fun _ _ => pres_lift _, fun _ => pres_lift _, fun _ _ _ => pres_lift _⟩
  | f + 1 =>
    have h := ops_pres E f
    ⟨kindS_pres h, membersS_pres h, elemsS_pres h, nodeS_pres h, queryS_pres h, loadS_pres h, processS_pres E h⟩

theorem call_pres (E : Env) (f : Nat) (c : Call) : Pres Later (call E f c) := by
  have h := ops_pres E f
  cases c with
  | create v voc => exact (pres_newDocument v voc).bind fun _ => pres_pure _
  | load d => exact (h.load d).bind fun _ => pres_pure _
  | value d => exact (h.load d).bind fun _ => (pres_schema d).bind fun _ => pres_pure _
  | query d t => exact (pres_lift _).bind fun _ => (h.query _ _).bind fun _ => pres_pure _

theorem calls_later (E : Env) (f : Nat) (cs : List Call) (s : St) : Later s (calls E f cs s).2 := by
  induction cs generalizing s with
  | nil => exact .refl s
  | cons c cs ih => exact (call_pres E f c s).trans (ih _)

/-- A successful load leaves the schema ready. -/
theorem load_ready {E : Env} {f d : Nat} {s s' : St} (h : (ops E f).load d s = (.ok (), s')) :
    ∃ x, s'.docs[d]? = some x ∧ x.ready = true := by
  cases f with
  | zero => exact absurd h (by simp [ops, Ops.none])
  | succ f =>
    rw [load_eq] at h
    unfold loadS at h
    cases hd : s.docs[d]? with
    | none =>
      have : schema d s = (.err .unmodelled, s) := by simp [Obj.schema, hd]
      rw [M.bind_err this] at h; cases h
    | some x =>
      rw [M.bind_ok (schema_apply hd)] at h
      split at h
      · next hx => cases h; exact ⟨x, hd, hx⟩
      · rw [M.bind_apply] at h
        split at h
        · next v s1 e =>
          cases hd1 : s1.docs[d]? with
          | none =>
            have : schema d s1 = (.err .unmodelled, s1) := by simp [Obj.schema, hd1]
            rw [M.bind_err this] at h; cases h
          | some y =>
            rw [M.bind_ok (schema_apply hd1)] at h
            cases h
            exact ⟨{ y with value := v, ready := true }, by simp [(List.getElem?_eq_some_iff.1 hd1).1], rfl⟩
        · cases h
        · cases h

/-- Loading a ready schema does nothing. -/
theorem load_again {E : Env} {f d : Nat} {s : St} {x : Schema} (h : s.docs[d]? = some x) (hr : x.ready = true) :
    (ops E (f + 1)).load d s = (.ok (), s) := by
  rw [load_eq]
  unfold loadS
  rw [M.bind_ok (schema_apply h), if_pos hr]
  rfl

end Verif.Obj
