import Verif.Proofs.Lazy
/-!
# The heap of lazy validators represents the fresh validators
-/

set_option linter.unusedSimpArgs false

namespace Verif
open Prog

/-! ## Addresses -/

/-- The node of the lazy validator at an address. -/
def nodeAt (h : Heap) (a : Nat) : Node :=
  match h[a]? with
  | some c => c.node
  | none => .null

/-- The later heap has the same validators, and maybe more. -/
def Later (h h' : Heap) : Prop := h.length ≤ h'.length ∧ ∀ a < h.length, nodeAt h' a = nodeAt h a

theorem Later.refl (h : Heap) : Later h h := ⟨Nat.le_refl _, fun _ _ => rfl⟩

theorem Later.trans {h h' h'' : Heap} (x : Later h h') (y : Later h' h'') : Later h h'' :=
  ⟨Nat.le_trans x.1 y.1, fun a ha => by rw [y.2 a (Nat.lt_of_lt_of_le ha x.1), x.2 a ha]⟩

/-- New validators were made. -/
def Grow (h h' : Heap) : Prop := ∃ ns : List Node, h' = h ++ ns.map fun n => { node := n }

theorem Grow.refl (h : Heap) : Grow h h := ⟨[], by simp⟩

theorem Grow.trans {h h' h'' : Heap} (x : Grow h h') (y : Grow h' h'') : Grow h h'' := by
  obtain ⟨a, rfl⟩ := x
  obtain ⟨b, rfl⟩ := y
  exact ⟨a ++ b, by simp⟩

theorem Grow.later {h h' : Heap} (x : Grow h h') : Later h h' := by
  obtain ⟨ns, rfl⟩ := x
  refine ⟨by simp, fun a ha => ?_⟩
  unfold nodeAt
  rw [List.getElem?_append_left ha]

/-- All subschemas of a dictionary are in the heap. -/
def Inside (h : Heap) (d : Data Nat) : Prop := ∀ p ∈ d, ∀ a ∈ p.2.subs, a < h.length

theorem Inside.later {h h' : Heap} {d : Data Nat} (hd : Inside h d) (hl : Later h h') : Inside h' d :=
  fun p hp a ha => Nat.lt_of_lt_of_le (hd p hp a ha) hl.1

theorem Inside.map {h h' : Heap} {d : Data Nat} (hd : Inside h d) (hl : Later h h') : d.map (nodeAt h') = d.map (nodeAt h) :=
  Data.map_congr fun p hp a ha => hl.2 a (hd p hp a ha)

section alloc
variable (h0 : Heap)

/-- A subschema to be made, or one in the heap. -/
def Avail : Node ⊕ Nat → Prop
  | .inl _ => True
  | .inr a => a < h0.length

/-- The node of a subschema. -/
def want : Node ⊕ Nat → Node := Sum.elim id (nodeAt h0)

theorem alloc_spec (a : Node ⊕ Nat) (h : Heap) (hl : Later h0 h) (ha : Avail h0 a) :
    Grow h (alloc a h).2 ∧ (alloc a h).1 < (alloc a h).2.length ∧ nodeAt (alloc a h).2 (alloc a h).1 = want h0 a := by
  cases a with
  | inl n => exact ⟨⟨[n], rfl⟩, by simp [alloc], by simp [alloc, nodeAt, want]⟩
  | inr a => exact ⟨.refl _, Nat.lt_of_lt_of_le ha hl.1, hl.2 a ha⟩

theorem nodeAt_keep {h h' : Heap} (hl : Later h h') {xs : List Nat} (hx : ∀ a ∈ xs, a < h.length) :
    xs.map (nodeAt h') = xs.map (nodeAt h) := List.map_congr_left fun a ha => hl.2 a (hx a ha)

theorem nodeAt_keepD {h h' : Heap} (hl : Later h h') {xs : List (Str × Nat)} (hx : ∀ p ∈ xs, p.2 < h.length) :
    mapD (nodeAt h') xs = mapD (nodeAt h) xs := mapD_congr fun p hp => hl.2 _ (hx p hp)

theorem travL_spec (xs : List (Node ⊕ Nat)) (h : Heap) (hl : Later h0 h) (ha : ∀ a ∈ xs, Avail h0 a) :
    Grow h (travL alloc xs h).2 ∧ (∀ b ∈ (travL alloc xs h).1, b < (travL alloc xs h).2.length) ∧
      (travL alloc xs h).1.map (nodeAt (travL alloc xs h).2) = xs.map (want h0) := by
  induction xs generalizing h with
  | nil => exact ⟨.refl _, by simp [travL], rfl⟩
  | cons a as ih =>
    obtain ⟨g1, b1, n1⟩ := alloc_spec h0 a h hl (ha a (by simp))
    obtain ⟨g2, b2, n2⟩ := ih (alloc a h).2 (hl.trans g1.later) fun b hb => ha b (by simp [hb])
    refine ⟨g1.trans g2, ?_, ?_⟩
    · intro b hb
      simp only [travL, List.mem_cons] at hb ⊢
      rcases hb with rfl | hb
      · exact Nat.lt_of_lt_of_le b1 g2.later.1
      · exact b2 b hb
    · simp only [travL, List.map_cons, n2]
      rw [g2.later.2 _ b1, n1]

theorem travD_spec (xs : List (Str × (Node ⊕ Nat))) (h : Heap) (hl : Later h0 h) (ha : ∀ p ∈ xs, Avail h0 p.2) :
    Grow h (travD alloc xs h).2 ∧ (∀ p ∈ (travD alloc xs h).1, p.2 < (travD alloc xs h).2.length) ∧
      mapD (nodeAt (travD alloc xs h).2) (travD alloc xs h).1 = mapD (want h0) xs := by
  induction xs generalizing h with
  | nil => exact ⟨.refl _, by simp [travD], rfl⟩
  | cons a as ih =>
    obtain ⟨k, a⟩ := a
    obtain ⟨g1, b1, n1⟩ := alloc_spec h0 a h hl (ha (k, a) (by simp))
    obtain ⟨g2, b2, n2⟩ := ih (alloc a h).2 (hl.trans g1.later) fun b hb => ha b (by simp [hb])
    refine ⟨g1.trans g2, ?_, ?_⟩
    · intro b hb
      simp only [travD, List.mem_cons] at hb ⊢
      rcases hb with rfl | hb
      · exact Nat.lt_of_lt_of_le b1 g2.later.1
      · exact b2 b hb
    · simp only [travD, mapD_cons, n2]
      rw [g2.later.2 _ b1, n1]

theorem travO_spec (x : Option (Node ⊕ Nat)) (h : Heap) (hl : Later h0 h) (ha : ∀ a ∈ x, Avail h0 a) :
    Grow h (travO alloc x h).2 ∧ (∀ b ∈ (travO alloc x h).1, b < (travO alloc x h).2.length) ∧
      (travO alloc x h).1.map (nodeAt (travO alloc x h).2) = x.map (want h0) := by
  cases x with
  | none => exact ⟨.refl _, by simp [travO], rfl⟩
  | some a =>
    obtain ⟨g1, b1, n1⟩ := alloc_spec h0 a h hl (ha a rfl)
    exact ⟨g1, by simpa [travO] using b1, by simpa [travO] using n1⟩

theorem travSub_spec (x : Option (Sub (Node ⊕ Nat))) (h : Heap) (hl : Later h0 h) (ha : ∀ a, x = some (.lazy a) → Avail h0 a) :
    Grow h (travO (travSub alloc) x h).2 ∧ (∀ b, (travO (travSub alloc) x h).1 = some (.lazy b) → b < (travO (travSub alloc) x h).2.length) ∧
      (travO (travSub alloc) x h).1.map (Sub.map (nodeAt (travO (travSub alloc) x h).2)) = x.map (Sub.map (want h0)) := by
  rcases x with _ | (_ | a)
  · exact ⟨.refl _, by simp [travO], rfl⟩
  · exact ⟨.refl _, by simp [travO, travSub], rfl⟩
  · obtain ⟨g1, b1, n1⟩ := alloc_spec h0 a h hl (ha a rfl)
    exact ⟨g1, by simpa [travO, travSub] using b1, by simpa [travO, travSub, Sub.map] using n1⟩

theorem travV_spec (x : V (Node ⊕ Nat)) (h : Heap) (hl : Later h0 h) (ha : ∀ a ∈ x.subs, Avail h0 a) :
    Grow h (V.trav alloc x h).2 ∧ (∀ b ∈ (V.trav alloc x h).1.subs, b < (V.trav alloc x h).2.length) ∧
      (V.trav alloc x h).1.map (nodeAt (V.trav alloc x h).2) = x.map (want h0) := by
  have optL : ∀ (p : Option (List (Node ⊕ Nat))) (h : Heap), Later h0 h → (∀ a ∈ p.getD [], Avail h0 a) →
      Grow h (travO (travL alloc) p h).2 ∧ (∀ b ∈ (travO (travL alloc) p h).1.getD [], b < (travO (travL alloc) p h).2.length) ∧
      (travO (travL alloc) p h).1.map (List.map (nodeAt (travO (travL alloc) p h).2)) = p.map (List.map (want h0)) := by
    intro p h hl ha
    cases p with
    | none => exact ⟨.refl _, by simp [travO], rfl⟩
    | some p =>
      obtain ⟨g1, b1, n1⟩ := travL_spec h0 p h hl ha
      exact ⟨g1, by simpa [travO] using b1, by simpa [travO] using n1⟩
  have optD : ∀ (p : Option (List (Str × (Node ⊕ Nat)))) (h : Heap), Later h0 h → (∀ q ∈ p.getD [], Avail h0 q.2) →
      Grow h (travO (travD alloc) p h).2 ∧ (∀ b ∈ (travO (travD alloc) p h).1.getD [], b.2 < (travO (travD alloc) p h).2.length) ∧
      (travO (travD alloc) p h).1.map (mapD (nodeAt (travO (travD alloc) p h).2)) = p.map (mapD (want h0)) := by
    intro p h hl ha
    cases p with
    | none => exact ⟨.refl _, by simp [travO], rfl⟩
    | some p =>
      obtain ⟨g1, b1, n1⟩ := travD_spec h0 p h hl ha
      exact ⟨g1, by simpa [travO] using b1, by simpa [travO] using n1⟩
  have keepO : ∀ {h h' : Heap} (_ : Later h h') {o : Option Nat} (_ : ∀ a ∈ o, a < h.length), o.map (nodeAt h') = o.map (nodeAt h) := by
    intro h h' hl o ho
    cases o with
    | none => rfl
    | some a => exact congrArg some (hl.2 a (ho a rfl))
  cases x with
  | contains c mn mx =>
    obtain ⟨g1, b1, n1⟩ := alloc_spec h0 c h hl (ha c (by simp [V.subs]))
    exact ⟨g1, by simpa [V.trav, V.subs] using b1, by simpa [V.trav] using n1⟩
  | not c =>
    obtain ⟨g1, b1, n1⟩ := alloc_spec h0 c h hl (ha c (by simp [V.subs]))
    exact ⟨g1, by simpa [V.trav, V.subs] using b1, by simpa [V.trav] using n1⟩
  | allOf xs =>
    obtain ⟨g1, b1, n1⟩ := travL_spec h0 xs h hl ha
    exact ⟨g1, by simpa [V.trav, V.subs] using b1, by simpa [V.trav] using n1⟩
  | anyOf xs =>
    obtain ⟨g1, b1, n1⟩ := travL_spec h0 xs h hl ha
    exact ⟨g1, by simpa [V.trav, V.subs] using b1, by simpa [V.trav] using n1⟩
  | oneOf xs =>
    obtain ⟨g1, b1, n1⟩ := travL_spec h0 xs h hl ha
    exact ⟨g1, by simpa [V.trav, V.subs] using b1, by simpa [V.trav] using n1⟩
  | dependentSchemas m =>
    obtain ⟨g1, b1, n1⟩ := travD_spec h0 m h hl fun p hp => ha _ (List.mem_map.2 ⟨p, hp, rfl⟩)
    refine ⟨g1, ?_, by simpa [V.trav] using n1⟩
    intro b hb
    obtain ⟨p, hp, rfl⟩ := List.mem_map.1 hb
    exact b1 p hp
  | array p i =>
    simp only [V.subs, List.mem_append, Option.mem_toList] at ha
    obtain ⟨g1, b1, n1⟩ := optL p h hl fun a h => ha a (.inl h)
    obtain ⟨g2, b2, n2⟩ := travO_spec h0 i (travO (travL alloc) p h).2 (hl.trans g1.later) fun a h => ha a (.inr h)
    refine ⟨g1.trans g2, ?_, ?_⟩
    · intro b hb
      simp only [V.trav, V.subs, List.mem_append, Option.mem_toList] at hb ⊢
      rcases hb with hb | hb
      · exact Nat.lt_of_lt_of_le (b1 b hb) g2.later.1
      · exact b2 b hb
    · simp only [V.trav, V.map_array, n2, ← n1]
      congr 1
      cases hp : (travO (travL alloc) p h).1 with
      | none => rfl
      | some q => exact congrArg some (nodeAt_keep g2.later fun a h => b1 a (by simpa [hp] using h))
  | cond i t e =>
    simp only [V.subs, List.mem_append, Option.mem_toList] at ha
    obtain ⟨g1, b1, n1⟩ := travO_spec h0 i h hl fun a h => ha a (.inl (.inl h))
    obtain ⟨g2, b2, n2⟩ := travO_spec h0 t (travO alloc i h).2 (hl.trans g1.later) fun a h => ha a (.inl (.inr h))
    obtain ⟨g3, b3, n3⟩ := travO_spec h0 e (travO alloc t (travO alloc i h).2).2 (hl.trans (g1.trans g2).later) fun a h => ha a (.inr h)
    refine ⟨(g1.trans g2).trans g3, ?_, ?_⟩
    · intro b hb
      simp only [V.trav, V.subs, List.mem_append, Option.mem_toList] at hb ⊢
      rcases hb with (hb | hb) | hb
      · exact Nat.lt_of_lt_of_le (b1 b hb) (g2.trans g3).later.1
      · exact Nat.lt_of_lt_of_le (b2 b hb) g3.later.1
      · exact b3 b hb
    · simp only [V.trav, V.map_cond, n3, ← n1, ← n2]
      rw [keepO (g2.trans g3).later b1, keepO g3.later b2]
  | object o =>
    obtain ⟨p, q, r, u, n⟩ := o
    simp only [V.subs, List.mem_append] at ha
    obtain ⟨g1, b1, n1⟩ := travD_spec h0 p h hl fun a h => ha _ (.inl (.inl (.inl (List.mem_map.2 ⟨a, h, rfl⟩))))
    obtain ⟨g2, b2, n2⟩ := optD q (travD alloc p h).2 (hl.trans g1.later) fun a h => ha _ (.inl (.inl (.inr (List.mem_map.2 ⟨a, h, rfl⟩))))
    obtain ⟨g3, b3, n3⟩ := travSub_spec h0 r (travO (travD alloc) q (travD alloc p h).2).2 (hl.trans (g1.trans g2).later) fun a h =>
      ha _ (.inl (.inr (by simp [h])))
    obtain ⟨g4, b4, n4⟩ := travO_spec h0 n (travO (travSub alloc) r (travO (travD alloc) q (travD alloc p h).2).2).2
      (hl.trans ((g1.trans g2).trans g3).later) fun a h => ha _ (.inr (by simpa using h))
    refine ⟨((g1.trans g2).trans g3).trans g4, ?_, ?_⟩
    · intro b hb
      simp only [V.trav, V.subs, List.mem_append] at hb ⊢
      rcases hb with ((hb | hb) | hb) | hb
      · obtain ⟨x, hx, rfl⟩ := List.mem_map.1 hb
        exact Nat.lt_of_lt_of_le (b1 x hx) ((g2.trans g3).trans g4).later.1
      · obtain ⟨x, hx, rfl⟩ := List.mem_map.1 hb
        exact Nat.lt_of_lt_of_le (b2 x hx) (g3.trans g4).later.1
      · refine Nat.lt_of_lt_of_le (b3 b ?_) g4.later.1
        split at hb
        · rename_i e; rw [e]; simp at hb; rw [hb]
        · simp at hb
      · exact b4 b (by simpa using hb)
    · simp only [V.trav, V.map_object, ObjV.map, n4, ← n1, ← n2, ← n3]
      congr 2
      · exact nodeAt_keepD ((g2.trans g3).trans g4).later b1
      · cases hq : (travO (travD alloc) q (travD alloc p h).2).1 with
        | none => rfl
        | some q' => exact congrArg some (nodeAt_keepD (g3.trans g4).later fun a h => b2 a (by simpa [hq] using h))
      · rcases hr : (travO (travSub alloc) r (travO (travD alloc) q (travD alloc p h).2).2).1 with _ | (_ | a)
        · rfl
        · rfl
        · exact congrArg (some ∘ Sub.lazy) (g4.later.2 a (b3 a hr))
  | _ => exact ⟨.refl _, by simp [V.trav, V.subs], rfl⟩

theorem travData_spec (d : Data (Node ⊕ Nat)) (h : Heap) (hl : Later h0 h) (ha : ∀ p ∈ d, ∀ a ∈ p.2.subs, Avail h0 a) :
    Grow h (travD (V.trav alloc) d h).2 ∧ Inside (travD (V.trav alloc) d h).2 (travD (V.trav alloc) d h).1 ∧
      Data.map (nodeAt (travD (V.trav alloc) d h).2) (travD (V.trav alloc) d h).1 = Data.map (want h0) d := by
  induction d generalizing h with
  | nil => exact ⟨.refl _, by simp [travD, Inside], rfl⟩
  | cons a as ih =>
    obtain ⟨k, a⟩ := a
    obtain ⟨g1, b1, n1⟩ := travV_spec h0 a h hl (ha (k, a) (by simp))
    obtain ⟨g2, b2, n2⟩ := ih (V.trav alloc a h).2 (hl.trans g1.later) fun b hb => ha b (by simp [hb])
    refine ⟨g1.trans g2, ?_, ?_⟩
    · intro b hb
      simp only [travD, List.mem_cons] at hb ⊢
      rcases hb with rfl | hb
      · exact fun a ha => Nat.lt_of_lt_of_le (b1 a ha) g2.later.1
      · exact b2 b hb
    · simp only [travD, Data.map, List.map_cons] at n2 ⊢
      rw [n2, ← n1]
      congr 2
      exact V.map_congr fun a ha => g2.later.2 a (b1 a ha)

end alloc

theorem V.subs_map {α β : Type} (g : α → β) (x : V α) : (x.map g).subs = x.subs.map g := by
  cases x with
  | array p i => cases p <;> cases i <;> simp [V.subs]
  | object o =>
    obtain ⟨p, q, r, u, n⟩ := o
    rcases q with _ | q <;> rcases r with _ | (_ | r) <;> cases n <;> simp [ObjV.map, V.subs, Sub.map, mapD, Function.comp_def]
  | cond i t e => cases i <;> cases t <;> cases e <;> simp [V.subs]
  | dependentSchemas m => simp [V.subs, mapD, Function.comp_def]
  | contains | allOf | anyOf | oneOf | not => simp [V.subs]
  | _ => rfl

/-! ## A fresh validator, loaded -/

section
variable (w : World) (docs : List Doc) (voc : List Kw)

/-- What loading a fresh validator gives: whether it is the one that always fails, and its dictionary. -/
def loadN (f : Nat) (n : Node) : Res (Bool × Data Node) := do
  match ← view docs f n with
  | .bool b => .ok (!b, [])
  | .obj items => match loadAll w (view docs f) id items voc [] with
    | (d, .ok _) => .ok (false, d)
    | (_, .err e) => .err e
    | (_, .timeout) => .timeout
  | x => do
    loadNonObject x voc
    .ok (false, [])

theorem validateN_load (f : Nat) (n : Node) (v : Val) (ctx : Ctx) :
    validateN w docs voc (f + 1) n v ctx = (loadN w docs voc f n >>= fun p =>
      if p.1 then .err (raisePlain ctx.path) else interp (validateN w docs voc f) (progAll w f v ctx p.2)) := by
  rw [validateN, loadN, Res.bind_assoc]
  refine Res.bind_congr _ fun m => ?_
  have other : ∀ x, loadNonObject x voc = ((loadNonObject x voc >>= fun _ => Res.ok (false, ([] : Data Node))) >>= fun p =>
      if p.1 then .err (raisePlain ctx.path) else interp (validateN w docs voc f) (progAll w f v ctx p.2)) := by
    intro x
    cases loadNonObject x voc <;> rfl
  cases m with
  | bool b => cases b <;> rfl
  | obj items =>
    simp only
    rcases loadAll w (view docs f) (id : Node → Node) items voc [] with ⟨d, r⟩
    cases r with
    | ok u => simp [interp_progAll]
    | err e => rfl
    | timeout => rfl
  | _ => exact other _

theorem loadN_le (f : Nat) (n : Node) : loadN w docs voc f n ⊑ loadN w docs voc (f + 1) n := by
  unfold loadN
  refine (view_le docs f n).bind fun m => ?_
  cases m with
  | obj items =>
    simp only
    by_cases ht : (loadAll w (view docs f) (id : Node → Node) items voc []).2 = .timeout
    · revert ht
      rcases loadAll w (view docs f) (id : Node → Node) items voc [] with ⟨d, r⟩
      rintro ht
      simp only at ht
      subst ht
      exact fun h => absurd rfl h
    · rw [loadAll_le w (view_le docs f) id items voc [] ht]
      exact .refl _
  | _ => exact .refl _

theorem loadN_mono {f g : Nat} (h : f ≤ g) (n : Node) : loadN w docs voc f n ⊑ loadN w docs voc g n := by
  induction h with
  | refl => exact .refl _
  | step _ ih => exact ih.trans (loadN_le w docs voc _ n)

theorem Res.Ext.agree {β : Type} {F : Nat → Res β} (hF : ∀ {f g}, f ≤ g → F f ⊑ F g) {f g : Nat} (hf : F f ≠ .timeout)
    (hg : F g ≠ .timeout) : F f = F g := by
  have a := hF (Nat.le_max_left f g) hf
  have b := hF (Nat.le_max_right f g) hg
  rw [← a, ← b]

/-! ## The invariant -/

/-- A lazy validator in the heap: if loaded, it is the fresh one loaded; if not, it is empty or what a failed attempt left. -/
structure GoodCell (h : Heap) (c : Cell) : Prop where
  inside : Inside h c.data
  full : c.loaded = true → ∃ g, loadN w docs voc g c.node = .ok (c.fail, c.data.map (nodeAt h))
  part : c.loaded = false → c.fail = false ∧ (c.data = [] ∨ ∃ g items e, view docs g c.node = .ok (.obj items) ∧
    loadAll w (view docs g) id items voc [] = (c.data.map (nodeAt h), .err e))

def Good (h : Heap) : Prop := ∀ (a : Nat) (c : Cell), h[a]? = some c → GoodCell w docs voc h c

variable {w docs voc}

theorem GoodCell.later {h h' : Heap} {c : Cell} (hc : GoodCell w docs voc h c) (hl : Later h h') : GoodCell w docs voc h' c := by
  refine ⟨hc.inside.later hl, ?_, ?_⟩
  · rw [hc.inside.map hl]; exact hc.full
  · rw [hc.inside.map hl]; exact hc.part

theorem GoodCell.fresh (h : Heap) (n : Node) : GoodCell w docs voc h { node := n } :=
  ⟨fun p hp => by simp at hp, by simp, fun _ => ⟨rfl, .inl rfl⟩⟩

theorem Good.grow {h h' : Heap} (hg : Good w docs voc h) (hl : Grow h h') : Good w docs voc h' := by
  have hlat := hl.later
  obtain ⟨ns, rfl⟩ := hl
  intro a c hc
  rcases Nat.lt_or_ge a h.length with ha | ha
  · rw [List.getElem?_append_left ha] at hc
    exact (hg a c hc).later hlat
  · rw [List.getElem?_append_right ha] at hc
    obtain ⟨n, _, rfl⟩ := List.mem_map.1 (List.mem_of_getElem? hc)
    exact .fresh _ _

theorem later_set {h : Heap} {a : Nat} {c c' : Cell} (hc : h[a]? = some c) (hn : c'.node = c.node) : Later h (h.set a c') := by
  refine ⟨by simp, fun b _ => ?_⟩
  unfold nodeAt
  rw [List.getElem?_set]
  by_cases e : a = b
  · subst e
    have : a < h.length := by
      rcases Nat.lt_or_ge a h.length with h1 | h1
      · exact h1
      · rw [List.getElem?_eq_none h1] at hc; cases hc
    rw [hc, if_pos rfl, if_pos this]
    exact hn
  · simp [e]

theorem Good.set {h : Heap} (hg : Good w docs voc h) {a : Nat} {c c' : Cell} (hc : h[a]? = some c) (hn : c'.node = c.node)
    (hc' : GoodCell w docs voc h c') : Good w docs voc (h.set a c') := by
  have hl := later_set hc hn
  intro b x hx
  rw [List.getElem?_set] at hx
  split at hx
  · split at hx
    · cases hx; exact hc'.later hl
    · cases hx
  · exact (hg b x hx).later hl

/-! ## Loading a validator of the heap -/

theorem getElem?_grow {h h' : Heap} (hg : Grow h h') {a : Nat} {c : Cell} (hc : h[a]? = some c) : h'[a]? = some c := by
  obtain ⟨ns, rfl⟩ := hg
  rw [List.getElem?_append_left]
  · exact hc
  · rcases Nat.lt_or_ge a h.length with h1 | h1
    · exact h1
    · rw [List.getElem?_eq_none h1] at hc; cases hc

/-- Loading into the heap is loading with nodes, afterwards replaced by addresses. -/
theorem heap_load (vw : Node → Res Node) (items : List (Str × Node)) {h : Heap} {d : Data Nat} (hd : Inside h d) :
    let p := loadAll w vw Sum.inl items voc (d.map Sum.inr)
    let q := travD (V.trav alloc) p.1 h
    let l := loadAll w vw id items voc (d.map (nodeAt h))
    Grow h q.2 ∧ Inside q.2 q.1 ∧ Data.map (nodeAt q.2) q.1 = l.1 ∧ p.2 = l.2 := by
  intro p q l
  have hav : Data.All (Avail h) p.1 := by
    refine loadAll_all w vw Sum.inl items (fun n _ => trivial) voc _ ?_
    intro x hx a ha
    obtain ⟨y, hy, rfl⟩ := List.mem_map.1 hx
    simp only [V.subs_map] at ha
    obtain ⟨b, hb, rfl⟩ := List.mem_map.1 ha
    exact hd y hy b hb
  have hm := loadAll_map w vw (Sum.inl : Node → Node ⊕ Nat) (want h) items voc (d.map Sum.inr)
  rw [Data.map_map] at hm
  have hm : l = (p.1.map (want h), p.2) := hm
  obtain ⟨g, i, n⟩ := travData_spec h p.1 h (.refl h) hav
  exact ⟨g, i, by rw [n, hm], by rw [hm]⟩

/-- A validator that has not been loaded loads like a fresh one. -/
theorem reload {h : Heap} {c : Cell} (hc : GoodCell w docs voc h c) (hl : c.loaded = false) {f : Nat} {items : List (Str × Node)}
    (hv : view docs f c.node = .ok (.obj items)) :
    ((loadAll w (view docs f) id items voc []).2 ≠ .timeout →
      loadAll w (view docs f) id items voc (c.data.map (nodeAt h)) = loadAll w (view docs f) id items voc []) ∧
    ((loadAll w (view docs f) id items voc (c.data.map (nodeAt h))).2 ≠ .timeout → ∃ F ≥ f,
      loadAll w (view docs F) id items voc [] = loadAll w (view docs f) id items voc (c.data.map (nodeAt h))) := by
  obtain ⟨_, hd | ⟨g, items', e, hv', hp⟩⟩ := hc.part hl
  · rw [hd]
    exact ⟨fun _ => rfl, fun _ => ⟨f, Nat.le_refl _, rfl⟩⟩
  · have hi : items' = items := by
      have := Res.Ext.agree (F := fun f => view docs f c.node) (fun h => view_mono docs h _) (f := f) (g := g) (by simp [hv]) (by simp [hv'])
      simp only [hv, hv'] at this
      simpa using this.symm
    subst hi
    have up : ∀ {f g : Nat} (d : Data Node), f ≤ g → (loadAll w (view docs f) id items' voc d).2 ≠ .timeout →
        loadAll w (view docs g) id items' voc d = loadAll w (view docs f) id items' voc d := by
      intro f g d hfg ht
      induction hfg with
      | refl => rfl
      | step _ ih => rw [loadAll_le w (view_le docs _) id items' voc d (by rw [ih]; exact ht), ih]
    constructor
    · intro ht
      have h1 := up [] (Nat.le_max_left f g) ht
      have h2 := up [] (Nat.le_max_right f g) (by rw [hp]; simp)
      have h3 : loadAll w (view docs f) (id : Node → Node) items' voc [] = (c.data.map (nodeAt h), .err e) := by rw [← h1, h2, hp]
      have := loadAll_again w (view docs f) (id : Node → Node) items' voc []
      rw [h3] at this ⊢
      exact this
    · intro ht
      refine ⟨max f g, Nat.le_max_left _ _, ?_⟩
      have h2 := up [] (Nat.le_max_right f g) (by rw [hp]; simp)
      have h3 := up _ (Nat.le_max_left f g) ht
      rw [← h3]
      have := loadAll_again w (view docs (max f g)) (id : Node → Node) items' voc []
      rw [h2, hp] at this
      rw [h2, hp]
      exact this.symm

theorem view_big {f F : Nat} (h : f ≤ F) {n m : Node} (hv : view docs f n = .ok m) : view docs F n = .ok m := by
  rw [view_mono docs h n (by simp [hv]), hv]

theorem loadCell_spec {h : Heap} {a : Nat} {c : Cell} (hg : Good w docs voc h) (hc : h[a]? = some c) (hl : c.loaded = false) (f : Nat)
    (ht : (loadCell w docs voc f c h).1 ≠ .timeout) :
    let r := loadCell w docs voc f c h
    let h' := r.2.2.set a r.2.1
    Good w docs voc h' ∧ Later h h' ∧ h'[a]? = some r.2.1 ∧ r.2.1.node = c.node ∧
      (∀ u, r.1 = .ok u → r.2.1.loaded = true) ∧ (∀ e, r.1 = .err e → ∃ F, loadN w docs voc F c.node = .err e) := by
  have hcell := hg a c hc
  have hla : a < h.length := by
    rcases Nat.lt_or_ge a h.length with h1 | h1
    · exact h1
    · rw [List.getElem?_eq_none h1] at hc; cases hc
  obtain ⟨hfail, hdata⟩ := hcell.part hl
  have nodata : ∀ {m : Node}, view docs f c.node = .ok m → (∀ items, m ≠ .obj items) → c.data = [] := by
    intro m hv hm
    rcases hdata with hd | ⟨g, items, e, hv', _⟩
    · exact hd
    · have := Res.Ext.agree (F := fun f => view docs f c.node) (fun h => view_mono docs h _) (f := f) (g := g) (by simp [hv]) (by simp [hv'])
      simp only [hv, hv', Res.ok.injEq] at this
      exact absurd this (hm items)
  -- a cell whose heap is the same
  have same : ∀ c' : Cell, c'.node = c.node → GoodCell w docs voc h c' → Good w docs voc (h.set a c') ∧ Later h (h.set a c') ∧
      (h.set a c')[a]? = some c' ∧ c'.node = c.node :=
    fun c' hn hc' => ⟨hg.set hc hn hc', later_set hc hn, by simp [hla], hn⟩
  have nonobj : ∀ m : Node, view docs f c.node = .ok m → (∀ b, m ≠ .bool b) → (∀ items, m ≠ .obj items) →
      loadCell w docs voc f c h = (match loadNonObject m voc with
        | .ok _ => (.ok (), { c with loaded := true }, h)
        | r => (r, c, h)) ∧ loadN w docs voc f c.node = loadNonObject m voc >>= fun _ => .ok (false, []) := by
    intro m hv h1 h2
    unfold loadCell loadN
    rw [hv]
    cases m with
    | bool b => exact absurd rfl (h1 b)
    | obj items => exact absurd rfl (h2 items)
    | _ => exact ⟨rfl, rfl⟩
  cases hv : view docs f c.node with
  | err e =>
    have hlc : loadCell w docs voc f c h = (.err e, c, h) := by simp [loadCell, hv]
    simp only [hlc]
    obtain ⟨s1, s2, s3, s4⟩ := same c rfl hcell
    refine ⟨s1, s2, s3, by simp, by simp, ?_⟩
    rintro _ ⟨⟩
    exact ⟨f, by simp [loadN, hv]⟩
  | timeout => simp [loadCell, hv] at ht
  | ok m =>
    by_cases hb : ∃ b, m = .bool b
    · obtain ⟨b, rfl⟩ := hb
      have hlc : loadCell w docs voc f c h = (.ok (), { c with fail := c.fail || !b, loaded := true }, h) := by simp [loadCell, hv]
      simp only [hlc]
      have hd := nodata hv (by simp)
      obtain ⟨s1, s2, s3, s4⟩ := same { c with fail := c.fail || !b, loaded := true } rfl
        ⟨hcell.inside, fun _ => ⟨f, by simp [loadN, hv, hd, hfail, Data.map]⟩, by simp⟩
      exact ⟨s1, s2, s3, by simp, by simp, by simp⟩
    · by_cases ho : ∃ items, m = .obj items
      · obtain ⟨items, rfl⟩ := ho
        obtain ⟨hgr, hin, hmap, hres⟩ := heap_load (w := w) (voc := voc) (view docs f) items hcell.inside
        obtain ⟨hre1, hre2⟩ := reload hcell hl hv
        revert ht hgr hin hmap hres
        simp only [loadCell, hv]
        generalize loadAll w (view docs f) Sum.inl items voc (c.data.map Sum.inr) = p
        generalize travD (V.trav alloc) p.1 h = q
        intro ht hgr hin hmap hres
        rw [hres] at ht
        obtain ⟨F, hF, hload⟩ := hre2 ht
        rw [← hload] at hmap hres
        have hvF := view_big hF hv
        have hgood := hg.grow hgr
        have hcq := getElem?_grow hgr hc
        have fin : ∀ c' : Cell, c'.node = c.node → GoodCell w docs voc q.2 c' → Good w docs voc (q.2.set a c') ∧ Later h (q.2.set a c') ∧
            (q.2.set a c')[a]? = some c' ∧ c'.node = c.node := by
          intro c' hn hc'
          refine ⟨hgood.set hcq hn hc', hgr.later.trans (later_set hcq hn), ?_, hn⟩
          simp [Nat.lt_of_lt_of_le hla hgr.later.1]
        have hpair : loadAll w (view docs F) (id : Node → Node) items voc [] = (Data.map (nodeAt q.2) q.1, p.2) := by
          rw [hmap, hres]
        cases hr : p.2 with
        | ok u =>
          rw [hr] at hpair
          obtain ⟨s1, s2, s3, s4⟩ := fin { c with data := q.1, loaded := true } rfl
            ⟨hin, fun _ => ⟨F, by simp [loadN, hvF, hpair, hfail]⟩, by simp⟩
          exact ⟨s1, s2, s3, by simp, by simp, by simp⟩
        | err e =>
          rw [hr] at hpair
          obtain ⟨s1, s2, s3, s4⟩ := fin { c with data := q.1, loaded := false } rfl
            ⟨hin, by simp, fun _ => ⟨hfail, .inr ⟨F, items, e, hvF, hpair⟩⟩⟩
          refine ⟨s1, s2, s3, by simp, by simp, ?_⟩
          rintro _ ⟨⟩
          exact ⟨F, by simp [loadN, hvF, hpair]⟩
        | timeout => rw [← hload, ← hres, hr] at ht; exact absurd rfl ht
      · obtain ⟨e1, e2⟩ := nonobj m hv (fun b hb' => hb ⟨b, hb'⟩) (fun i hi => ho ⟨i, hi⟩)
        have hd := nodata hv fun i hi => ho ⟨i, hi⟩
        simp only [e1] at ht ⊢
        cases hn : loadNonObject m voc with
        | ok u =>
          obtain ⟨s1, s2, s3, s4⟩ := same { c with loaded := true } rfl
            ⟨hcell.inside, fun _ => ⟨f, by simp [e2, hn, hd, hfail, Data.map]⟩, by simp [hl]⟩
          exact ⟨s1, s2, s3, by simp, by simp, by simp⟩
        | err e =>
          obtain ⟨s1, s2, s3, s4⟩ := same c rfl hcell
          refine ⟨s1, s2, s3, by simp, by simp, ?_⟩
          rintro _ ⟨⟩
          exact ⟨f, by simp [e2, hn]⟩
        | timeout => rw [hn] at ht; exact absurd rfl ht

/-- A validator of the heap ends loading when the fresh one does. -/
theorem loadCell_ends {h : Heap} {a : Nat} {c : Cell} (hg : Good w docs voc h) (hc : h[a]? = some c) (hl : c.loaded = false) (f : Nat)
    (ht : loadN w docs voc f c.node ≠ .timeout) : (loadCell w docs voc f c h).1 ≠ .timeout := by
  have hcell := hg a c hc
  revert ht
  unfold loadCell loadN
  cases hv : view docs f c.node with
  | err e => simp
  | timeout => simp
  | ok m =>
    cases m with
    | bool b => simp
    | obj items =>
      simp only [Res.ok_bind]
      intro ht
      obtain ⟨_, _, _, hres⟩ := heap_load (w := w) (voc := voc) (view docs f) items hcell.inside
      rw [hres]
      have hl' : (loadAll w (view docs f) (id : Node → Node) items voc []).2 ≠ .timeout := by
        revert ht
        rcases loadAll w (view docs f) (id : Node → Node) items voc [] with ⟨d, r⟩
        cases r <;> simp
      rw [(reload hcell hl hv).1 hl']
      exact hl'
    | _ =>
      simp only [Res.ok_bind]
      intro ht
      revert ht
      generalize loadNonObject _ voc = r
      cases r <;> simp

/-! ## Running on the heap -/

theorem interp_le' {α β : Type} {rec rec' : α → Val → Ctx → Res Unit} (h : ∀ a v c, rec a v c ⊑ rec' a v c) (p : Prog α β)
    (ht : interp rec p ≠ .timeout) : interp rec' p = interp rec p := interp_le h p ht

theorem interpH_spec {β : Type} {rec : Nat → Val → Ctx → Heap → Res Unit × Heap}
    (hrec : ∀ a v ctx h, Good w docs voc h → a < h.length → (rec a v ctx h).1 ≠ .timeout →
      Good w docs voc (rec a v ctx h).2 ∧ Later h (rec a v ctx h).2 ∧ ∃ F, validateN w docs voc F (nodeAt h a) v ctx = (rec a v ctx h).1)
    (p : Prog Nat β) (h : Heap) (hg : Good w docs voc h) (hp : p.Uses (· < h.length)) (ht : (interpH rec p h).1 ≠ .timeout) :
    Good w docs voc (interpH rec p h).2 ∧ Later h (interpH rec p h).2 ∧
      ∃ F, interp (validateN w docs voc F) (Prog.map (nodeAt h) p) = (interpH rec p h).1 := by
  induction p generalizing h with
  | done r => exact ⟨hg, .refl _, 0, rfl⟩
  | call a v c k ih =>
    by_cases hr : (rec a v c h).1 = .timeout
    · rw [interpH] at ht
      split at ht
      · exact absurd rfl ht
      · rename_i h1 h2 e; exact absurd (by rw [e] at hr; exact hr) h2
    · have e : interpH rec (.call a v c k) h = interpH rec (k (rec a v c h).1) (rec a v c h).2 := by
        rw [interpH]
        split
        · rename_i h' e; rw [e] at hr; exact absurd rfl hr
        · rename_i e; rw [e]
      rw [e] at ht ⊢
      obtain ⟨g1, l1, F1, e1⟩ := hrec a v c h hg hp.1 hr
      have hu : (k (rec a v c h).1).Uses (· < h.length) := hp.2 _
      have hu' := Uses.mono (Q := (· < (rec a v c h).2.length)) (fun b hb => Nat.lt_of_lt_of_le hb l1.1) hu
      obtain ⟨g2, l2, F2, e2⟩ := ih _ (rec a v c h).2 g1 hu' ht
      refine ⟨g2, l1.trans l2, max F1 F2, ?_⟩
      rw [← Prog.map_congr (fun b hb => (l1.2 b hb).symm) hu] at e2
      have hv1 : validateN w docs voc (max F1 F2) (nodeAt h a) v c = (rec a v c h).1 := by
        rw [validateN_mono w docs voc (Nat.le_max_left F1 F2) _ _ _ (by rw [e1]; exact hr), e1]
      simp only [Prog.map]
      rw [interp_call _ _ _ _ _ (by rw [hv1]; exact hr), hv1]
      rw [interp_le' (fun a v c => validateN_mono w docs voc (Nat.le_max_right F1 F2) a v c) _ (by rw [e2]; exact ht), e2]

/-- A validation on the heap that ends gives what a fresh validator gives. -/
theorem validateH_spec (f : Nat) : ∀ a v ctx h, Good w docs voc h → a < h.length → (validateH w docs voc f a v ctx h).1 ≠ .timeout →
    Good w docs voc (validateH w docs voc f a v ctx h).2 ∧ Later h (validateH w docs voc f a v ctx h).2 ∧
      ∃ F, validateN w docs voc F (nodeAt h a) v ctx = (validateH w docs voc f a v ctx h).1 := by
  induction f with
  | zero => exact fun a v ctx h _ _ ht => absurd rfl ht
  | succ f ih =>
    intro a v ctx h hg ha ht
    have run : ∀ (c : Cell) (h : Heap), Good w docs voc h → h[a]? = some c → c.loaded = true →
        (runCell (validateH w docs voc f) w f c v ctx h).1 ≠ .timeout →
        Good w docs voc (runCell (validateH w docs voc f) w f c v ctx h).2 ∧
        Later h (runCell (validateH w docs voc f) w f c v ctx h).2 ∧
        ∃ F, validateN w docs voc F c.node v ctx = (runCell (validateH w docs voc f) w f c v ctx h).1 := by
      intro c h hg hc hl ht
      have hcell := hg a c hc
      obtain ⟨g, hload⟩ := hcell.full hl
      unfold runCell at ht ⊢
      cases hf : c.fail with
      | true =>
        rw [hf] at hload
        exact ⟨hg, .refl _, g + 1, by rw [validateN_load, hload]; rfl⟩
      | false =>
        rw [hf] at hload ht
        simp only [Bool.false_eq_true, if_false] at ht ⊢
        obtain ⟨g1, l1, F, e⟩ := interpH_spec ih _ h hg (progAll_uses w f v ctx c.data hcell.inside) ht
        refine ⟨g1, l1, max (max F f) g + 1, ?_⟩
        rw [validateN_load, loadN_mono w docs voc (Nat.le_max_right _ g) _ (by simp [hload]), hload]
        simp only [Res.ok_bind, Bool.false_eq_true, if_false]
        rw [← progAll_map] at e
        have hF : F ≤ max (max F f) g := Nat.le_trans (Nat.le_max_left _ _) (Nat.le_max_left _ _)
        have hf' : f ≤ max (max F f) g := Nat.le_trans (Nat.le_max_right _ _) (Nat.le_max_left _ _)
        have e3 := interp_le' (fun a v c => validateN_mono w docs voc hF a v c) _ (by rw [e]; exact ht)
        rw [progAll_mono _ w hf' v ctx _ (by rw [e3, e]; exact ht), e3, e]
    have hsome : h[a]? = some h[a] := List.getElem?_eq_getElem ha
    have hnode : nodeAt h a = h[a].node := by simp [nodeAt, hsome]
    rw [validateH, hsome] at ht ⊢
    simp only at ht ⊢
    rw [hnode]
    revert ht
    generalize h[a] = c at hsome
    intro ht
    cases hl : c.loaded with
    | true =>
      simp only [hl, if_true] at ht ⊢
      exact run c h hg hsome hl ht
    | false =>
      simp only [hl, Bool.false_eq_true, if_false] at ht ⊢
      have hspec := loadCell_spec hg hsome hl f
      revert ht hspec
      rcases loadCell w docs voc f c h with ⟨r, c', h'⟩
      cases r with
      | ok u =>
        simp only
        intro ht hspec
        obtain ⟨s1, s2, s3, s4, s5, _⟩ := hspec (by simp)
        obtain ⟨t1, t2, F, t3⟩ := run c' _ s1 s3 (by simpa using s5) ht
        exact ⟨t1, s2.trans t2, F, by rw [← s4]; exact t3⟩
      | err e =>
        simp only
        intro ht hspec
        obtain ⟨s1, s2, s3, s4, _, s6⟩ := hspec (by simp)
        obtain ⟨F, hF⟩ := s6 e rfl
        exact ⟨s1, s2, F + 1, by rw [validateN_load, hF]; rfl⟩
      | timeout => exact fun ht => absurd rfl ht

theorem interpH_ends {β : Type} (f : Nat)
    (hrec : ∀ a v ctx h, Good w docs voc h → a < h.length → validateN w docs voc f (nodeAt h a) v ctx ≠ .timeout →
      (validateH w docs voc f a v ctx h).1 ≠ .timeout)
    (p : Prog Nat β) (h : Heap) (hg : Good w docs voc h) (hp : p.Uses (· < h.length))
    (ht : interp (validateN w docs voc f) (Prog.map (nodeAt h) p) ≠ .timeout) : (interpH (validateH w docs voc f) p h).1 ≠ .timeout := by
  induction p generalizing h with
  | done r => exact ht
  | call a v c k ih =>
    simp only [Prog.map] at ht
    have h1 : validateN w docs voc f (nodeAt h a) v c ≠ .timeout := fun e => ht (interp_call_timeout _ _ _ _ _ e)
    rw [interp_call _ _ _ _ _ h1] at ht
    have hr := hrec a v c h hg hp.1 h1
    obtain ⟨g1, l1, F, e⟩ := validateH_spec f a v c h hg hp.1 hr
    have e' : validateN w docs voc f (nodeAt h a) v c = (validateH w docs voc f a v c h).1 := by
      rw [← e]
      exact Res.Ext.agree (F := fun f => validateN w docs voc f (nodeAt h a) v c) (fun h => validateN_mono w docs voc h _ _ _) h1
        (by simp only [e]; exact hr)
    have e2 : interpH (validateH w docs voc f) (.call a v c k) h =
        interpH (validateH w docs voc f) (k (validateH w docs voc f a v c h).1) (validateH w docs voc f a v c h).2 := by
      rw [interpH]
      split
      · rename_i h' e; rw [e] at hr; exact absurd rfl hr
      · rename_i e; rw [e]
    rw [e2]
    rw [e'] at ht
    have hu : (k (validateH w docs voc f a v c h).1).Uses (· < h.length) := hp.2 _
    refine ih _ _ g1 (Uses.mono (fun b hb => Nat.lt_of_lt_of_le hb l1.1) hu) ?_
    rw [Prog.map_congr (fun b hb => l1.2 b hb) hu]
    exact ht

/-- A validation on the heap ends when it ends with fresh validators. -/
theorem validateH_ends (f : Nat) : ∀ a v ctx h, Good w docs voc h → a < h.length → validateN w docs voc f (nodeAt h a) v ctx ≠ .timeout →
    (validateH w docs voc f a v ctx h).1 ≠ .timeout := by
  induction f with
  | zero => exact fun a v ctx h _ _ ht => absurd rfl ht
  | succ f ih =>
    intro a v ctx h hg ha ht
    have run : ∀ (c : Cell) (h : Heap), Good w docs voc h → h[a]? = some c → c.loaded = true →
        validateN w docs voc (f + 1) c.node v ctx ≠ .timeout → (runCell (validateH w docs voc f) w f c v ctx h).1 ≠ .timeout := by
      intro c h hg hc hl ht
      have hcell := hg a c hc
      obtain ⟨g, hload⟩ := hcell.full hl
      rw [validateN_load] at ht
      have hlf : loadN w docs voc f c.node ≠ .timeout := by
        intro e; rw [e] at ht; exact ht rfl
      have : loadN w docs voc f c.node = .ok (c.fail, c.data.map (nodeAt h)) := by
        rw [← hload]
        exact Res.Ext.agree (F := fun f => loadN w docs voc f c.node) (fun h => loadN_mono w docs voc h _) hlf (by simp [hload])
      rw [this] at ht
      unfold runCell
      simp only [Res.ok_bind] at ht
      split
      · simp
      · rename_i hf
        rw [if_neg hf, progAll_map] at ht
        exact interpH_ends f ih _ h hg (progAll_uses w f v ctx c.data hcell.inside) ht
    have hsome : h[a]? = some h[a] := List.getElem?_eq_getElem ha
    have hnode : nodeAt h a = h[a].node := by simp [nodeAt, hsome]
    rw [hnode] at ht
    rw [validateH, hsome]
    simp only
    revert ht
    generalize h[a] = c at hsome
    intro ht
    cases hl : c.loaded with
    | true =>
      simp only [if_true]
      exact run c h hg hsome hl ht
    | false =>
      simp only [Bool.false_eq_true, if_false]
      have hlf : loadN w docs voc f c.node ≠ .timeout := by
        rw [validateN_load] at ht
        intro e; rw [e] at ht; exact ht rfl
      have hends := loadCell_ends hg hsome hl f hlf
      have hspec := loadCell_spec hg hsome hl f hends
      revert hends hspec
      rcases loadCell w docs voc f c h with ⟨r, c', h'⟩
      cases r with
      | ok u =>
        simp only
        intro _ hspec
        obtain ⟨s1, s2, s3, s4, s5, _⟩ := hspec
        exact run c' _ s1 s3 (by simpa using s5) (by rw [s4]; exact ht)
      | err e => simp
      | timeout => exact fun h _ => absurd rfl h

end

end Verif
