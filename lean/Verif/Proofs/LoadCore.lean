import Verif.Proofs.Steps
/-! # What a successful load with `$ref`, `$anchor` and `$id` leaves behind -/

namespace Verif.Obj
open Verif Verif.Spec

theorem M.ok_inv {α β : Type} {x : M α} {g : α → M β} {s s' : St} {b : β} (h : (x >>= g) s = (.ok b, s')) :
    ∃ a s1, x s = (.ok a, s1) ∧ g a s1 = (.ok b, s') := by
  rw [M.bind_apply] at h
  cases e : x s with
  | mk r s1 =>
    rw [e] at h
    cases r with
    | ok a => exact ⟨a, s1, rfl, h⟩
    | err e => cases h
    | timeout => cases h

/-- Take the first step of a program that returns. -/
macro "peel " h:ident a:ident s:ident e:ident : tactic =>
  `(tactic| (replace $h := M.ok_inv $h; obtain ⟨$a:ident, $s:ident, $e:ident, $h:ident⟩ := $h))

theorem lift_inv {α : Type} {x : Res α} {s s' : St} {a : α} (h : lift x s = (.ok a, s')) : x = .ok a ∧ s' = s := by
  cases h; exact ⟨rfl, rfl⟩
theorem pure_inv {α : Type} {a b : α} {s s' : St} (h : (Pure.pure a : M α) s = (.ok b, s')) : b = a ∧ s' = s := by
  cases h; exact ⟨rfl, rfl⟩
theorem cell_inv {i : Nat} {s s' : St} {c : Cell} (h : cell i s = (.ok c, s')) : s.mem[i]? = some c ∧ s' = s := by
  unfold cell at h
  split at h
  · next e => cases h; exact ⟨e, rfl⟩
  · cases h
theorem schema_inv {i : Nat} {s s' : St} {c : Schema} (h : schema i s = (.ok c, s')) : s.docs[i]? = some c ∧ s' = s := by
  unfold schema at h
  split at h
  · next e => cases h; exact ⟨e, rfl⟩
  · cases h

/-! ## Reading -/

/-- Programs that change nothing. -/
def Still {α : Type} (x : M α) : Prop := ∀ s, (x s).2 = s

theorem Still.bind {α β : Type} {x : M α} {g : α → M β} (hx : Still x) (hg : ∀ a, Still (g a)) : Still (x >>= g) := by
  intro s
  rw [M.bind_apply]
  have h := hx s
  cases e : x s with
  | mk r s1 =>
    rw [e] at h
    cases r with
    | ok a => exact (hg a s1).trans h
    | err e => exact h
    | timeout => exact h

theorem Still.pure {α : Type} (a : α) : Still (Pure.pure a : M α) := fun _ => rfl
theorem Still.cell (i : Nat) : Still (cell i) := by intro s; unfold Obj.cell; split <;> rfl
theorem Still.eachL {α : Type} {f : Nat → M α} (hf : ∀ i, Still (f i)) : ∀ xs, Still (eachL f xs)
  | [] => .pure _
  | x :: xs => by unfold Obj.eachL; exact (hf x).bind fun _ => (Still.eachL hf xs).bind fun _ => .pure _
theorem Still.eachD {α : Type} {f : Nat → M α} (hf : ∀ i, Still (f i)) : ∀ xs, Still (eachD f xs)
  | [] => .pure _
  | (k, x) :: xs => by unfold Obj.eachD; exact (hf x).bind fun _ => (Still.eachD hf xs).bind fun _ => .pure _

variable (E : Env)

theorem node_still : ∀ (f i : Nat), Still ((ops E f).node i)
  | 0, _ => fun _ => rfl
  | f + 1, i => by
    change Still (nodeS (ops E f) i)
    unfold nodeS
    refine (Still.cell i).bind fun c => ?_
    split
    · exact .pure _
    · exact .pure _
    · exact .pure _
    · exact .pure _
    · exact (Still.eachL (node_still f) _).bind fun _ => .pure _
    · exact (Still.eachD (node_still f) _).bind fun _ => .pure _
    · refine (node_still f _).bind fun _ => ?_
      split
      · exact .pure _
      · exact fun _ => rfl

theorem Still.inv {α : Type} {x : M α} (hx : Still x) {s s' : St} {r : Res α} (h : x s = (r, s')) : s' = s := by
  have := hx s; rw [h] at this; exact this

theorem node_str {f i : Nat} {s s' : St} {c : Cell} {t : Str} {n : Node} (hc : s.mem[i]? = some c) (hs : c.shape = .str t)
    (h : (ops E f).node i s = (.ok n, s')) : n = .str t := by
  cases f with
  | zero => cases h
  | succ f =>
    change nodeS (ops E f) i s = _ at h
    unfold nodeS at h
    rw [M.bind_ok (cell_apply hc), hs] at h
    cases h; rfl

theorem node_obj {f i : Nat} {s s' : St} {c : Cell} {kvs : List (Str × Nat)} {n : Node} (hc : s.mem[i]? = some c) (hs : c.shape = .obj kvs)
    (h : (ops E f).node i s = (.ok n, s')) : ∃ xs, n = .obj xs := by
  cases f with
  | zero => cases h
  | succ f =>
    change nodeS (ops E f) i s = _ at h
    unfold nodeS at h
    rw [M.bind_ok (cell_apply hc), hs] at h
    obtain ⟨xs, s1, -, h⟩ := M.ok_inv h
    cases h; exact ⟨xs, rfl⟩

theorem kind_inv {f i : Nat} {s s' : St} {c : Cell} {k : Kind} (hc : s.mem[i]? = some c) (hr : c.shape.isRef = false)
    (h : (ops E f).kind i s = (.ok k, s')) : k = c.shape.kind ∧ s' = s := by
  cases f with
  | zero => cases h
  | succ f =>
    rw [kind_plain E hc hr] at h
    cases h; exact ⟨rfl, rfl⟩

/-- What `node.items()` gives for an object, or for a reference into a schema that is not loaded. -/
inductive Own (s : St) : Nat → List (Str × Nat) → Prop
  | obj {i : Nat} {c : Cell} {kvs : List (Str × Nat)} (hc : s.mem[i]? = some c) (hs : c.shape = .obj kvs) : Own s i kvs
  | ref {i j d : Nat} {c : Cell} {kvs : List (Str × Nat)} {p : List Str} {x : Schema} (hc : s.mem[i]? = some c)
      (hs : c.shape = .ref j d p) (hd : s.docs[d]? = some x) (hr : x.ready = false) (h : Own s j kvs) : Own s i kvs

theorem Own.members {s : St} {i : Nat} {kvs : List (Str × Nat)} (h : Own s i kvs) : ∀ {f : Nat} {s' : St} {ys : List (Str × Nat)},
    (ops E f).members i s = (.ok ys, s') → ys = kvs ∧ s' = s := by
  induction h with
  | obj hc hs =>
    intro f s' ys h
    cases f with
    | zero => cases h
    | succ f => rw [members_obj E hc hs] at h; cases h; exact ⟨rfl, rfl⟩
  | ref hc hs hd hr _ ih =>
    intro f s' ys h
    cases f with
    | zero => cases h
    | succ f =>
      change membersS (ops E f) _ _ = _ at h
      unfold membersS at h
      rw [M.bind_ok (cell_apply hc), hs] at h
      simp only at h
      rw [M.bind_ok (schema_apply hd), hr] at h
      exact ih h

/-- The text of the member `k`: what printing its value gives. -/
def TextOf (s : St) (kvs : List (Str × Nat)) (k t : Str) : Prop :=
  ∃ x f n, dictGet k kvs = some x ∧ (ops E f).node x s = (.ok n, s) ∧ t = nodeStr E.w n

theorem TextOf.str {s : St} {kvs : List (Str × Nat)} {k t u : Str} {x : Nat} {c : Cell} (h : TextOf E s kvs k t)
    (hx : dictGet k kvs = some x) (hc : s.mem[x]? = some c) (hs : c.shape = .str u) : t = u := by
  obtain ⟨y, f, n, hy, hn, rfl⟩ := h
  rw [hx] at hy; cases hy
  rw [node_str E hc hs hn]; rfl

theorem itemText_inv {s s' : St} {i : Nat} {kvs : List (Str × Nat)} (h : Own s i kvs) {f : Nat} {k t : Str}
    (hi : itemText E (ops E f) i k s = (.ok t, s')) : s' = s ∧ TextOf E s kvs k t := by
  unfold itemText at hi
  peel hi x s1 h1
  unfold item at h1
  peel h1 ys s2 h2
  obtain ⟨rfl, rfl⟩ := h.members E h2
  have hx : dictGet k ys = some x ∧ s1 = s2 := by
    cases e : dictGet k ys with
    | none => rw [e] at h1; cases h1
    | some y => rw [e] at h1; cases h1; exact ⟨rfl, rfl⟩
  obtain ⟨hx, rfl⟩ := hx
  peel hi n s3 h3
  have := (node_still E f x).inv h3
  subst this
  cases hi
  exact ⟨rfl, x, f, n, hx, h3, rfl⟩

theorem canApply_inv {s s' : St} {i : Nat} {kvs : List (Str × Nat)} (h : Own s i kvs) {f : Nat} {k : Kw} {b : Bool}
    (hi : canApply (ops E f) k i s = (.ok b, s')) : s' = s ∧ b = k.keys.any fun x => dictHas x kvs := by
  unfold canApply at hi
  obtain ⟨ys, s2, h2, h1⟩ := M.ok_inv hi
  obtain ⟨rfl, rfl⟩ := h.members E h2
  cases h1; exact ⟨rfl, rfl⟩

/-! ## The store -/

/-- The schema `d` and all schemas in the store are not loaded. -/
structure Fresh (d : Nat) (s : St) : Prop where
  self : ∃ x, s.docs[d]? = some x ∧ x.ready = false
  store : ∀ (t : Str) (e : Nat), dictGet t s.storage = some e → ∃ x, s.docs[e]? = some x ∧ x.ready = false

/-- From `s` to `s'`, existing cells outside `[lo, hi)` and schemas other than `d` stay, nothing gets loaded. -/
structure Frame (d lo hi : Nat) (s s' : St) : Prop where
  len : s.mem.length ≤ s'.mem.length
  mem : ∀ j, j < s.mem.length → (j < lo ∨ hi ≤ j) → s'.mem[j]? = s.mem[j]?
  docs : ∀ (e : Nat) (x : Schema), s.docs[e]? = some x → ∃ y, s'.docs[e]? = some y ∧ y.ready = x.ready ∧ y.vocabulary = x.vocabulary ∧
    y.value = x.value ∧ (e ≠ d → y = x)
  slots : SameSlots s.mem s'.mem
  fresh : Fresh d s'

theorem Frame.refl {d lo hi : Nat} {s : St} (h : Fresh d s) : Frame d lo hi s s :=
  ⟨Nat.le_refl _, fun _ _ _ => rfl, fun _ x h => ⟨x, h, rfl, rfl, rfl, fun _ => rfl⟩, SameSlots.refl _, h⟩

theorem Frame.trans {d lo hi : Nat} {a b c : St} (h : Frame d lo hi a b) (h' : Frame d lo hi b c) : Frame d lo hi a c := by
  have := h.len; have := h'.len
  refine ⟨by omega, fun j hj ho => ?_, fun e x hx => ?_, h.slots.trans h'.slots, h'.fresh⟩
  · rw [h'.mem j (by omega) ho, h.mem j hj ho]
  · obtain ⟨y, hy, a1, a2, a3, a4⟩ := h.docs e x hx
    obtain ⟨z, hz, b1, b2, b3, b4⟩ := h'.docs e y hy
    exact ⟨z, hz, b1.trans a1, b2.trans a2, b3.trans a3, fun hne => (b4 hne).trans (a4 hne)⟩

theorem Frame.wider {d lo hi lo' hi' : Nat} {s s' : St} (h : Frame d lo hi s s') (h1 : lo' ≤ lo) (h2 : hi ≤ hi') : Frame d lo' hi' s s' :=
  ⟨h.len, fun j hj ho => h.mem j hj (by omega), h.docs, h.slots, h.fresh⟩

theorem SameSlots.append' (m ext : Mem) : SameSlots m (m ++ ext) := by
  intro i c h
  exact ⟨c, by rw [List.getElem?_append_left (List.getElem?_eq_some_iff.1 h).1]; exact h, rfl, rfl⟩

/-- A new cell. -/
theorem frame_newCell {d lo hi : Nat} {s : St} (hf : Fresh d s) (c : Cell) : Frame d lo hi s { s with mem := s.mem ++ [c] } :=
  ⟨by simp, fun j hj _ => List.getElem?_append_left hj, fun _ x h => ⟨x, h, rfl, rfl, rfl, fun _ => rfl⟩, SameSlots.append' _ _,
    ⟨hf.self, hf.store⟩⟩

/-- New objects. -/
theorem frame_append {d lo hi : Nat} {s : St} (hf : Fresh d s) (ext : Mem) : Frame d lo hi s { s with mem := s.mem ++ ext } :=
  ⟨by simp, fun j hj _ => List.getElem?_append_left hj, fun _ x h => ⟨x, h, rfl, rfl, rfl, fun _ => rfl⟩, SameSlots.append' _ _,
    ⟨hf.self, hf.store⟩⟩

theorem docs_append {s : St} {e : Nat} {x y : Schema} (h : s.docs[e]? = some x) : (s.docs ++ [y])[e]? = some x := by
  rw [List.getElem?_append_left (List.getElem?_eq_some_iff.1 h).1]; exact h

/-- A new schema. -/
theorem frame_newSchema {d lo hi : Nat} {s : St} (hf : Fresh d s) (y : Schema) : Frame d lo hi s { s with docs := s.docs ++ [y] } := by
  refine ⟨Nat.le_refl _, fun _ _ _ => rfl, fun e x h => ⟨x, docs_append h, rfl, rfl, rfl, fun _ => rfl⟩, SameSlots.refl _, ?_, ?_⟩
  · obtain ⟨x, hx, hr⟩ := hf.self
    exact ⟨x, docs_append hx, hr⟩
  · intro t e h
    obtain ⟨x, hx, hr⟩ := hf.store t e h
    exact ⟨x, docs_append hx, hr⟩

/-- A new entry of the store. -/
theorem frame_store {d lo hi : Nat} {s : St} (hf : Fresh d s) (t : Str) (e : Nat) (he : ∃ x, s.docs[e]? = some x ∧ x.ready = false) :
    Frame d lo hi s { s with storage := dictSet t e s.storage } := by
  refine ⟨Nat.le_refl _, fun _ _ _ => rfl, fun _ x h => ⟨x, h, rfl, rfl, rfl, fun _ => rfl⟩, SameSlots.refl _, hf.self, fun t' e' h => ?_⟩
  change dictGet t' (dictSet t e s.storage) = some e' at h
  rw [dictGet_set] at h
  split at h
  · cases h; exact he
  · exact hf.store t' e' h

/-- A change of the schema `d`. -/
theorem frame_schema {d lo hi : Nat} {s : St} (hf : Fresh d s) {x y : Schema} (hx : s.docs[d]? = some x) (hr : y.ready = x.ready)
    (hv : y.vocabulary = x.vocabulary) (hv' : y.value = x.value) : Frame d lo hi s { s with docs := s.docs.set d y } := by
  have key : ∀ (e : Nat) (z : Schema), s.docs[e]? = some z → ∃ y', (s.docs.set d y)[e]? = some y' ∧ y'.ready = z.ready ∧
      y'.vocabulary = z.vocabulary ∧ y'.value = z.value ∧ (e ≠ d → y' = z) := by
    intro e z hz
    by_cases h : d = e
    · subst h
      rw [hx] at hz; cases hz
      exact ⟨y, by rw [List.getElem?_set_self (List.getElem?_eq_some_iff.1 hx).1], hr, hv, hv', fun h => absurd rfl h⟩
    · exact ⟨z, by rw [List.getElem?_set_ne h]; exact hz, rfl, rfl, rfl, fun _ => rfl⟩
  refine ⟨Nat.le_refl _, fun _ _ _ => rfl, key, SameSlots.refl _, ?_, fun t e h => ?_⟩
  · obtain ⟨z, hz, hzr⟩ := hf.self
    obtain ⟨y', h1, h2, -⟩ := key d z hz
    exact ⟨y', h1, h2.trans hzr⟩
  · obtain ⟨z, hz, hzr⟩ := hf.store t e h
    obtain ⟨y', h1, h2, -⟩ := key e z hz
    exact ⟨y', h1, h2.trans hzr⟩

/-- A change of the object `lo`. -/
theorem frame_shape {d lo : Nat} {s : St} (hf : Fresh d s) {c : Cell} (hc : s.mem[lo]? = some c) (sh : Shape) :
    Frame d lo (lo + 1) s { s with mem := s.mem.set lo { c with shape := sh } } := by
  refine ⟨by simp, fun j _ ho => ?_, fun _ x h => ⟨x, h, rfl, rfl, rfl, fun _ => rfl⟩, ?_, ⟨hf.self, hf.store⟩⟩
  · exact List.getElem?_set_ne (by omega)
  · intro j x hx
    by_cases e : lo = j
    · subst e
      rw [hc] at hx; cases hx
      exact ⟨{ c with shape := sh }, by rw [List.getElem?_set_self (List.getElem?_eq_some_iff.1 hc).1], rfl, rfl⟩
    · exact ⟨x, by rw [List.getElem?_set_ne e]; exact hx, rfl, rfl⟩

theorem newDocument_inv {v : Val} {voc : List Kw} {s s' : St} {e : Nat} (h : newDocument v voc s = (.ok e, s')) :
    ∃ ext y, e = s.docs.length ∧ y.ready = false ∧ s' = { s with mem := s.mem ++ ext, docs := s.docs ++ [y] } := by
  have key : (∃ xs, v = .list xs) ∨ (∃ kvs, v = .dict kvs) := by
    cases v
    case list xs => exact .inl ⟨xs, rfl⟩
    case dict xs => exact .inr ⟨xs, rfl⟩
    all_goals cases h
  obtain ⟨ext, -, e'⟩ := newDocument_spec key voc s
  rw [e'] at h; cases h
  exact ⟨ext, _, rfl, rfl, rfl⟩

theorem storeLoad_inv {u : Uri} {voc : List Kw} {d lo hi : Nat} {s s' : St} {e : Nat} (hf : Fresh d s) (h : storeLoad E u voc s = (.ok e, s')) :
    Frame d lo hi s s' ∧ (∃ x, s'.docs[e]? = some x ∧ x.ready = false) ∧ s'.docs[d]? = s.docs[d]? ∧
      ∃ t, Store.baseText E.ip u = .ok t ∧ dictGet t s'.storage = some e := by
  unfold storeLoad at h
  peel h t s1 h1
  obtain ⟨ht, rfl⟩ := lift_inv h1
  rw [M.bind_ok (state_apply s1)] at h
  cases hg : dictGet t s1.storage with
  | some e' =>
    rw [hg] at h
    cases h
    exact ⟨.refl hf, hf.store t _ hg, rfl, t, ht, hg⟩
  | none =>
    rw [hg] at h
    simp only at h
    cases hv : E.file u with
    | err e => rw [hv] at h; cases e <;> cases h
    | timeout => rw [hv] at h; cases h
    | ok v =>
      rw [hv] at h
      simp only at h
      peel h e1 s2 h2
      obtain ⟨ext, y, rfl, hy, rfl⟩ := newDocument_inv h2
      rw [M.bind_ok (state_apply _)] at h
      cases h
      have f1 : Frame d lo hi s1 { s1 with mem := s1.mem ++ ext } := frame_append hf ext
      have f2 := f1.trans (frame_newSchema f1.fresh y)
      have hn : (s1.docs ++ [y])[s1.docs.length]? = some y := by simp
      refine ⟨f2.trans (frame_store f2.fresh t _ ⟨y, hn, hy⟩), ⟨y, hn, hy⟩, ?_, t, ht, ?_⟩
      · obtain ⟨x, hx, -⟩ := hf.self
        exact (docs_append hx).trans hx.symm
      · change dictGet t (dictSet t _ s1.storage) = _
        rw [dictGet_set, if_pos rfl]

theorem storeAdd_inv {u : Uri} {d lo hi : Nat} {s s' : St} {e : Nat} (hf : Fresh d s) (he : ∃ x, s.docs[e]? = some x ∧ x.ready = false)
    (h : storeAdd E u e s = (.ok (), s')) : Frame d lo hi s s' ∧ s'.mem = s.mem ∧ s'.docs = s.docs ∧ Uri.isAbsolute E.ip u = .ok true := by
  unfold storeAdd at h
  peel h b s1 h1
  obtain ⟨hb, rfl⟩ := lift_inv h1
  split at h
  · next e1 =>
    subst e1
    peel h t s2 h2
    obtain ⟨ht, rfl⟩ := lift_inv h2
    rw [M.bind_ok (state_apply _)] at h
    cases h
    exact ⟨frame_store hf t e he, rfl, rfl, hb⟩
  · cases h

/-! ## The keywords -/

/-- The anchors of the schema `d`. -/
def anch (d : Nat) (s : St) : List (Str × Nat) := match s.docs[d]? with
  | some x => x.anchors
  | none => []

theorem anch_eq {d : Nat} {s s' : St} (h : s'.docs[d]? = s.docs[d]?) : anch d s' = anch d s := by
  unfold anch; rw [h]

theorem applyRef_inv {d n r f : Nat} {s s' : St} {c : Cell} {kvs : List (Str × Nat)} (hc : s.mem[n]? = some c) (ho : Own s n kvs)
    (hf : Fresh d s) (h : applyRef E (ops E f) d n s = (.ok r, s')) :
    ∃ t u ptr b e, TextOf E s kvs c!"$ref" t ∧ Uri.parse E.ip t = .ok u ∧ Pointer.parse u.fragment = .ok ptr ∧ Uri.baseUri E.ip u = .ok b ∧
      (Uri.truth b = false → e = d) ∧ (Uri.truth b = true → ∃ bt, Store.baseText E.ip u = .ok bt ∧ dictGet bt s'.storage = some e) ∧
      s.mem.length ≤ r ∧ s'.mem[r]? = some ⟨.ref n e ptr, c.parent, c.key⟩ ∧ (∃ x, s'.docs[e]? = some x ∧ x.ready = false) ∧
      s'.docs[d]? = s.docs[d]? ∧ (∀ j, j < s.mem.length → s'.mem[j]? = s.mem[j]?) ∧ Frame d n (n + 1) s s' := by
  unfold applyRef at h
  peel h t s1 h1
  obtain ⟨rfl, ht⟩ := itemText_inv E ho h1
  peel h u s2 h2
  obtain ⟨hu, rfl⟩ := lift_inv h2
  peel h ptr s3 h3
  obtain ⟨hp, rfl⟩ := lift_inv h3
  peel h b s4 h4
  obtain ⟨hb, rfl⟩ := lift_inv h4
  rw [M.bind_ok (cell_apply hc)] at h
  cases hT : Uri.truth b with
  | false =>
    rw [hT] at h
    cases h
    refine ⟨t, u, ptr, b, d, ht, hu, hp, hb, fun _ => rfl, fun h => (by rw [hT] at h; cases h), Nat.le_refl _, by simp, hf.self, rfl,
      fun j hj => List.getElem?_append_left hj, frame_newCell hf _⟩
  | true =>
    rw [hT] at h
    simp only [Bool.not_true, Bool.false_eq_true, if_false] at h
    peel h x s5 h5
    obtain ⟨hx, rfl⟩ := schema_inv h5
    peel h e s6 h6
    obtain ⟨f1, he, hd, bt, hbt, hst⟩ := storeLoad_inv E (lo := n) (hi := n + 1) hf h6
    obtain ⟨f2, -⟩ := storeLoad_inv E (lo := n) (hi := n) hf h6
    cases h
    refine ⟨t, u, ptr, b, e, ht, hu, hp, hb, fun h => (by rw [hT] at h; cases h), fun _ => ⟨bt, hbt, hst⟩, f1.len, by simp, he, hd, fun j hj => ?_,
      f1.trans (frame_newCell f1.fresh _)⟩
    have := f1.len
    change (s6.mem ++ _)[j]? = _
    rw [List.getElem?_append_left (by omega)]
    exact f2.mem j hj (by omega)

theorem applyAnchor_inv {d n r f : Nat} {s s' : St} {c : Cell} {kvs : List (Str × Nat)} (hc : s.mem[n]? = some c) (ho : Own s n kvs)
    (hf : Fresh d s) (h : applyAnchor E (ops E f) d n s = (.ok r, s')) :
    c.shape = .obj kvs ∧ r = n ∧ ∃ t, TextOf E s kvs c!"$anchor" t ∧ anch d s' = dictSet t n (anch d s) ∧
      s'.mem = s.mem.set n { c with shape := .obj (if dictHas c!"$anchor" kvs then dictDel c!"$anchor" kvs else kvs) } ∧ Frame d n (n + 1) s s' := by
  unfold applyAnchor at h
  peel h t s1 h1
  obtain ⟨rfl, ht⟩ := itemText_inv E ho h1
  peel h x s2 h2
  obtain ⟨hx, rfl⟩ := schema_inv h2
  have e : setSchema d { x with anchors := dictSet t n x.anchors } s2 =
    (.ok (), { s2 with docs := s2.docs.set d { x with anchors := dictSet t n x.anchors } }) := rfl
  rw [M.bind_ok e] at h
  have f1 : Frame d n (n + 1) s2 { s2 with docs := s2.docs.set d { x with anchors := dictSet t n x.anchors } } :=
    frame_schema hf hx rfl rfl rfl
  rw [M.bind_ok (cell_apply (s := { s2 with docs := s2.docs.set d { x with anchors := dictSet t n x.anchors } }) hc)] at h
  cases hsh : c.shape with
  | obj kvs' =>
    have : kvs' = kvs := by
      cases ho with
      | obj hc' hs' => rw [hc] at hc'; cases hc'; rw [hsh] at hs'; cases hs'; rfl
      | ref hc' hs' => rw [hc] at hc'; cases hc'; rw [hsh] at hs'; cases hs'
    subst this
    rw [hsh] at h
    simp only at h
    rw [M.bind_ok (setShape_apply (s := { s2 with docs := s2.docs.set d { x with anchors := dictSet t n x.anchors } }) hc _)] at h
    cases h
    refine ⟨rfl, rfl, t, ht, ?_, rfl, f1.trans (frame_shape f1.fresh (c := c) hc _)⟩
    simp only [anch, hx]
    rw [List.getElem?_set_self (List.getElem?_eq_some_iff.1 hx).1]
  | null => rw [hsh] at h; cases h
  | bool => rw [hsh] at h; cases h
  | num => rw [hsh] at h; cases h
  | str => rw [hsh] at h; cases h
  | arr => rw [hsh] at h; cases h
  | ref => rw [hsh] at h; cases h

/-- The member `IdKeyword` reads. -/
def idKey (ks : List Str) : Str := if c!"$id" ∈ ks then c!"$id" else c!"id"

/-- What must hold of an embedded `$id` or `id`, for loading to get past it. -/
def IdPast (s : St) (n : Nat) (kvs : List (Str × Nat)) : Prop :=
  ∃ t u, TextOf E s kvs (idKey (kvs.map Prod.fst)) t ∧ Uri.parse E.ip t = .ok u ∧ u.fragment = [] ∧
    (Uri.isAbsolute E.ip u = .ok true ∨ ∃ top kt, root s.mem n = .ok top ∧ Own s top kt ∧ (c!"$id" ∈ kt.map Prod.fst ∨ c!"id" ∈ kt.map Prod.fst))

theorem idText_inv {s s' : St} {i f : Nat} {kvs : List (Str × Nat)} {t : Str} (ho : Own s i kvs) (h : idText E (ops E f) i s = (.ok t, s')) :
    s' = s ∧ TextOf E s kvs (idKey (kvs.map Prod.fst)) t := by
  unfold idText at h
  peel h ys s1 h1
  obtain ⟨rfl, rfl⟩ := ho.members E h1
  unfold idKey
  cases hh : dictHas c!"$id" ys with
  | true =>
    rw [hh] at h
    rw [if_pos (dictHas_iff.1 hh)]
    exact itemText_inv E ho h
  | false =>
    rw [hh] at h
    rw [if_neg (by rw [← dictHas_iff]; simp [hh])]
    exact itemText_inv E ho h

theorem applyId_inv {d n r f : Nat} {s s' : St} {c : Cell} {kvs : List (Str × Nat)} (hc : s.mem[n]? = some c) (ho : Own s n kvs)
    (hf : Fresh d s) (hroot : c.parent ≠ none → ∀ top, root s.mem n = .ok top → ∃ kt, Own s top kt)
    (h : applyId E (ops E f) d n s = (.ok r, s')) :
    r = n ∧ s'.mem = s.mem ∧ anch d s' = anch d s ∧ Frame d n n s s' ∧
      (c.parent ≠ none → (∃ ks, path s.mem n = .ok ks ∧ c!"enum" ∈ ks) ∨ (c.shape.isRef = false ∧ IdPast E s n kvs)) := by
  unfold applyId at h
  peel h t s1 h1
  obtain ⟨rfl, ht⟩ := idText_inv E ho h1
  peel h u s2 h2
  obtain ⟨hu, rfl⟩ := lift_inv h2
  by_cases hfr : u.fragment = []
  · rw [if_neg (by simpa using hfr), M.bind_ok (cell_apply hc)] at h
    cases hp : c.parent with
    | none =>
      rw [hp] at h
      simp only at h
      peel h x s3 h3
      obtain ⟨hx, rfl⟩ := schema_inv h3
      have e : setSchema d { x with ident := some u } s3 = (.ok (), { s3 with docs := s3.docs.set d { x with ident := some u } }) := rfl
      rw [M.bind_ok e] at h
      have f1 : Frame d n n s3 { s3 with docs := s3.docs.set d { x with ident := some u } } := frame_schema hf hx rfl rfl rfl
      have ha : anch d { s3 with docs := s3.docs.set d { x with ident := some u } } = anch d s3 := by
        simp only [anch, hx]
        rw [List.getElem?_set_self (List.getElem?_eq_some_iff.1 hx).1]
      peel h bt s4 h4
      obtain ⟨hbt, rfl⟩ := lift_inv h4
      rw [M.bind_ok (state_apply _)] at h
      split at h
      · cases h
        exact ⟨rfl, rfl, ha, f1, fun h => absurd rfl h⟩
      · peel h _u s5 h5
        obtain ⟨f2, e1, e2, -⟩ := storeAdd_inv E (lo := n) (hi := n) f1.fresh f1.fresh.self h5
        cases h
        exact ⟨rfl, e1, (anch_eq (by rw [e2])).trans ha, f1.trans f2, fun h => absurd rfl h⟩
    | some j =>
      rw [hp] at h
      simp only at h
      rw [M.bind_ok (state_apply _)] at h
      peel h ks s3 h3
      obtain ⟨hks, rfl⟩ := lift_inv h3
      cases hen : ks.contains c!"enum" with
      | true =>
        rw [hen] at h
        cases h
        exact ⟨rfl, rfl, rfl, .refl hf, fun _ => .inl ⟨ks, hks, by simpa using hen⟩⟩
      | false =>
        rw [hen] at h
        simp only [Bool.false_eq_true, if_false] at h
        peel h cu s4 h4
        have hcu : s4 = s3 ∧ (Uri.isAbsolute E.ip u = .ok true ∨ ∃ top kt, root s3.mem n = .ok top ∧ Own s3 top kt ∧
            (c!"$id" ∈ kt.map Prod.fst ∨ c!"id" ∈ kt.map Prod.fst)) := by
          unfold childUri at h4
          peel h4 b s5 h5
          obtain ⟨hb, rfl⟩ := lift_inv h5
          cases b with
          | true => cases h4; exact ⟨rfl, .inl hb⟩
          | false =>
            simp only [Bool.false_eq_true, if_false] at h4
            rw [M.bind_ok (state_apply _)] at h4
            peel h4 top s6 h6
            obtain ⟨htop, rfl⟩ := lift_inv h6
            obtain ⟨kt, hkt⟩ := hroot (by rw [hp]; simp) top htop
            peel h4 ys s7 h7
            obtain ⟨rfl, rfl⟩ := hkt.members E h7
            cases hd1 : dictHas c!"$id" ys with
            | true =>
              rw [hd1] at h4
              simp only [if_true] at h4
              peel h4 t1 s8 h8
              obtain ⟨rfl, -⟩ := itemText_inv E hkt h8
              peel h4 u1 s9 h9
              obtain ⟨-, rfl⟩ := lift_inv h9
              obtain ⟨-, rfl⟩ := lift_inv h4
              exact ⟨rfl, .inr ⟨top, ys, htop, hkt, .inl (dictHas_iff.1 hd1)⟩⟩
            | false =>
              rw [hd1] at h4
              simp only [Bool.false_eq_true, if_false] at h4
              cases hd2 : dictHas c!"id" ys with
              | true =>
                rw [hd2] at h4
                simp only [if_true] at h4
                peel h4 t1 s8 h8
                obtain ⟨rfl, -⟩ := itemText_inv E hkt h8
                peel h4 u1 s9 h9
                obtain ⟨-, rfl⟩ := lift_inv h9
                obtain ⟨-, rfl⟩ := lift_inv h4
                exact ⟨rfl, .inr ⟨top, ys, htop, hkt, .inr (dictHas_iff.1 hd2)⟩⟩
              | false => rw [hd2] at h4; cases h4
        obtain ⟨rfl, habs⟩ := hcu
        cases hsh : c.shape with
        | obj kvs' =>
          rw [hsh] at h
          simp only at h
          peel h x s5 h5
          obtain ⟨hx, rfl⟩ := schema_inv h5
          peel h e s6 h6
          have : e = s5.docs.length ∧ s6 = { s5 with docs := s5.docs ++ [⟨n, false, x.vocabulary, [], some cu⟩] } := by cases h6; exact ⟨rfl, rfl⟩
          obtain ⟨rfl, rfl⟩ := this
          peel h _u s7 h7
          have f1 : Frame d n n s5 { s5 with docs := s5.docs ++ [⟨n, false, x.vocabulary, [], some cu⟩] } := frame_newSchema hf _
          obtain ⟨f2, e1, e2, -⟩ := storeAdd_inv E (lo := n) (hi := n) f1.fresh ⟨⟨n, false, x.vocabulary, [], some cu⟩, by simp, rfl⟩ h7
          cases h
          refine ⟨rfl, e1, anch_eq ?_, f1.trans f2, fun _ => .inr ⟨rfl, t, u, ht, hu, hfr, habs⟩⟩
          rw [e2]
          exact (docs_append hx).trans hx.symm
        | null => rw [hsh] at h; cases h
        | bool => rw [hsh] at h; cases h
        | num => rw [hsh] at h; cases h
        | str => rw [hsh] at h; cases h
        | arr => rw [hsh] at h; cases h
        | ref => rw [hsh] at h; cases h
  · rw [if_pos (by simpa using hfr)] at h
    cases h

end Verif.Obj
