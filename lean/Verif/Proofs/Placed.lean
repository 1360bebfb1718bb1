import Verif.Proofs.Later
import Verif.Proofs.Steps
/-! # Every object stays in its place, whatever programs do -/

namespace Verif.Obj
open Verif Verif.Spec

/-- The object has this parent and key. -/
def Slots (m : Mem) (i : Nat) (p : Option Nat) (k : Str) : Prop := ∃ c, m[i]? = some c ∧ c.parent = p ∧ c.key = k

/-- One object is older than its members and elements, and they name it as their parent, with their keys; a reference is in the place of
its `node`. -/
structure CellOk (m : Mem) (i : Nat) (c : Cell) : Prop where
  up : ∀ p, c.parent = some p → p < i
  obj : ∀ kvs, c.shape = .obj kvs → (kvs.map Prod.fst).Nodup ∧ ∀ k x, (k, x) ∈ kvs → Slots m x (some i) k
  arr : ∀ xs, c.shape = .arr xs → ∀ (t x : Nat), xs[t]? = some x → Slots m x (some i) (natStr t)
  ref : ∀ n e ptr, c.shape = .ref n e ptr → Slots m n c.parent c.key

/-- All objects are so, and the values of the schemas exist. -/
structure Inv (s : St) : Prop where
  cells : ∀ (i : Nat) (c : Cell), s.mem[i]? = some c → CellOk s.mem i c
  docs : ∀ (d : Nat) (x : Schema), s.docs[d]? = some x → ∃ p k, Slots s.mem x.value p k

def SameCell (c c' : Cell) : Prop :=
  c'.parent = c.parent ∧ c'.key = c.key ∧ (c'.shape = c.shape ∨ (∃ a, c.shape = .obj a) ∧ ∃ b, c'.shape = .obj b)

/-- Objects keep their slots; only objects of the type object change, and stay such; the value of a schema keeps its place. -/
structure Grown (s s' : St) : Prop where
  cells : ∀ (i : Nat) (c : Cell), s.mem[i]? = some c → ∃ c', s'.mem[i]? = some c' ∧ SameCell c c'
  docs : ∀ (d : Nat) (x : Schema), s.docs[d]? = some x → ∃ y : Schema, s'.docs[d]? = some y ∧ ∀ p k, Slots s.mem x.value p k → Slots s'.mem y.value p k

theorem SameCell.refl (c : Cell) : SameCell c c := ⟨rfl, rfl, .inl rfl⟩
theorem SameCell.trans {a b c : Cell} (h : SameCell a b) (h' : SameCell b c) : SameCell a c := by
  refine ⟨h'.1.trans h.1, h'.2.1.trans h.2.1, ?_⟩
  rcases h.2.2 with e | ⟨h1, h2⟩
  · rcases h'.2.2 with e' | ⟨h1, h2⟩
    · exact .inl (e'.trans e)
    · exact .inr ⟨by rw [← e]; exact h1, h2⟩
  · rcases h'.2.2 with e' | ⟨_, h3⟩
    · exact .inr ⟨h1, by rw [e']; exact h2⟩
    · exact .inr ⟨h1, h3⟩

theorem Grown.slots {s s' : St} (h : Grown s s') {i : Nat} {p : Option Nat} {k : Str} (hs : Slots s.mem i p k) : Slots s'.mem i p k := by
  obtain ⟨c, hc, rfl, rfl⟩ := hs
  obtain ⟨c', hc', e1, e2, -⟩ := h.cells i c hc
  exact ⟨c', hc', e1, e2⟩

theorem Grown.refl (s : St) : Grown s s := ⟨fun _ c h => ⟨c, h, .refl c⟩, fun _ x h => ⟨x, h, fun _ _ h => h⟩⟩
theorem Grown.trans {a b c : St} (h : Grown a b) (h' : Grown b c) : Grown a c := by
  refine ⟨fun i x hx => ?_, fun d x hx => ?_⟩
  · obtain ⟨y, hy, e⟩ := h.cells i x hx
    obtain ⟨z, hz, e'⟩ := h'.cells i y hy
    exact ⟨z, hz, e.trans e'⟩
  · obtain ⟨y, hy, e⟩ := h.docs d x hx
    obtain ⟨z, hz, e'⟩ := h'.docs d y hy
    exact ⟨z, hz, fun p k h => e' p k (e p k h)⟩

theorem CellOk.grown {s s' : St} (h : Grown s s') {i : Nat} {c c' : Cell} (hc : CellOk s.mem i c) (e : c'.shape = c.shape) (e' : c'.parent = c.parent) (e'' : c'.key = c.key) :
    CellOk s'.mem i c' :=
  ⟨fun p hp => hc.up p (e' ▸ hp), fun kvs hk => ⟨(hc.obj kvs (e ▸ hk)).1, fun k x hx => h.slots ((hc.obj kvs (e ▸ hk)).2 k x hx)⟩,
    fun xs hx t x ht => h.slots (hc.arr xs (e ▸ hx) t x ht),
    fun n d ptr hx => by rw [e', e'']; exact h.slots (hc.ref n d ptr (e ▸ hx))⟩

/-- What a program does in the state `s`. -/
def Post {α : Type} (x : M α) (s : St) (R : α → St → Prop) : Prop :=
  Inv (x s).2 ∧ Grown s (x s).2 ∧ ∀ a, (x s).1 = .ok a → R a (x s).2

section
variable {α β : Type}

theorem Post.bind {x : M α} {f : α → M β} {s : St} {Q : α → St → Prop} {R : β → St → Prop} (hx : Post x s Q)
    (hf : ∀ a s', Grown s s' → Inv s' → Q a s' → Post (f a) s' R) : Post (x >>= f) s R := by
  unfold Post
  rw [M.bind_apply]
  obtain ⟨h1, h2, h3⟩ := hx
  cases e : x s with
  | mk r s1 =>
    rw [e] at h1 h2 h3
    cases r with
    | ok a =>
      obtain ⟨g1, g2, g3⟩ := hf a s1 h2 h1 (h3 a rfl)
      exact ⟨g1, h2.trans g2, g3⟩
    | err e => exact ⟨h1, h2, fun a h => by cases h⟩
    | timeout => exact ⟨h1, h2, fun a h => by cases h⟩

theorem Post.mono {x : M α} {s : St} {Q R : α → St → Prop} (hx : Post x s Q) (h : ∀ a s', Grown s s' → Q a s' → R a s') : Post x s R :=
  ⟨hx.1, hx.2.1, fun a e => h a _ hx.2.1 (hx.2.2 a e)⟩

theorem Post.top {x : M α} {s : St} {Q : α → St → Prop} (hx : Post x s Q) : Post x s fun _ _ => True := hx.mono fun _ _ _ _ => trivial

variable {s : St} (hs : Inv s)
include hs

theorem post_pure {a : α} {R : α → St → Prop} (h : R a s) : Post (Pure.pure a : M α) s R :=
  ⟨hs, .refl s, fun b e => by cases e; exact h⟩
theorem post_lift (x : Res α) : Post (lift x) s fun a s' => s' = s ∧ x = .ok a := ⟨hs, .refl s, fun _ e => ⟨rfl, e⟩⟩
theorem post_raise (e : PyErr) {R : α → St → Prop} : Post (raise e : M α) s R := ⟨hs, .refl s, fun b e => by cases e⟩
theorem post_state : Post state s fun a s' => a = s ∧ s' = s := ⟨hs, .refl s, fun b e => by cases e; exact ⟨rfl, rfl⟩⟩
theorem post_cell (i : Nat) : Post (cell i) s fun c s' => s' = s ∧ s.mem[i]? = some c := by
  unfold Post Obj.cell
  split
  · next c h => exact ⟨hs, .refl s, fun b e => by cases e; exact ⟨rfl, h⟩⟩
  · exact ⟨hs, .refl s, fun b e => by cases e⟩
theorem post_schema (i : Nat) : Post (schema i) s fun c s' => s' = s ∧ s.docs[i]? = some c := by
  unfold Post Obj.schema
  split
  · next c h => exact ⟨hs, .refl s, fun b e => by cases e; exact ⟨rfl, h⟩⟩
  · exact ⟨hs, .refl s, fun b e => by cases e⟩
theorem post_setStorage (x : List (Str × Nat)) : Post (setStorage x) s fun _ _ => True :=
  ⟨⟨hs.cells, hs.docs⟩, ⟨fun _ c h => ⟨c, h, .refl c⟩, fun _ x h => ⟨x, h, fun _ _ h => h⟩⟩, fun _ _ => trivial⟩

/-- An object gets other members. -/
theorem post_setShape {i : Nat} {c : Cell} {a : List (Str × Nat)} (hc : s.mem[i]? = some c) (ha : c.shape = .obj a) {kvs : List (Str × Nat)}
    (hn : (kvs.map Prod.fst).Nodup) (hk : ∀ k x, (k, x) ∈ kvs → Slots s.mem x (some i) k) : Post (setShape i (.obj kvs)) s fun _ _ => True := by
  have e : setShape i (.obj kvs) s = (.ok (), { s with mem := s.mem.set i { c with shape := .obj kvs } }) := setShape_apply hc _
  have hi := (List.getElem?_eq_some_iff.1 hc).1
  have hg : Grown s { s with mem := s.mem.set i { c with shape := .obj kvs } } := by
    have hcells : ∀ (j : Nat) (x : Cell), s.mem[j]? = some x → ∃ c', (s.mem.set i { c with shape := .obj kvs })[j]? = some c' ∧ SameCell x c' := by
      intro j x hx
      by_cases ej : i = j
      · subst ej
        rw [hc] at hx; cases hx
        exact ⟨_, List.getElem?_set_self hi, rfl, rfl, .inr ⟨⟨a, ha⟩, kvs, rfl⟩⟩
      · exact ⟨x, by rw [List.getElem?_set_ne ej]; exact hx, .refl x⟩
    refine ⟨hcells, fun d x hx => ⟨x, hx, ?_⟩⟩
    rintro p k ⟨y, hy, rfl, rfl⟩
    obtain ⟨z, hz, e1, e2, -⟩ := hcells _ _ hy
    exact ⟨z, hz, e1, e2⟩
  unfold Post
  rw [e]
  refine ⟨⟨fun j x hx => ?_, fun d x hx => ?_⟩, hg, fun _ _ => trivial⟩
  · by_cases ej : i = j
    · subst ej
      have hx : some { c with shape := .obj kvs } = some x := by rw [← hx]; exact (List.getElem?_set_self hi).symm
      cases hx
      exact ⟨(hs.cells i c hc).up, fun b hb => by cases hb; exact ⟨hn, fun k x hx => hg.slots (hk k x hx)⟩, fun b hb => (by cases hb), fun _ _ _ h => (by cases h)⟩
    · have hx : s.mem[j]? = some x := by rw [← hx]; exact (List.getElem?_set_ne ej).symm
      exact (hs.cells j x hx).grown hg rfl rfl rfl
  · obtain ⟨p, k, h⟩ := hs.docs d x hx
    exact ⟨p, k, hg.slots h⟩

/-- A reference is made in the place of an object. -/
theorem post_newCell {n : Nat} {c : Cell} (hc : s.mem[n]? = some c) (e : Nat) (ptr : List Str) :
    Post (newCell ⟨.ref n e ptr, c.parent, c.key⟩) s fun r s' => Slots s'.mem r c.parent c.key := by
  have hi := (List.getElem?_eq_some_iff.1 hc).1
  have hcells : ∀ (j : Nat) (x : Cell), s.mem[j]? = some x → (s.mem ++ [⟨.ref n e ptr, c.parent, c.key⟩])[j]? = some x := fun j x hx => by
    rw [List.getElem?_append_left (List.getElem?_eq_some_iff.1 hx).1]; exact hx
  have hg : Grown s { s with mem := s.mem ++ [⟨.ref n e ptr, c.parent, c.key⟩] } :=
    ⟨fun j x hx => ⟨x, hcells j x hx, .refl x⟩, fun d x hx => ⟨x, hx, fun p k ⟨y, hy, h⟩ => ⟨y, hcells _ _ hy, h⟩⟩⟩
  refine ⟨⟨fun j x hx => ?_, fun d x hx => ?_⟩, hg, fun r hr => ?_⟩
  · by_cases hj : j < s.mem.length
    · have hx : s.mem[j]? = some x := by rw [← hx]; exact (List.getElem?_append_left hj).symm
      exact (hs.cells j x hx).grown hg rfl rfl rfl
    · have hj' : j = s.mem.length := by
        have := (List.getElem?_eq_some_iff.1 hx).1
        simp only [newCell, List.length_append, List.length_singleton] at this
        omega
      subst hj'
      have hx : some (⟨.ref n e ptr, c.parent, c.key⟩ : Cell) = some x := by rw [← hx]; simp [newCell]
      cases hx
      exact ⟨fun p hp => by have := (hs.cells n c hc).up p hp; omega, fun _ h => (by cases h), fun _ h => (by cases h),
        fun n' d' p' h => by cases h; exact hg.slots ⟨c, hc, rfl, rfl⟩⟩
  · obtain ⟨p, k, h⟩ := hs.docs d x hx
    exact ⟨p, k, hg.slots h⟩
  · cases hr
    exact ⟨⟨.ref n e ptr, c.parent, c.key⟩, by simp [newCell], rfl, rfl⟩

/-- A schema is made for an object. -/
theorem post_newSchema {x : Schema} {p : Option Nat} {k : Str} (hx : Slots s.mem x.value p k) : Post (newSchema x) s fun _ _ => True := by
  refine ⟨⟨hs.cells, fun d y hy => ?_⟩, ⟨fun _ c h => ⟨c, h, .refl c⟩, fun d y h => ⟨y, ?_, fun _ _ h => h⟩⟩, fun _ _ => trivial⟩
  · by_cases hd : d < s.docs.length
    · exact hs.docs d y (by rw [← hy]; exact (List.getElem?_append_left hd).symm)
    · have hd' : d = s.docs.length := by
        have := (List.getElem?_eq_some_iff.1 hy).1
        simp only [newSchema, List.length_append, List.length_singleton] at this
        omega
      subst hd'
      have hy : some x = some y := by rw [← hy]; simp [newSchema]
      cases hy
      exact ⟨p, k, hx⟩
  · exact (List.getElem?_append_left (List.getElem?_eq_some_iff.1 h).1).trans h

/-- A schema changes; its value keeps its place. -/
theorem post_setSchema {d : Nat} {x y : Schema} (hd : s.docs[d]? = some x) (hx : ∀ p k, Slots s.mem x.value p k → Slots s.mem y.value p k) :
    Post (setSchema d y) s fun _ _ => True := by
  have hi := (List.getElem?_eq_some_iff.1 hd).1
  refine ⟨⟨hs.cells, fun e z hz => ?_⟩, ⟨fun _ c h => ⟨c, h, .refl c⟩, fun e z hz => ?_⟩, fun _ _ => trivial⟩
  · by_cases h : d = e
    · subst h
      have hz : some y = some z := by rw [← hz]; exact (List.getElem?_set_self hi).symm
      cases hz
      obtain ⟨p, k, h⟩ := hs.docs d x hd
      exact ⟨p, k, hx p k h⟩
    · exact hs.docs e z (by rw [← hz]; exact (List.getElem?_set_ne h).symm)
  · by_cases h : d = e
    · subst h
      rw [hd] at hz; cases hz
      exact ⟨y, List.getElem?_set_self hi, hx⟩
    · exact ⟨z, (List.getElem?_set_ne h).trans hz, fun _ _ h => h⟩

end

mutual
/-- The objects made from data are in their places. -/
theorem Tree.cells {m : Mem} : ∀ {n : Node} {p : Option Nat} {k : Str} {lo hi : Nat}, Tree m n p k lo hi → n.RefFree → (∀ q, p = some q → q < lo) →
    ∀ i c, lo ≤ i → i < hi → m[i]? = some c → CellOk m i c
  | .null, p, k, lo, hi, h, _, hp => tree_leaf (by rw [Tree] at h; exact h) (fun _ => by simp) (fun _ => by simp) (fun _ _ _ => by simp) hp
  | .bool b, p, k, lo, hi, h, _, hp => tree_leaf (by rw [Tree] at h; exact h) (fun _ => by simp) (fun _ => by simp) (fun _ _ _ => by simp) hp
  | .num x, p, k, lo, hi, h, _, hp => tree_leaf (by rw [Tree] at h; exact h) (fun _ => by simp) (fun _ => by simp) (fun _ _ _ => by simp) hp
  | .str x, p, k, lo, hi, h, _, hp => tree_leaf (by rw [Tree] at h; exact h) (fun _ => by simp) (fun _ => by simp) (fun _ _ _ => by simp) hp
  | .arr xs, p, k, lo, hi, h, hr, hp => by
    rw [Tree] at h; obtain ⟨ids, h1, h2⟩ := h
    rw [Node.RefFree] at hr
    intro i c hlo hhi hc
    by_cases e : i = lo
    · subst e
      rw [h1] at hc; cases hc
      refine ⟨hp, fun _ h => (by cases h), fun ys hy t x ht => ?_, fun _ _ _ h => (by cases h)⟩
      cases hy
      obtain ⟨y, hi', -, e2, -⟩ := TreeL.get h2 ht
      rw [Nat.zero_add] at e2
      exact e2.slots
    · exact TreeL.cells h2 hr (by omega) i c (by omega) hhi hc
  | .obj xs, p, k, lo, hi, h, hr, hp => by
    rw [Tree] at h; obtain ⟨ids, h1, h2⟩ := h
    rw [Node.RefFree] at hr
    intro i c hlo hhi hc
    by_cases e : i = lo
    · subst e
      rw [h1] at hc; cases hc
      refine ⟨hp, fun ys hy => ?_, fun _ h => (by cases h), fun _ _ _ h => (by cases h)⟩
      cases hy
      refine ⟨by rw [h2.keys]; exact hr.1, fun k x hx => ?_⟩
      obtain ⟨y, hi', -, e2, -⟩ := TreeD.get h2 hx
      exact e2.slots
    · exact TreeD.cells h2 hr.2 (by omega) i c (by omega) hhi hc
  | .ref .., _, _, _, _, h, _, _ => by rw [Tree] at h; exact h.elim
theorem TreeL.cells {m : Mem} : ∀ {xs : List Node} {t self : Nat} {ids : List Nat} {lo hi : Nat}, TreeL m xs t self ids lo hi → Node.RefFreeL xs → self < lo →
    ∀ i c, lo ≤ i → i < hi → m[i]? = some c → CellOk m i c
  | [], _, _, _, lo, hi, h, _, _ => by rw [TreeL] at h; intro i c h1 h2; omega
  | x :: xs, _, self, _, lo, hi, h, hr, hlt => by
    rw [TreeL] at h; obtain ⟨mid, rest, rfl, h1, h2⟩ := h
    rw [Node.RefFreeL] at hr
    intro i c hlo hhi hc
    have := h1.lt
    by_cases e : i < mid
    · exact Tree.cells h1 hr.1 (fun q hq => by cases hq; exact hlt) i c hlo e hc
    · exact TreeL.cells h2 hr.2 (by omega) i c (by omega) hhi hc
theorem TreeD.cells {m : Mem} : ∀ {xs : List (Str × Node)} {self : Nat} {ids : List (Str × Nat)} {lo hi : Nat}, TreeD m xs self ids lo hi → Node.RefFreeD xs → self < lo →
    ∀ i c, lo ≤ i → i < hi → m[i]? = some c → CellOk m i c
  | [], _, _, lo, hi, h, _, _ => by rw [TreeD] at h; intro i c h1 h2; omega
  | (k, x) :: xs, self, _, lo, hi, h, hr, hlt => by
    rw [TreeD] at h; obtain ⟨mid, rest, rfl, h1, h2⟩ := h
    rw [Node.RefFreeD] at hr
    intro i c hlo hhi hc
    have := h1.lt
    by_cases e : i < mid
    · exact Tree.cells h1 hr.1 (fun q hq => by cases hq; exact hlt) i c hlo e hc
    · exact TreeD.cells h2 hr.2 (by omega) i c (by omega) hhi hc
theorem tree_leaf {m : Mem} {sh : Shape} {p : Option Nat} {k : Str} {lo hi : Nat} (h : m[lo]? = some ⟨sh, p, k⟩ ∧ hi = lo + 1)
    (ho : ∀ a, sh ≠ .obj a) (ha : ∀ a, sh ≠ .arr a) (hr : ∀ n e p, sh ≠ .ref n e p) (hp : ∀ q, p = some q → q < lo) :
    ∀ i c, lo ≤ i → i < hi → m[i]? = some c → CellOk m i c := by
  intro i c h1 h2 hc
  obtain rfl : i = lo := by omega
  rw [h.1] at hc; cases hc
  exact ⟨hp, fun a e => absurd e (ho a), fun a e => absurd e (ha a), fun n d p e => absurd e (hr n d p)⟩
end

theorem post_newDocument {s : St} (hs : Inv s) {v : Val} (hv : (wrap v).RefFree) (voc : List Kw) :
    Post (newDocument v voc) s fun d s' => ∃ x, s'.docs[d]? = some x ∧ Slots s'.mem x.value none [] := by
  have key : (∃ xs, v = .list xs) ∨ (∃ kvs, v = .dict kvs) →
      Post (newDocument v voc) s fun d s' => ∃ x, s'.docs[d]? = some x ∧ Slots s'.mem x.value none [] := by
    intro h
    obtain ⟨ext, ht, e⟩ := newDocument_spec h voc s
    unfold Post
    rw [e]
    have hcells : ∀ (j : Nat) (x : Cell), s.mem[j]? = some x → (s.mem ++ ext)[j]? = some x := fun j x hx => by
      rw [List.getElem?_append_left (List.getElem?_eq_some_iff.1 hx).1]; exact hx
    have hdocs : ∀ (d : Nat) (x : Schema), s.docs[d]? = some x → (s.docs ++ [⟨s.mem.length, false, voc, [], none⟩])[d]? = some x := fun j x hx => by
      rw [List.getElem?_append_left (List.getElem?_eq_some_iff.1 hx).1]; exact hx
    have hg : Grown s { s with mem := s.mem ++ ext, docs := s.docs ++ [⟨s.mem.length, false, voc, [], none⟩] } :=
      ⟨fun j x hx => ⟨x, hcells j x hx, .refl x⟩, fun d x hx => ⟨x, hdocs d x hx, fun p k ⟨y, hy, h⟩ => ⟨y, hcells _ _ hy, h⟩⟩⟩
    refine ⟨⟨fun j x hx => ?_, fun d x hx => ?_⟩, hg, fun d hd => ?_⟩
    · by_cases hj : j < s.mem.length
      · have hx : s.mem[j]? = some x := by rw [← hx]; exact (List.getElem?_append_left hj).symm
        exact (hs.cells j x hx).grown hg rfl rfl rfl
      · refine ht.cells hv (fun q hq => by cases hq) j x (by omega) ?_ hx
        have := (List.getElem?_eq_some_iff.1 hx).1
        simpa using this
    · by_cases hd : d < s.docs.length
      · obtain ⟨p, k, h⟩ := hs.docs d x (by rw [← hx]; exact (List.getElem?_append_left hd).symm)
        exact ⟨p, k, hg.slots h⟩
      · have hd' : d = s.docs.length := by
          have := (List.getElem?_eq_some_iff.1 hx).1
          simp only [List.length_append, List.length_singleton] at this
          omega
        subst hd'
        have hx : some (⟨s.mem.length, false, voc, [], none⟩ : Schema) = some x := by rw [← hx]; simp
        cases hx
        exact ⟨_, _, ht.slots⟩
    · cases hd
      exact ⟨⟨s.mem.length, false, voc, [], none⟩, by simp, ht.slots⟩
  cases v
  case list xs => exact key (.inl ⟨xs, rfl⟩)
  case dict xs => exact key (.inr ⟨xs, rfl⟩)
  all_goals exact post_raise hs _

theorem mem_of_del {α : Type} {a k : Str} {x : α} {d : List (Str × α)} (h : (k, x) ∈ dictDel a d) : (k, x) ∈ d := by
  induction d with
  | nil => exact h
  | cons p d ih =>
    obtain ⟨k', y⟩ := p
    unfold dictDel at h
    split at h
    · exact List.mem_cons_of_mem _ h
    · rcases List.mem_cons.1 h with h | h
      · rw [h]; simp
      · exact List.mem_cons_of_mem _ (ih h)

/-- The members of the object `n`, or of what is no object. -/
def MemOf (m : Mem) (n : Nat) (kvs : List (Str × Nat)) : Prop :=
  (∃ c, m[n]? = some c ∧ ∀ a, c.shape ≠ .obj a) ∨ ((kvs.map Prod.fst).Nodup ∧ ∀ k x, (k, x) ∈ kvs → Slots m x (some n) k)

theorem MemOf.grown {s s' : St} (h : Grown s s') {n : Nat} {kvs : List (Str × Nat)} (hm : MemOf s.mem n kvs) : MemOf s'.mem n kvs := by
  rcases hm with ⟨c, hc, hn⟩ | ⟨h1, h2⟩
  · obtain ⟨c', hc', -, -, e⟩ := h.cells n c hc
    refine .inl ⟨c', hc', ?_⟩
    rcases e with e | ⟨⟨a, ha⟩, -⟩
    · rw [e]; exact hn
    · exact absurd ha (hn a)
  · exact .inr ⟨h1, fun k x hx => h.slots (h2 k x hx)⟩

/-- The functions called with less fuel. -/
structure Ops.Good (r : Ops) : Prop where
  kind : ∀ i s, Inv s → Post (r.kind i) s fun _ _ => True
  members : ∀ i s, Inv s → Post (r.members i) s fun kvs s' => MemOf s'.mem i kvs
  elems : ∀ i s, Inv s → Post (r.elems i) s fun _ _ => True
  node : ∀ i s, Inv s → Post (r.node i) s fun _ _ => True
  query : ∀ d p s, Inv s → Post (r.query d p) s fun _ _ => True
  load : ∀ d s, Inv s → Post (r.load d) s fun _ _ => True
  process : ∀ d k i s, Inv s → Post (r.process d k i) s fun j s' => ∀ p k, Slots s.mem i p k → Slots s'.mem j p k

theorem post_eachL {α : Type} {f : Nat → M α} (hf : ∀ i s, Inv s → Post (f i) s fun _ _ => True) : ∀ xs s, Inv s → Post (eachL f xs) s fun _ _ => True
  | [], s, hs => post_pure hs trivial
  | x :: xs, s, hs => by
    unfold Obj.eachL
    exact (hf x s hs).bind fun _ s1 _ h1 _ => (post_eachL hf xs s1 h1).bind fun _ s2 _ h2 _ => post_pure h2 trivial

theorem post_eachD {α : Type} {f : Nat → M α} (hf : ∀ i s, Inv s → Post (f i) s fun _ _ => True) : ∀ xs s, Inv s → Post (eachD f xs) s fun _ _ => True
  | [], s, hs => post_pure hs trivial
  | (k, x) :: xs, s, hs => by
    unfold Obj.eachD
    exact (hf x s hs).bind fun _ s1 _ h1 _ => (post_eachD hf xs s1 h1).bind fun _ s2 _ h2 _ => post_pure h2 trivial

/-- What is put in the place of the members is in their places. -/
theorem post_kids {f : Nat → M Nat} (hf : ∀ i s, Inv s → Post (f i) s fun j s' => ∀ p k, Slots s.mem i p k → Slots s'.mem j p k) :
    ∀ xs s, Inv s → Post (eachD f xs) s fun ys s' => ys.map Prod.fst = xs.map Prod.fst ∧
      ∀ p, (∀ k x, (k, x) ∈ xs → Slots s.mem x p k) → ∀ k y, (k, y) ∈ ys → Slots s'.mem y p k
  | [], s, hs => post_pure hs ⟨rfl, fun _ _ _ _ h => by simp at h⟩
  | (k, x) :: xs, s, hs => by
    unfold Obj.eachD
    refine (hf x s hs).bind fun y s1 g1 h1 q1 => (post_kids hf xs s1 h1).bind fun ys s2 g2 h2 q2 => post_pure h2 ⟨?_, fun p hp k' y' hm => ?_⟩
    · simp [q2.1]
    · rcases List.mem_cons.1 hm with e | hm
      · cases e
        exact g2.slots (q1 p k (hp k x (by simp)))
      · exact q2.2 p (fun k x hx => g1.slots (hp k x (by simp [hx]))) k' y' hm

section
variable (E : Env) {r : Ops} (hr : r.Good)
include hr

theorem kindS_post (i : Nat) (s : St) (hs : Inv s) : Post (kindS r i) s fun _ _ => True := by
  unfold kindS
  refine (post_cell hs i).bind fun c s1 _ h1 _ => ?_
  split <;> first | exact post_pure h1 trivial | exact (hr.query _ _ _ h1).bind fun _ _ _ h2 _ => hr.kind _ _ h2

theorem membersS_post (i : Nat) (s : St) (hs : Inv s) : Post (membersS r i) s fun kvs s' => MemOf s'.mem i kvs := by
  unfold membersS
  refine (post_cell hs i).bind fun c s1 g1 h1 q1 => ?_
  obtain ⟨rfl, hc⟩ := q1
  split
  · next kvs e => exact post_pure h1 (.inr ((h1.cells i c hc).obj kvs e))
  · next n d p e =>
    have hno : MemOf s1.mem i [] := .inl ⟨c, hc, fun a h => by rw [e] at h; cases h⟩
    have hany : ∀ {s' : St} (_ : Grown s1 s') (kvs : List (Str × Nat)), MemOf s'.mem i kvs := by
      intro s' g kvs
      rcases hno.grown g with h | ⟨h1, h2⟩
      · exact .inl h
      · obtain ⟨c', hc', -, -, e'⟩ := g.cells i c hc
        refine .inl ⟨c', hc', fun a h => ?_⟩
        rcases e' with e' | ⟨⟨a, ha⟩, -⟩
        · rw [e', e] at h; cases h
        · rw [e] at ha; cases ha
    refine (post_schema h1 _).bind fun x s2 g2 h2 _ => ?_
    split
    · exact (hr.members _ _ h2).mono fun kvs s' g _ => hany (g2.trans g) kvs
    · refine (hr.query _ _ _ h2).bind fun _ s3 g3 h3 _ => (hr.kind _ _ h3).bind fun _ s4 g4 h4 _ => ?_
      split
      · exact post_raise h4 _
      · refine (hr.members _ _ h4).bind fun _ s5 g5 h5 _ => (hr.members _ _ h5).bind fun _ s6 g6 h6 _ => post_pure h6 ?_
        exact hany ((((g2.trans g3).trans g4).trans g5).trans g6) _
  · exact post_raise h1 _

theorem elemsS_post (i : Nat) (s : St) (hs : Inv s) : Post (elemsS r i) s fun _ _ => True := by
  unfold elemsS
  refine (post_cell hs i).bind fun c s1 _ h1 _ => ?_
  split
  · exact post_pure h1 trivial
  · refine (post_schema h1 _).bind fun x s2 _ h2 _ => ?_
    split
    · exact post_raise h2 _
    · exact (hr.query _ _ _ h2).bind fun _ _ _ h3 _ => hr.elems _ _ h3
  · exact post_raise h1 _

omit hr in
theorem intIn_post (i : Int) : ∀ xs s, Inv s → Post (intIn i xs) s fun _ _ => True
  | [], s, hs => post_pure hs trivial
  | x :: xs, s, hs => by
    unfold intIn
    refine (post_cell hs x).bind fun c s1 _ h1 _ => ?_
    split
    · split
      · exact post_pure h1 trivial
      · exact intIn_post i xs s1 h1
    · exact post_raise h1 _
    · exact post_raise h1 _
    · exact intIn_post i xs s1 h1

theorem nodeS_post (i : Nat) (s : St) (hs : Inv s) : Post (nodeS r i) s fun _ _ => True := by
  unfold nodeS
  refine (post_cell hs i).bind fun c s1 _ h1 _ => ?_
  split
  · exact post_pure h1 trivial
  · exact post_pure h1 trivial
  · exact post_pure h1 trivial
  · exact post_pure h1 trivial
  · exact (post_eachL hr.node _ _ h1).bind fun _ _ _ h2 _ => post_pure h2 trivial
  · exact (post_eachD hr.node _ _ h1).bind fun _ _ _ h2 _ => post_pure h2 trivial
  · refine (hr.node _ _ h1).bind fun _ _ _ h2 _ => ?_
    split
    · exact post_pure h2 trivial
    · exact post_raise h2 _

theorem item_post (i : Nat) (k : Str) (s : St) (hs : Inv s) : Post (item r i k) s fun _ _ => True := by
  unfold item
  refine (hr.members i s hs).bind fun c _ _ h1 _ => ?_
  split
  · exact post_pure h1 trivial
  · exact post_raise h1 _

theorem itemText_post (i : Nat) (k : Str) (s : St) (hs : Inv s) : Post (itemText E r i k) s fun _ _ => True := by
  unfold itemText
  exact (item_post hr i k s hs).bind fun _ _ _ h1 _ => (hr.node _ _ h1).bind fun _ _ _ h2 _ => post_pure h2 trivial

theorem loadS_post (d : Nat) (s : St) (hs : Inv s) : Post (loadS r d) s fun _ _ => True := by
  unfold loadS
  refine (post_schema hs d).bind fun x s1 _ h1 q1 => ?_
  obtain ⟨rfl, hx⟩ := q1
  split
  · exact post_pure h1 trivial
  · refine (hr.process _ _ _ _ h1).bind fun v s2 g2 h2 q2 => (post_schema h2 d).bind fun y s3 _ h3 q3 => ?_
    obtain ⟨rfl, hy⟩ := q3
    refine post_setSchema h3 hy fun p k hp => ?_
    obtain ⟨p0, k0, hsl⟩ := h1.docs d x hx
    obtain ⟨y', hy', hv⟩ := g2.docs d x hx
    rw [hy] at hy'; cases hy'
    obtain ⟨c, hc, rfl, rfl⟩ := hp
    obtain ⟨c', hc', rfl, rfl⟩ := hv p0 k0 hsl
    rw [hc] at hc'; cases hc'
    exact q2 _ _ hsl

theorem walk_post (ptr : List Str) (n : Nat) (s : St) (hs : Inv s) : Post (walk r n ptr) s fun _ _ => True := by
  induction ptr generalizing n s with
  | nil => exact post_pure hs trivial
  | cons k ks ih =>
    unfold walk
    refine (hr.kind n s hs).bind fun t s1 _ h1 _ => ?_
    split
    · refine (post_cell h1 n).bind fun c s2 _ h2 _ => ?_
      split
      · split
        · exact post_raise h2 _
        · split
          · exact post_raise h2 _
          · exact (post_lift h2 _).bind fun x s3 _ h3 _ => ih x s3 h3
      · split
        · exact post_raise h2 _
        · split
          · exact post_raise h2 _
          · refine (hr.elems n _ h2).bind fun xs s3 _ h3 _ => (intIn_post _ xs s3 h3).bind fun b s4 _ h4 _ => ?_
            split
            · exact (post_lift h4 _).bind fun x s5 _ h5 _ => ih x s5 h5
            · exact post_raise h4 _
    · exact (item_post hr n k s1 h1).bind fun x s2 _ h2 _ => ih x s2 h2
    · exact post_raise h1 _

theorem queryS_post (d : Nat) (ptr : List Str) (s : St) (hs : Inv s) : Post (queryS r d ptr) s fun _ _ => True := by
  unfold queryS
  refine (hr.load d s hs).bind fun _ s1 _ h1 _ => (post_schema h1 d).bind fun x s2 _ h2 _ => ?_
  split
  · split
    · exact post_pure h2 trivial
    · split
      · exact post_pure h2 trivial
      · exact walk_post hr _ _ _ h2
  · exact walk_post hr _ _ _ h2

omit hr in
theorem storeLoad_post (hE : ∀ u v, E.file u = .ok v → (wrap v).RefFree) (u : Uri) (voc : List Kw) (s : St) (hs : Inv s) :
    Post (storeLoad E u voc) s fun _ _ => True := by
  unfold storeLoad
  refine (post_lift hs _).bind fun t s1 _ h1 _ => (post_state h1).bind fun _ s2 _ h2 _ => ?_
  split
  · exact post_pure h2 trivial
  · split
    · next v e => exact (post_newDocument h2 (hE u v e) _).bind fun d s3 _ h3 _ => (post_state h3).bind fun _ s4 _ h4 _ =>
        (post_setStorage h4 _).bind fun _ _ _ h5 _ => post_pure h5 trivial
    · exact post_raise h2 _
    · exact post_raise h2 _
    · exact (post_lift h2 _).top

omit hr in
theorem storeAdd_post (u : Uri) (d : Nat) (s : St) (hs : Inv s) : Post (storeAdd E u d) s fun _ _ => True := by
  unfold storeAdd
  refine (post_lift hs _).bind fun t s1 _ h1 _ => ?_
  split
  · exact (post_lift h1 _).bind fun _ s2 _ h2 _ => (post_state h2).bind fun _ s3 _ h3 _ => post_setStorage h3 _
  · exact post_raise h1 _

theorem applyRef_post (hE : ∀ u v, E.file u = .ok v → (wrap v).RefFree) (d n : Nat) (s : St) (hs : Inv s) :
    Post (applyRef E r d n) s fun j s' => ∀ p k, Slots s.mem n p k → Slots s'.mem j p k := by
  unfold applyRef
  refine (itemText_post E hr _ _ s hs).bind fun t s1 g1 h1 _ => (post_lift h1 _).bind fun u s2 g2 h2 _ => (post_lift h2 _).bind fun p s3 g3 h3 _ =>
    (post_lift h3 _).bind fun b s4 g4 h4 _ => (post_cell h4 n).bind fun c s5 g5 h5 q5 => ?_
  obtain ⟨rfl, hc⟩ := q5
  have hfin : ∀ {s' : St} {j : Nat}, Grown s5 s' → Slots s'.mem j c.parent c.key → ∀ p k, Slots s.mem n p k → Slots s'.mem j p k := by
    rintro s' j g hj p k h
    obtain ⟨c', hc', rfl, rfl⟩ := (((g1.trans g2).trans g3).trans g4).slots h
    rw [hc] at hc'; cases hc'
    exact hj
  split
  · exact (post_newCell h5 hc _ _).mono fun j s' g h => hfin g h
  · refine (post_schema h5 _).bind fun x s6 g6 h6 _ => (storeLoad_post E hE _ _ _ h6).bind fun e s7 g7 h7 _ => ?_
    obtain ⟨c', hc', e1, e2, -⟩ := (g6.trans g7).cells n c hc
    have := post_newCell h7 hc' e p
    rw [e1, e2] at this
    exact this.mono fun j s' g h => hfin ((g6.trans g7).trans g) h

theorem applyAnchor_post (d n : Nat) (s : St) (hs : Inv s) :
    Post (applyAnchor E r d n) s fun j s' => ∀ p k, Slots s.mem n p k → Slots s'.mem j p k := by
  unfold applyAnchor
  refine (itemText_post E hr _ _ s hs).bind fun t s1 g1 h1 _ => (post_schema h1 d).bind fun x s2 g2 h2 q2 => ?_
  obtain ⟨rfl, hx⟩ := q2
  refine Post.bind (post_setSchema h2 hx ?_) fun _ s3 g3 h3 _ => (post_cell h3 n).bind fun c s4 g4 h4 q4 => ?_
  · exact fun _ _ h => h
  obtain ⟨rfl, hc⟩ := q4
  split
  · next kvs e =>
    have hok := (h4.cells n c hc).obj kvs e
    refine Post.bind (post_setShape (a := kvs) h4 hc e ?_ ?_) fun _ s5 g5 h5 _ => post_pure h5 fun p k h => (((g1.trans g2).trans g3).trans (g4.trans g5)).slots h
    · split
      · exact nodup_del _ _ hok.1
      · exact hok.1
    · intro k x hx
      split at hx
      · exact hok.2 k x (mem_of_del hx)
      · exact hok.2 k x hx
  · exact post_raise h4 _

theorem childUri_post (n : Nat) (u : Uri) (s : St) (hs : Inv s) : Post (childUri E r n u) s fun _ _ => True := by
  unfold childUri
  refine (post_lift hs _).bind fun a s1 _ h1 _ => ?_
  split
  · exact post_pure h1 trivial
  · refine (post_state h1).bind fun _ s2 _ h2 _ => (post_lift h2 _).bind fun t s3 _ h3 _ => (hr.members _ _ h3).bind fun kvs s4 _ h4 _ => ?_
    split
    · exact (itemText_post E hr _ _ _ h4).bind fun _ s5 _ h5 _ => (post_lift h5 _).bind fun _ s6 _ h6 _ => (post_lift h6 _).top
    · split
      · exact (itemText_post E hr _ _ _ h4).bind fun _ s5 _ h5 _ => (post_lift h5 _).bind fun _ s6 _ h6 _ => (post_lift h6 _).top
      · exact post_raise h4 _

theorem applyId_post (d n : Nat) (s : St) (hs : Inv s) :
    Post (applyId E r d n) s fun j s' => ∀ p k, Slots s.mem n p k → Slots s'.mem j p k := by
  unfold applyId
  have ht : ∀ s, Inv s → Post (idText E r n) s fun _ _ => True := by
    intro s hs
    unfold idText
    refine (hr.members n s hs).bind fun kvs s1 _ h1 _ => ?_
    split <;> exact itemText_post E hr _ _ _ h1
  refine (ht s hs).bind fun t s1 g1 h1 _ => (post_lift h1 _).bind fun u s2 g2 h2 _ => ?_
  split
  · exact post_raise h2 _
  · refine (post_cell h2 n).bind fun c s3 g3 h3 q3 => ?_
    obtain ⟨rfl, hc⟩ := q3
    have g : Grown s s3 := g1.trans g2
    split
    · refine (post_schema h3 d).bind fun x s4 g4 h4 q4 => ?_
      obtain ⟨rfl, hx⟩ := q4
      refine Post.bind (post_setSchema h4 hx ?_) fun _ s5 g5 h5 _ => (post_lift h5 _).bind fun _ s6 g6 h6 _ => (post_state h6).bind fun _ s7 g7 h7 _ => ?_
      · exact fun _ _ h => h
      have g' : Grown s s7 := g.trans ((g5.trans g6).trans g7)
      split
      · exact post_pure h7 fun _ _ h => g'.slots h
      · exact (storeAdd_post E _ _ _ h7).bind fun _ s8 g8 h8 _ => post_pure h8 fun _ _ h => (g'.trans g8).slots h
    · refine (post_state h3).bind fun _ s4 g4 h4 _ => (post_lift h4 _).bind fun _ s5 g5 h5 _ => ?_
      split
      · exact post_pure h5 fun _ _ h => ((g.trans g4).trans g5).slots h
      · refine (childUri_post E hr _ _ _ h5).bind fun _ s6 g6 h6 _ => ?_
        have g' : Grown s3 s6 := (g4.trans g5).trans g6
        split
        · refine (post_schema h6 _).bind fun x s7 g7 h7 _ => ?_
          have hsl : Slots s7.mem n c.parent c.key := (g'.trans g7).slots ⟨c, hc, rfl, rfl⟩
          refine (post_newSchema h7 hsl).bind fun _ s8 g8 h8 _ => (storeAdd_post E _ _ _ h8).bind fun _ s9 g9 h9 _ =>
            post_pure h9 fun _ _ h => (g.trans (g'.trans ((g7.trans g8).trans g9))).slots h
        · exact post_raise h6 _

theorem applyAll_post (hE : ∀ u v, E.file u = .ok v → (wrap v).RefFree) (d : Nat) (ks : List Kw) (n : Nat) (s : St) (hs : Inv s) :
    Post (applyAll E r d ks n) s fun j s' => ∀ p k, Slots s.mem n p k → Slots s'.mem j p k := by
  induction ks generalizing n s with
  | nil => exact post_pure hs fun _ _ h => h
  | cons k ks ih =>
    unfold applyAll
    have : Post (canApply r k n) s fun _ _ => True := by
      unfold canApply
      exact (hr.members n s hs).bind fun _ _ _ h1 _ => post_pure h1 trivial
    refine this.bind fun b s1 g1 h1 _ => ?_
    split
    · refine Post.bind (Q := fun j s' => ∀ p k, Slots s1.mem n p k → Slots s'.mem j p k) ?_ fun n' s2 g2 h2 q2 =>
        (ih n' s2 h2).mono fun j s' _ h p k hp => h p k (q2 p k (g1.slots hp))
      unfold applyCore
      split
      · exact applyRef_post E hr hE _ _ _ h1
      · exact applyAnchor_post E hr _ _ _ h1
      · exact applyId_post E hr _ _ _ h1
      · exact post_raise h1 _
    · exact (ih n s1 h1).mono fun j s' _ h p k hp => h p k (g1.slots hp)

theorem processS_post (hE : ∀ u v, E.file u = .ok v → (wrap v).RefFree) (d : Nat) (ks : List Kw) (n : Nat) (s : St) (hs : Inv s) :
    Post (processS E r d ks n) s fun j s' => ∀ p k, Slots s.mem n p k → Slots s'.mem j p k := by
  unfold processS
  refine (hr.kind n s hs).bind fun t s1 g1 h1 _ => ?_
  split
  · exact post_pure h1 fun _ _ h => g1.slots h
  · refine (hr.members n _ h1).bind fun kvs s2 g2 h2 q2 => (post_kids (hr.process d ks) _ _ h2).bind fun kvs' s3 g3 h3 q3 => ?_
    refine Post.bind (Q := fun _ _ => True) ?_ fun _ s4 g4 h4 _ =>
      (applyAll_post E hr hE _ _ _ _ h4).mono fun j s' _ h p k hp => h p k (((g1.trans g2).trans (g3.trans g4)).slots hp)
    unfold setMembers
    refine (post_cell h3 n).bind fun c s5 g5 h5 q5 => ?_
    obtain ⟨rfl, hc⟩ := q5
    split
    · next a e =>
      rcases q2 with ⟨c0, hc0, hn⟩ | ⟨hnd, hsl⟩
      · obtain ⟨c', hc', -, -, e'⟩ := g3.cells n c0 hc0
        rw [hc] at hc'; cases hc'
        rcases e' with e' | ⟨⟨b, hb⟩, -⟩
        · exact absurd (e'.symm.trans e) (hn a)
        · exact absurd hb (hn b)
      · exact post_setShape h5 hc e (by rw [q3.1]; exact hnd) (q3.2 _ hsl)
    · exact post_raise h5 _

end

theorem ops_good (E : Env) (hE : ∀ u v, E.file u = .ok v → (wrap v).RefFree) : ∀ f, (ops E f).Good
  | 0 => ⟨fun _ _ hs => (post_lift hs .timeout).top, fun _ s hs => ⟨hs, .refl s, fun _ h => by cases h⟩, fun _ _ hs => (post_lift hs .timeout).top, fun _ _ hs => (post_lift hs .timeout).top,
      fun _ _ _ hs => (post_lift hs .timeout).top, fun _ _ hs => (post_lift hs .timeout).top, fun _ _ _ s hs => ⟨hs, .refl s, fun _ h => by cases h⟩⟩
  | f + 1 =>
    have h := ops_good E hE f
    ⟨kindS_post h, membersS_post h, elemsS_post h, nodeS_post h, queryS_post h, loadS_post h, processS_post E h hE⟩

/-- Going up from any object ends at an object without parent. -/
theorem Inv.up {s : St} (hs : Inv s) : ∀ (b i : Nat), i < b → i < s.mem.length → ∃ ks top, Up s.mem i ks top
  | 0, i, hb, _ => absurd hb (by omega)
  | b + 1, i, hb, hi => by
    obtain ⟨c, hc⟩ : ∃ c, s.mem[i]? = some c := ⟨_, List.getElem?_eq_getElem hi⟩
    cases e : c.parent with
    | none => exact ⟨_, _, .top hc e⟩
    | some p =>
      have hlt := (hs.cells i c hc).up p e
      obtain ⟨ks, top, h⟩ := hs.up b p (by omega) (by omega)
      exact ⟨_, _, .step hc e hlt h⟩

theorem Inv.step {s : St} (hs : Inv s) {i j top : Nat} {pre : List Str} {k : Str} (h : Up s.mem i pre top) (hj : Slots s.mem j (some i) k) :
    Up s.mem j (pre ++ [k]) top := by
  obtain ⟨c, hc, hp, rfl⟩ := hj
  exact .step hc hp ((hs.cells j c hc).up i hp) h

/-- An object with the slots of another has its path; its root too, unless it is a root. -/
theorem Inv.beside {s : St} {i j top : Nat} {pre : List Str} {p : Option Nat} {k : Str} (h : Up s.mem i pre top)
    (hi : Slots s.mem i p k) (hj : Slots s.mem j p k) (hs : Inv s) : ∃ top', Up s.mem j pre top' ∧ (top' = top ∨ i = top ∧ j = top') := by
  obtain ⟨c, hc, rfl, rfl⟩ := hi
  obtain ⟨c', hc', e1, e2⟩ := hj
  cases h with
  | top h hp =>
    rw [hc] at h; cases h
    exact ⟨j, .top hc' (e1.trans hp), .inr ⟨rfl, rfl⟩⟩
  | step h hp hlt hu =>
    rw [hc] at h; cases h
    rw [← e2]
    exact ⟨top, .step hc' (e1.trans hp) ((hs.cells j c' hc').up _ (e1.trans hp)) hu, .inl rfl⟩

/-- What is reached by going down is found by going up. -/
theorem Inv.steps {s : St} (hs : Inv s) {i j : Nat} {ks : List Str} (h : Steps s.mem i ks j) :
    ∀ {pre : List Str} {top : Nat}, Up s.mem i pre top → Up s.mem j (pre ++ ks) top := by
  induction h with
  | here i => intro pre top hu; simpa using hu
  | member hc hsh hk h ih =>
    intro pre top hu
    have := ih (hs.step hu (((hs.cells _ _ hc).obj _ hsh).2 _ _ hk))
    simpa using this
  | elem hc hsh hk h ih =>
    intro pre top hu
    have := ih (hs.step hu ((hs.cells _ _ hc).arr _ hsh _ _ hk))
    simpa using this

/-- `query`'s loop finds what is reached by going down. -/
theorem Inv.walk (E : Env) {s : St} (hs : Inv s) {i j : Nat} {ks : List Str} (h : Steps s.mem i ks j)
    (hsz : ∀ k ∈ ks, ∀ i, ArrayIndex k i → k.length ≤ 4300) : Runs (fun f => walk (ops E f) i ks) s (.ok j) s := by
  induction h with
  | here i => exact .pure
  | @member i j l c kvs k ks hc hsh hk h ih =>
    unfold Obj.walk
    refine Runs.bind (.next fun f => kind_plain E hc (by rw [hsh]; rfl)) ?_
    simp only [hsh, Shape.kind]
    refine Runs.bind ?_ (ih fun k hk => hsz k (by simp [hk]))
    unfold item
    refine Runs.bind (.next fun f => members_obj E hc hsh) ?_
    simp only [dictGet_of_mem ((hs.cells _ _ hc).obj _ hsh).1 hk]
    exact .pure
  | @elem i j l c xs t ks hc hsh hk h ih =>
    unfold Obj.walk
    refine Runs.bind (.next fun f => kind_plain E hc (by rw [hsh]; rfl)) ?_
    simp only [hsh, Shape.kind]
    refine Runs.bind (.const (cell_apply hc)) ?_
    have hi := index_natStr t
    simp only [hsh, index_ascii hi, Bool.not_true, Bool.false_eq_true, if_false, pyInt_index hi (hsz _ (by simp) _ hi)]
    refine Runs.bind (a := j) (.const ?_) (ih fun k hk => hsz k (by simp [hk]))
    rw [lift_apply, pyIndex_nat, hk]

/-- Every program keeps everything in its place; the schemas it makes have roots for their values. -/
theorem calls_good (E : Env) (hE : ∀ u v, E.file u = .ok v → (wrap v).RefFree) (f : Nat) : ∀ (cs : List Call) (s : St), Inv s →
    (∀ v voc, Call.create v voc ∈ cs → (wrap v).RefFree) →
    Inv (calls E f cs s).2 ∧ Grown s (calls E f cs s).2 ∧
      ∀ d, .ok (.schema d) ∈ (calls E f cs s).1 → ∃ x, (calls E f cs s).2.docs[d]? = some x ∧ Slots (calls E f cs s).2.mem x.value none [] := by
  intro cs
  have hr := ops_good E hE f
  induction cs with
  | nil => intro s hs _; exact ⟨hs, .refl s, fun d h => by simp [calls] at h⟩
  | cons c cs ih =>
    intro s hs hcs
    have hc : Post (call E f c) s fun a s' => ∀ d, a = .schema d → ∃ x, s'.docs[d]? = some x ∧ Slots s'.mem x.value none [] := by
      cases c with
      | create v voc =>
        exact (post_newDocument hs (hcs v voc (by simp)) voc).bind fun d s1 _ h1 q => post_pure h1 fun e he => by cases he; exact q
      | load d => exact (hr.load d s hs).bind fun _ s1 _ h1 _ => post_pure h1 fun e he => by cases he
      | value d => exact (hr.load d s hs).bind fun _ s1 _ h1 _ => (post_schema h1 d).bind fun _ s2 _ h2 _ => post_pure h2 fun e he => by cases he
      | query d t => exact (post_lift hs _).bind fun _ s1 _ h1 _ => (hr.query _ _ _ h1).bind fun _ s2 _ h2 _ => post_pure h2 fun e he => by cases he
    obtain ⟨h1, h2, h3⟩ := hc
    obtain ⟨g1, g2, g3⟩ := ih (call E f c s).2 h1 fun v voc hv => hcs v voc (by simp [hv])
    refine ⟨g1, h2.trans g2, fun d hd => ?_⟩
    rcases List.mem_cons.1 hd with e | hd
    · obtain ⟨x, hx, hsl⟩ := h3 (.schema d) e.symm d rfl
      obtain ⟨y, hy, h⟩ := g2.docs d x hx
      exact ⟨y, hy, h _ _ hsl⟩
    · exact g3 d hd

end Verif.Obj
