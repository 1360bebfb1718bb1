import Verif.Model.Objects
import Verif.Spec.Json
import Verif.Proofs.Dict
/-! # Documents as objects: construction and parents -/

namespace Verif.Obj
open Verif

mutual
/-- The cells from `lo` up to `hi` are the objects of the tree `n`, each with its parent and key, in the order of their
construction. -/
def Tree (m : Mem) : Node → Option Nat → Str → Nat → Nat → Prop
  | .null, p, k, lo, hi => m[lo]? = some ⟨.null, p, k⟩ ∧ hi = lo + 1
  | .bool b, p, k, lo, hi => m[lo]? = some ⟨.bool b, p, k⟩ ∧ hi = lo + 1
  | .num x, p, k, lo, hi => m[lo]? = some ⟨.num x, p, k⟩ ∧ hi = lo + 1
  | .str s, p, k, lo, hi => m[lo]? = some ⟨.str s, p, k⟩ ∧ hi = lo + 1
  | .arr xs, p, k, lo, hi => ∃ ids, m[lo]? = some ⟨.arr ids, p, k⟩ ∧ TreeL m xs 0 lo ids (lo + 1) hi
  | .obj kvs, p, k, lo, hi => ∃ ids, m[lo]? = some ⟨.obj ids, p, k⟩ ∧ TreeD m kvs lo ids (lo + 1) hi
  | .ref .., _, _, _, _ => False
def TreeL (m : Mem) : List Node → Nat → Nat → List Nat → Nat → Nat → Prop
  | [], _, _, ids, lo, hi => ids = [] ∧ hi = lo
  | x :: xs, i, self, ids, lo, hi => ∃ mid rest, ids = lo :: rest ∧ Tree m x (some self) (natStr i) lo mid ∧
      TreeL m xs (i + 1) self rest mid hi
def TreeD (m : Mem) : List (Str × Node) → Nat → List (Str × Nat) → Nat → Nat → Prop
  | [], _, ids, lo, hi => ids = [] ∧ hi = lo
  | (k, x) :: xs, self, ids, lo, hi => ∃ mid rest, ids = (k, lo) :: rest ∧ Tree m x (some self) k lo mid ∧
      TreeD m xs self rest mid hi
end

mutual
theorem Tree.lt {m : Mem} : ∀ {n : Node} {p : Option Nat} {k : Str} {lo hi : Nat}, Tree m n p k lo hi → lo < hi
  | .null, _, _, _, _, h => by rw [Tree] at h; omega
  | .bool _, _, _, _, _, h => by rw [Tree] at h; omega
  | .num _, _, _, _, _, h => by rw [Tree] at h; omega
  | .str _, _, _, _, _, h => by rw [Tree] at h; omega
  | .arr _, _, _, _, _, h => by rw [Tree] at h; obtain ⟨_, _, h⟩ := h; have := TreeL.le h; omega
  | .obj _, _, _, _, _, h => by rw [Tree] at h; obtain ⟨_, _, h⟩ := h; have := TreeD.le h; omega
  | .ref .., _, _, _, _, h => by rw [Tree] at h; exact h.elim
theorem TreeL.le {m : Mem} : ∀ {xs : List Node} {i self : Nat} {ids : List Nat} {lo hi : Nat},
    TreeL m xs i self ids lo hi → lo ≤ hi
  | [], _, _, _, _, _, h => by rw [TreeL] at h; omega
  | x :: xs, _, _, _, _, _, h => by
    rw [TreeL] at h; obtain ⟨mid, rest, _, h1, h2⟩ := h
    have := Tree.lt h1; have := TreeL.le h2; omega
theorem TreeD.le {m : Mem} : ∀ {xs : List (Str × Node)} {self : Nat} {ids : List (Str × Nat)} {lo hi : Nat},
    TreeD m xs self ids lo hi → lo ≤ hi
  | [], _, _, _, _, h => by rw [TreeD] at h; omega
  | (k, x) :: xs, _, _, _, _, h => by
    rw [TreeD] at h; obtain ⟨mid, rest, _, h1, h2⟩ := h
    have := Tree.lt h1; have := TreeD.le h2; omega
end

mutual
/-- A tree is there as long as its cells are. -/
theorem Tree.keep {m m' : Mem} : ∀ {n : Node} {p : Option Nat} {k : Str} {lo hi : Nat},
    (∀ j, lo ≤ j → j < hi → m'[j]? = m[j]?) → Tree m n p k lo hi → Tree m' n p k lo hi
  | .null, _, _, lo, hi, e, h => by rw [Tree] at h ⊢; rw [e lo (by omega) (by omega)]; exact h
  | .bool _, _, _, lo, hi, e, h => by rw [Tree] at h ⊢; rw [e lo (by omega) (by omega)]; exact h
  | .num _, _, _, lo, hi, e, h => by rw [Tree] at h ⊢; rw [e lo (by omega) (by omega)]; exact h
  | .str _, _, _, lo, hi, e, h => by rw [Tree] at h ⊢; rw [e lo (by omega) (by omega)]; exact h
  | .arr _, _, _, lo, hi, e, h => by
    have hl := Tree.lt h
    rw [Tree] at h ⊢; obtain ⟨ids, h1, h2⟩ := h
    exact ⟨ids, by rw [e lo (by omega) hl]; exact h1, TreeL.keep (fun j a b => e j (by omega) b) h2⟩
  | .obj _, _, _, lo, hi, e, h => by
    have hl := Tree.lt h
    rw [Tree] at h ⊢; obtain ⟨ids, h1, h2⟩ := h
    exact ⟨ids, by rw [e lo (by omega) hl]; exact h1, TreeD.keep (fun j a b => e j (by omega) b) h2⟩
  | .ref .., _, _, _, _, _, h => by rw [Tree] at h; exact h.elim
theorem TreeL.keep {m m' : Mem} : ∀ {xs : List Node} {i self : Nat} {ids : List Nat} {lo hi : Nat},
    (∀ j, lo ≤ j → j < hi → m'[j]? = m[j]?) → TreeL m xs i self ids lo hi → TreeL m' xs i self ids lo hi
  | [], _, _, _, _, _, _, h => by rw [TreeL] at h ⊢; exact h
  | x :: xs, _, _, _, _, _, e, h => by
    rw [TreeL] at h ⊢; obtain ⟨mid, rest, h0, h1, h2⟩ := h
    have := Tree.lt h1; have := TreeL.le h2
    exact ⟨mid, rest, h0, h1.keep fun j a b => e j a (by omega), h2.keep fun j a b => e j (by omega) b⟩
theorem TreeD.keep {m m' : Mem} : ∀ {xs : List (Str × Node)} {self : Nat} {ids : List (Str × Nat)} {lo hi : Nat},
    (∀ j, lo ≤ j → j < hi → m'[j]? = m[j]?) → TreeD m xs self ids lo hi → TreeD m' xs self ids lo hi
  | [], _, _, _, _, _, h => by rw [TreeD] at h ⊢; exact h
  | (k, x) :: xs, _, _, _, _, e, h => by
    rw [TreeD] at h ⊢; obtain ⟨mid, rest, h0, h1, h2⟩ := h
    have := Tree.lt h1; have := TreeD.le h2
    exact ⟨mid, rest, h0, h1.keep fun j a b => e j a (by omega), h2.keep fun j a b => e j (by omega) b⟩
end

theorem keep_append {m ext : Mem} {lo hi : Nat} (h : hi ≤ m.length) : ∀ j, lo ≤ j → j < hi → (m ++ ext)[j]? = m[j]? := by
  intro j _ b
  rw [List.getElem?_append_left (by omega)]

mutual
/-- `build` appends the objects of the tree and nothing else. -/
theorem build_spec : ∀ (v : Val) (p : Option Nat) (k : Str) (m : Mem),
    ∃ ext, build v p k m = (m.length, m ++ ext) ∧ Tree (m ++ ext) (wrap v) p k m.length (m.length + ext.length)
  | .null, p, k, m => ⟨_, rfl, by simp [Tree, wrap]⟩
  | .bool b, p, k, m => ⟨_, rfl, by simp [Tree, wrap]⟩
  | .int n, p, k, m => ⟨_, rfl, by simp [Tree, wrap]⟩
  | .flt x, p, k, m => ⟨_, rfl, by simp [Tree, wrap]⟩
  | .dec d, p, k, m => ⟨_, rfl, by simp [Tree, wrap]⟩
  | .str s, p, k, m => ⟨_, rfl, by simp [Tree, wrap]⟩
  | .list xs, p, k, m => by
    obtain ⟨ids, ext, e, h⟩ := buildList_spec xs 0 m.length (m ++ [⟨.null, none, []⟩])
    refine ⟨⟨.arr ids, p, k⟩ :: ext, ?_, ?_⟩
    · rw [build, e]; simp
    · rw [wrap, Tree]
      refine ⟨ids, by simp, ?_⟩
      have : m.length + (⟨.arr ids, p, k⟩ :: ext : Mem).length = (m ++ [(⟨.null, none, []⟩ : Cell)]).length + ext.length := by
        simp; omega
      rw [this]
      have e1 : m.length + 1 = (m ++ [(⟨.null, none, []⟩ : Cell)]).length := by simp
      rw [e1]
      refine h.keep fun j a b => ?_
      have a : m.length < j := by simp at a; omega
      rw [List.append_assoc, List.getElem?_append_right (by omega), List.getElem?_append_right (by omega)]
      obtain ⟨t, ht⟩ : ∃ t, j - m.length = t + 1 := ⟨j - m.length - 1, by omega⟩
      simp [ht]
  | .dict kvs, p, k, m => by
    obtain ⟨ids, ext, e, h⟩ := buildDict_spec kvs m.length (m ++ [⟨.null, none, []⟩])
    refine ⟨⟨.obj ids, p, k⟩ :: ext, ?_, ?_⟩
    · rw [build, e]; simp
    · rw [wrap, Tree]
      refine ⟨ids, by simp, ?_⟩
      have : m.length + (⟨.obj ids, p, k⟩ :: ext : Mem).length = (m ++ [(⟨.null, none, []⟩ : Cell)]).length + ext.length := by
        simp; omega
      rw [this]
      have e1 : m.length + 1 = (m ++ [(⟨.null, none, []⟩ : Cell)]).length := by simp
      rw [e1]
      refine h.keep fun j a b => ?_
      have a : m.length < j := by simp at a; omega
      rw [List.append_assoc, List.getElem?_append_right (by omega), List.getElem?_append_right (by omega)]
      obtain ⟨t, ht⟩ : ∃ t, j - m.length = t + 1 := ⟨j - m.length - 1, by omega⟩
      simp [ht]
theorem buildList_spec : ∀ (xs : List Val) (i self : Nat) (m : Mem),
    ∃ ids ext, buildList xs i self m = (ids, m ++ ext) ∧
      TreeL (m ++ ext) (wrapList xs) i self ids m.length (m.length + ext.length)
  | [], i, self, m => ⟨[], [], by simp [buildList], by simp [wrapList, TreeL]⟩
  | x :: xs, i, self, m => by
    obtain ⟨ext, e, h⟩ := build_spec x (some self) (natStr i) m
    obtain ⟨ids, ext', e', h'⟩ := buildList_spec xs (i + 1) self (m ++ ext)
    refine ⟨m.length :: ids, ext ++ ext', ?_, ?_⟩
    · simp only [buildList, e, e', List.append_assoc]
    · rw [wrapList, TreeL]
      refine ⟨m.length + ext.length, ids, rfl, ?_, ?_⟩
      · rw [← List.append_assoc]
        exact h.keep (keep_append (by simp))
      · rw [← List.append_assoc]
        have : m.length + (ext ++ ext').length = (m ++ ext).length + ext'.length := by simp; omega
        rw [this, ← List.length_append]
        exact h'
theorem buildDict_spec : ∀ (xs : List (Str × Val)) (self : Nat) (m : Mem),
    ∃ ids ext, buildDict xs self m = (ids, m ++ ext) ∧
      TreeD (m ++ ext) (wrapDict xs) self ids m.length (m.length + ext.length)
  | [], self, m => ⟨[], [], by simp [buildDict], by simp [wrapDict, TreeD]⟩
  | (k, x) :: xs, self, m => by
    obtain ⟨ext, e, h⟩ := build_spec x (some self) k m
    obtain ⟨ids, ext', e', h'⟩ := buildDict_spec xs self (m ++ ext)
    refine ⟨(k, m.length) :: ids, ext ++ ext', ?_, ?_⟩
    · simp only [buildDict, e, e', List.append_assoc]
    · rw [wrapDict, TreeD]
      refine ⟨m.length + ext.length, ids, rfl, ?_, ?_⟩
      · rw [← List.append_assoc]
        exact h.keep (keep_append (by simp))
      · rw [← List.append_assoc]
        have : m.length + (ext ++ ext').length = (m ++ ext).length + ext'.length := by simp; omega
        rw [this, ← List.length_append]
        exact h'
end

/-! ## Parents -/

/-- Going up from `i` through the keys `ks`, last first, leads to `top`. -/
inductive Up (m : Mem) : Nat → List Str → Nat → Prop
  | top {i : Nat} {c : Cell} (h : m[i]? = some c) (hp : c.parent = none) : Up m i [] i
  | step {i j top : Nat} {c : Cell} {ks : List Str} (h : m[i]? = some c) (hp : c.parent = some j) (hlt : j < i)
      (hu : Up m j ks top) : Up m i (ks ++ [c.key]) top

theorem Up.pathUp {m : Mem} {i top : Nat} {ks : List Str} (h : Up m i ks top) (f : Nat) (hf : i < f) (acc : List Str) :
    pathUp m f i acc = .ok (ks ++ acc.reverse) := by
  induction h generalizing f acc with
  | top h hp =>
    obtain ⟨f, rfl⟩ : ∃ g, f = g + 1 := ⟨f - 1, by omega⟩
    simp [Obj.pathUp, h, hp]
  | step h hp hlt hu ih =>
    obtain ⟨f, rfl⟩ : ∃ g, f = g + 1 := ⟨f - 1, by omega⟩
    simp only [Obj.pathUp, h, hp]
    rw [ih f (by omega)]
    simp

theorem Up.rootUp {m : Mem} {i top : Nat} {ks : List Str} (h : Up m i ks top) (f : Nat) (hf : i < f) :
    rootUp m f i = .ok top := by
  induction h generalizing f with
  | top h hp =>
    obtain ⟨f, rfl⟩ : ∃ g, f = g + 1 := ⟨f - 1, by omega⟩
    simp [Obj.rootUp, h, hp]
  | step h hp hlt hu ih =>
    obtain ⟨f, rfl⟩ : ∃ g, f = g + 1 := ⟨f - 1, by omega⟩
    simp only [Obj.rootUp, h, hp]
    exact ih f (by omega)

theorem Up.lt {m : Mem} {i top : Nat} {ks : List Str} (h : Up m i ks top) : i < m.length := by
  cases h with
  | top h _ => exact (List.getElem?_eq_some_iff.1 h).1
  | step h _ _ _ => exact (List.getElem?_eq_some_iff.1 h).1

theorem Up.path {m : Mem} {i top : Nat} {ks : List Str} (h : Up m i ks top) : path m i = .ok ks := by
  have := h.pathUp (m.length + 1) (by have := h.lt; omega) []
  simpa [Obj.path] using this

theorem Up.root {m : Mem} {i top : Nat} {ks : List Str} (h : Up m i ks top) : root m i = .ok top :=
  h.rootUp (m.length + 1) (by have := h.lt; omega)

/-- Parents and keys are the same. -/
def SameSlots (m m' : Mem) : Prop :=
  ∀ (i : Nat) (c : Cell), m[i]? = some c → ∃ c', m'[i]? = some c' ∧ c'.parent = c.parent ∧ c'.key = c.key

theorem SameSlots.refl (m : Mem) : SameSlots m m := fun _ c h => ⟨c, h, rfl, rfl⟩
theorem SameSlots.trans {a b c : Mem} (h : SameSlots a b) (h' : SameSlots b c) : SameSlots a c := by
  intro i x hx
  obtain ⟨y, hy, e1, e2⟩ := h i x hx
  obtain ⟨z, hz, e3, e4⟩ := h' i y hy
  exact ⟨z, hz, e3.trans e1, e4.trans e2⟩

theorem Up.keep {m m' : Mem} (hs : SameSlots m m') {i top : Nat} {ks : List Str} (h : Up m i ks top) : Up m' i ks top := by
  induction h with
  | top h hp =>
    obtain ⟨c', h', e, -⟩ := hs _ _ h
    exact .top h' (e.trans hp)
  | @step i j top c ks h hp hlt hu ih =>
    obtain ⟨c', h', e, e'⟩ := hs _ _ h
    rw [← e']
    exact .step h' (e.trans hp) hlt ih

/-- The first cell of a tree has the tree's parent and key. -/
theorem Tree.slots {m : Mem} {n : Node} {p : Option Nat} {k : Str} {lo hi : Nat} (h : Tree m n p k lo hi) :
    ∃ c, m[lo]? = some c ∧ c.parent = p ∧ c.key = k := by
  cases n <;> rw [Tree] at h
  case arr => obtain ⟨ids, h, -⟩ := h; exact ⟨_, h, rfl, rfl⟩
  case obj => obtain ⟨ids, h, -⟩ := h; exact ⟨_, h, rfl, rfl⟩
  case ref => exact h.elim
  all_goals exact ⟨_, h.1, rfl, rfl⟩

/-! ## Programs -/

@[simp] theorem M.pure_apply {α : Type} (a : α) (s : St) : (pure a : M α) s = (.ok a, s) := rfl
theorem M.bind_apply {α β : Type} (x : M α) (f : α → M β) (s : St) : (x >>= f) s = match x s with
    | (.ok a, s) => f a s
    | (.err e, s) => (.err e, s)
    | (.timeout, s) => (.timeout, s) := rfl
theorem M.bind_ok {α β : Type} {x : M α} {f : α → M β} {s s' : St} {a : α} (h : x s = (.ok a, s')) : (x >>= f) s = f a s' := by
  rw [M.bind_apply, h]
theorem M.bind_err {α β : Type} {x : M α} {f : α → M β} {s s' : St} {e : PyErr} (h : x s = (.err e, s')) :
    (x >>= f) s = (.err e, s') := by
  rw [M.bind_apply, h]
theorem M.bind_timeout {α β : Type} {x : M α} {f : α → M β} {s s' : St} (h : x s = (.timeout, s')) :
    (x >>= f) s = (.timeout, s') := by
  rw [M.bind_apply, h]
@[simp] theorem M.pure_bind {α β : Type} (a : α) (f : α → M β) : ((pure a : M α) >>= f) = f a := rfl
@[simp] theorem lift_apply {α : Type} (x : Res α) (s : St) : lift x s = (x, s) := rfl
@[simp] theorem raise_apply {α : Type} (e : PyErr) (s : St) : (raise e : M α) s = (.err e, s) := rfl
@[simp] theorem state_apply (s : St) : state s = (.ok s, s) := rfl
theorem cell_apply {i : Nat} {s : St} {c : Cell} (h : s.mem[i]? = some c) : cell i s = (.ok c, s) := by
  simp [cell, h]
theorem schema_apply {i : Nat} {s : St} {c : Schema} (h : s.docs[i]? = some c) : schema i s = (.ok c, s) := by
  simp [schema, h]
theorem setShape_apply {i : Nat} {s : St} {c : Cell} (h : s.mem[i]? = some c) (sh : Shape) :
    setShape i sh s = (.ok (), { s with mem := s.mem.set i { c with shape := sh } }) := by
  simp [setShape, h]

end Verif.Obj
