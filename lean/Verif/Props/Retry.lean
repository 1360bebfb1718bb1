import Verif.Proofs.LoadRuns
import Verif.Proofs.LocalRef
import Verif.Props.Core
/-!
# C64: a failed load can be tried again

Refuted: after `load` raised, a second `load` of the same schema need not end.
-/

namespace Verif.Obj
open Verif Verif.Spec

variable (E : Env)

/-- `_process_node` of an object, step by step. -/
theorem process_obj {d n : Nat} {kws : List Kw} {s s1 s2 : St} {c c1 : Cell} {kvs kvs0 kvs' : List (Str × Nat)} {x : Res Nat}
    (hc : s.mem[n]? = some c) (hs : c.shape = .obj kvs) (hk : Runs (fun f => eachD ((ops E f).process d kws) kvs) s (.ok kvs') s1)
    (hc1 : s1.mem[n]? = some c1) (hs1 : c1.shape = .obj kvs0)
    (ha : Runs (fun f => applyAll E (ops E f) d kws n) { s1 with mem := s1.mem.set n { c1 with shape := .obj kvs' } } x s2) :
    Runs (fun f => (ops E f).process d kws n) s x s2 := by
  refine Runs.shift (g := fun f => processS E (ops E f) d kws n) ?_ (fun f => rfl)
  unfold processS
  refine Runs.bind (.next fun f => kind_plain E hc (by rw [hs]; rfl)) ?_
  simp only [hs, Shape.kind, ne_eq, not_true_eq_false, if_false]
  exact Runs.bind (members_runs E hc hs) (Runs.bind hk (Runs.bind (.const (setMembers_obj hc1 hs1)) ha))

theorem eachD_cons {g : Nat → Nat → M Nat} {k : Str} {x y : Nat} {xs ys : List (Str × Nat)} {s s1 s2 : St}
    (h : Runs (fun f => g f x) s (.ok y) s1) (h' : Runs (fun f => eachD (g f) xs) s1 (.ok ys) s2) :
    Runs (fun f => eachD (g f) ((k, x) :: xs)) s (.ok ((k, y) :: ys)) s2 := by
  unfold eachD
  exact Runs.bind h (Runs.bind h' .pure)

theorem eachD_err {g : Nat → Nat → M Nat} {k : Str} {x : Nat} {xs : List (Str × Nat)} {s s1 : St} {e : PyErr}
    (h : Runs (fun f => g f x) s (.err e) s1) : Runs (fun f => eachD (g f) ((k, x) :: xs)) s (.err e) s1 := by
  unfold eachD
  exact Runs.bind_err h

theorem eachD_later {g : Nat → Nat → M Nat} {k : Str} {x y : Nat} {xs : List (Str × Nat)} {s s1 s2 : St} {e : PyErr}
    (h : Runs (fun f => g f x) s (.ok y) s1) (h' : Runs (fun f => eachD (g f) xs) s1 (.err e) s2) :
    Runs (fun f => eachD (g f) ((k, x) :: xs)) s (.err e) s2 := by
  unfold eachD
  exact Runs.bind h (Runs.bind_err h')

/-- `_process_node` of an object a member of which raises. -/
theorem process_obj_err {d n : Nat} {kws : List Kw} {s s1 : St} {c : Cell} {kvs : List (Str × Nat)} {e : PyErr}
    (hc : s.mem[n]? = some c) (hs : c.shape = .obj kvs) (hk : Runs (fun f => eachD ((ops E f).process d kws) kvs) s (.err e) s1) :
    Runs (fun f => (ops E f).process d kws n) s (.err e) s1 := by
  refine Runs.shift (g := fun f => processS E (ops E f) d kws n) ?_ (fun f => rfl)
  unfold processS
  refine Runs.bind (.next fun f => kind_plain E hc (by rw [hs]; rfl)) ?_
  simp only [hs, Shape.kind, ne_eq, not_true_eq_false, if_false]
  exact Runs.bind (members_runs E hc hs) (Runs.bind_err hk)

/-- `RefKeyword.apply` with nothing but a fragment. -/
theorem applyRef_local {d lo x : Nat} {s : St} {c : Cell} {ids : List (Str × Nat)} {t p : Str} {q : Option Nat} {u b : Uri} {ptr : List Str}
    (hc : s.mem[lo]? = some c) (hs : c.shape = .obj ids) (hx : dictGet c!"$ref" ids = some x) (hxc : s.mem[x]? = some ⟨.str t, q, p⟩)
    (hu : Uri.parse E.ip t = .ok u) (hp : Pointer.parse u.fragment = .ok ptr) (hb : Uri.baseUri E.ip u = .ok b) (hbt : Uri.truth b = false) :
    Runs (fun f => applyCore E (ops E f) d lo .ref) s (.ok s.mem.length) { s with mem := s.mem ++ [⟨.ref lo d ptr, c.parent, c.key⟩] } := by
  change Runs (fun f => applyRef E (ops E f) d lo) _ _ _
  unfold applyRef
  refine Runs.bind (itemText_runs E (members_runs E hc hs) hx hxc) ?_
  refine Runs.bind (a := u) (s1 := s) (.const (by rw [hu]; rfl)) ?_
  refine Runs.bind (a := ptr) (s1 := s) (.const (by rw [hp]; rfl)) ?_
  refine Runs.bind (a := b) (s1 := s) (.const (by rw [hb]; rfl)) ?_
  refine Runs.bind (.const (cell_apply hc)) ?_
  simp only [hbt, Bool.not_false, if_true]
  exact .const rfl

/-- `RefKeyword.apply` with a fragment that is no pointer. -/
theorem applyRef_noPointer {d lo x : Nat} {s : St} {c : Cell} {ids : List (Str × Nat)} {t p : Str} {q : Option Nat} {u : Uri} {e : PyErr}
    (hc : s.mem[lo]? = some c) (hs : c.shape = .obj ids) (hx : dictGet c!"$ref" ids = some x) (hxc : s.mem[x]? = some ⟨.str t, q, p⟩)
    (hu : Uri.parse E.ip t = .ok u) (hp : Pointer.parse u.fragment = .err e) :
    Runs (fun f => applyCore E (ops E f) d lo .ref) s (.err e) s := by
  change Runs (fun f => applyRef E (ops E f) d lo) _ _ _
  unfold applyRef
  refine Runs.bind (itemText_runs E (members_runs E hc hs) hx hxc) ?_
  refine Runs.bind (a := u) (s1 := s) (.const (by rw [hu]; rfl)) ?_
  exact Runs.bind_err (.const (by rw [hp]; rfl))

theorem applyAll_fail {d n : Nat} {k : Kw} {ks : List Kw} {s s1 : St} {kvs : List (Str × Nat)} {e : PyErr}
    (h : Runs (fun f => (ops E f).members n) s (.ok kvs) s) (hk : (k.keys.any fun x => dictHas x kvs) = true)
    (h1 : Runs (fun f => applyCore E (ops E f) d n k) s (.err e) s1) : Runs (fun f => applyAll E (ops E f) d (k :: ks) n) s (.err e) s1 := by
  unfold applyAll
  refine Runs.bind (canApply_runs E k h) ?_
  simp only [hk, if_true]
  exact Runs.bind_err h1

/-- The core keywords on an object that has none of their members. -/
theorem applyAll_other {d n : Nat} {kws : List Kw} {s : St} {c : Cell} {kvs : List (Str × Nat)} (h : s.mem[n]? = some c) (hs : c.shape = .obj kvs)
    (hk : ∀ k ∈ kws, ∀ x ∈ k.keys, x ∉ kvs.map Prod.fst) : Runs (fun f => applyAll E (ops E f) d kws n) s (.ok n) s :=
  .next fun _ => applyAll_none E h hs kws hk

end Verif.Obj

namespace Verif.Props
open Verif Verif.Spec Verif.Obj

/-- A document whose first load fails: `{"x": {"a": {"$ref": "#/b"}}, "y": {"$ref": "#foo"}}`. -/
def retryDoc : Val :=
  .dict [(c!"x", .dict [(c!"a", .dict [(c!"$ref", .str c!"#/b")])]), (c!"y", .dict [(c!"$ref", .str c!"#foo")])]

/-- What the failed load leaves behind: the first reference is in its place, the schema is not loaded. -/
def retryLeft : St where
  mem := [⟨.obj [(c!"x", 1), (c!"y", 4)], none, []⟩, ⟨.obj [(c!"a", 6)], some 0, c!"x"⟩, ⟨.obj [(c!"$ref", 3)], some 1, c!"a"⟩,
    ⟨.str c!"#/b", some 2, c!"$ref"⟩, ⟨.obj [(c!"$ref", 5)], some 0, c!"y"⟩, ⟨.str c!"#foo", some 4, c!"$ref"⟩,
    ⟨.ref 2 0 [c!"b"], some 1, c!"a"⟩]
  docs := [⟨0, false, draft2020Vocabulary, [], none⟩]
  storage := []

/-- Its objects before loading, with what has been added. -/
def retryState (a : Nat) (more : List Cell) : St where
  mem := [⟨.obj [(c!"x", 1), (c!"y", 4)], none, []⟩, ⟨.obj [(c!"a", a)], some 0, c!"x"⟩, ⟨.obj [(c!"$ref", 3)], some 1, c!"a"⟩,
    ⟨.str c!"#/b", some 2, c!"$ref"⟩, ⟨.obj [(c!"$ref", 5)], some 0, c!"y"⟩, ⟨.str c!"#foo", some 4, c!"$ref"⟩] ++ more
  docs := [⟨0, false, draft2020Vocabulary, [], none⟩]
  storage := []

theorem retry_first (E : Env) : Runs (fun f => (ops E f).load 0) (newDocument retryDoc draft2020Vocabulary St.empty).2 (.err .valueError) retryLeft := by
  generalize hs : (newDocument retryDoc draft2020Vocabulary St.empty).2 = s1
  have hs' : s1 = retryState 2 [] := by rw [← hs]; rfl
  subst hs'
  clear hs
  obtain ⟨u, b, hu, hp, hb, hbt⟩ := local_fragment E.ip (fr := c!"/b") (ptr := [c!"b"]) (by decide) (by decide)
  have leaf : ∀ (a : Nat) (more : List Cell) (i : Nat), i = 3 ∨ i = 5 → Runs (fun f => (ops E f).process 0 [.ref, .anchor, .id] i) (retryState a more) (.ok i) (retryState a more) := by
    rintro a more i (rfl | rfl) <;> exact process_leaf E 0 _ rfl rfl (by simp [Shape.kind])
  let ref : Cell := ⟨.ref 2 0 [c!"b"], some 1, c!"a"⟩
  have hA : Runs (fun f => (ops E f).process 0 [.ref, .anchor, .id] 2) (retryState 2 []) (.ok 6) (retryState 2 [ref]) := by
    refine process_obj E (s1 := retryState 2 []) rfl rfl (eachD_cons (leaf _ _ 3 (.inl rfl)) .pure) rfl rfl ?_
    refine applyAll_apply E (members_runs E (c := ⟨.obj [(c!"$ref", 3)], some 1, c!"a"⟩) rfl rfl) rfl (s1 := retryState 2 [ref])
      (applyRef_local E (c := ⟨.obj [(c!"$ref", 3)], some 1, c!"a"⟩) (s := retryState 2 []) rfl rfl rfl rfl hu hp hb hbt) ?_
    have hm := membersRef_runs E (i := 6) (c := ref) (s := retryState 2 [ref]) rfl rfl rfl rfl (members_runs E (c := ⟨.obj [(c!"$ref", 3)], some 1, c!"a"⟩) rfl rfl)
    exact applyAll_step E hm rfl (applyAll_step E hm rfl (applyAll_nil E))
  have hX : Runs (fun f => (ops E f).process 0 [.ref, .anchor, .id] 1) (retryState 2 []) (.ok 1) (retryState 6 [ref]) := by
    refine process_obj E (s1 := retryState 2 [ref]) rfl rfl (eachD_cons hA .pure) rfl rfl ?_
    exact applyAll_other E (s := retryState 6 [ref]) (c := ⟨.obj [(c!"a", 6)], some 0, c!"x"⟩) rfl rfl (by decide)
  have hY : Runs (fun f => (ops E f).process 0 [.ref, .anchor, .id] 4) (retryState 6 [ref]) (.err .valueError) (retryState 6 [ref]) := by
    refine process_obj E (s1 := retryState 6 [ref]) rfl rfl (eachD_cons (leaf _ _ 5 (.inr rfl)) .pure) rfl rfl ?_
    exact applyAll_fail E (s := retryState 6 [ref]) (members_runs E (c := ⟨.obj [(c!"$ref", 5)], some 0, c!"y"⟩) rfl rfl) rfl
      (applyRef_noPointer E (c := ⟨.obj [(c!"$ref", 5)], some 0, c!"y"⟩) rfl rfl rfl rfl (reference E.ip (fragment_parts (fr := c!"foo") (by decide))).1 (by decide))
  refine Runs.shift (g := fun f => loadS (ops E f) 0) ?_ (fun f => rfl)
  unfold loadS
  refine Runs.bind (.const (schema_apply rfl)) ?_
  simp only [Bool.false_eq_true, if_false]
  change Runs (fun f => (ops E f).process 0 [.ref, .anchor, .id] 0 >>= _) _ _ (retryState 6 [ref])
  exact Runs.bind_err (process_obj_err E rfl rfl (eachD_later hX (eachD_err hY)))

theorem retry_again (E : Env) : ∀ f, (ops E f).load 0 retryLeft = (.timeout, retryLeft)
  | 0 => rfl
  | 1 => rfl
  | 2 => rfl
  | 3 => rfl
  | 4 => rfl
  | 5 => rfl
  | f + 6 => by
    have ih := retry_again E f
    have h1 : (ops E (f + 1)).query 0 [c!"b"] retryLeft = (.timeout, retryLeft) := by
      change queryS (ops E f) 0 [c!"b"] retryLeft = _
      unfold queryS
      rw [M.bind_timeout ih]
    have h2 : (ops E (f + 2)).kind 6 retryLeft = (.timeout, retryLeft) := by
      change kindS (ops E (f + 1)) 6 retryLeft = _
      unfold kindS
      rw [M.bind_ok (cell_apply rfl)]
      exact M.bind_timeout h1
    have h3 : (ops E (f + 3)).process 0 [.ref, .anchor, .id] 6 retryLeft = (.timeout, retryLeft) := by
      change processS E (ops E (f + 2)) 0 _ 6 retryLeft = _
      unfold processS
      rw [M.bind_timeout h2]
    have h4 : (ops E (f + 4)).process 0 [.ref, .anchor, .id] 1 retryLeft = (.timeout, retryLeft) := by
      change processS E (ops E (f + 3)) 0 _ 1 retryLeft = _
      unfold processS
      rw [M.bind_ok (kind_plain E rfl rfl), if_neg (by simp [Shape.kind]), M.bind_ok (members_obj E (c := ⟨.obj [(c!"a", 6)], some 0, c!"x"⟩) rfl rfl)]
      refine M.bind_timeout ?_
      unfold eachD
      exact M.bind_timeout h3
    have h5 : (ops E (f + 5)).process 0 [.ref, .anchor, .id] 0 retryLeft = (.timeout, retryLeft) := by
      change processS E (ops E (f + 4)) 0 _ 0 retryLeft = _
      unfold processS
      rw [M.bind_ok (kind_plain E rfl rfl), if_neg (by simp [Shape.kind]), M.bind_ok (members_obj E (c := ⟨.obj [(c!"x", 1), (c!"y", 4)], none, []⟩) rfl rfl)]
      refine M.bind_timeout ?_
      unfold eachD
      exact M.bind_timeout h4
    change loadS (ops E (f + 5)) 0 retryLeft = _
    unfold loadS
    rw [M.bind_ok (schema_apply rfl)]
    simp only [Bool.false_eq_true, if_false]
    exact M.bind_timeout h5

/-- C64 fails: the first load raises `ValueError`, in every world; then no load of the schema ever ends, whatever the stack (in CPython:
`RecursionError`). -/
theorem C64_violated (E : Env) : ∃ (v : Val) (s1 s2 : St), newDocument v draft2020Vocabulary St.empty = (.ok 0, s1) ∧
    (∃ f0, ∀ f, f0 ≤ f → (ops E f).load 0 s1 = (.err .valueError, s2)) ∧ ∀ f, (ops E f).load 0 s2 = (.timeout, s2) :=
  ⟨retryDoc, _, retryLeft, rfl, retry_first E, retry_again E⟩

end Verif.Props
