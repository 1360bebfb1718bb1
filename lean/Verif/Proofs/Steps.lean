import Verif.Proofs.LoadPlain
import Verif.Proofs.Query
/-! # Going down and up in a document as built -/

namespace Verif.Obj
open Verif Verif.Spec

theorem TreeL.get {m : Mem} : ∀ {xs : List Node} {i self : Nat} {ids : List Nat} {lo hi t j : Nat},
    TreeL m xs i self ids lo hi → ids[t]? = some j →
      ∃ x hi', xs[t]? = some x ∧ Tree m x (some self) (natStr (i + t)) j hi' ∧ lo ≤ j ∧ hi' ≤ hi
  | [], _, _, _, _, _, t, j, h, e => by rw [TreeL] at h; rw [h.1] at e; simp at e
  | x :: xs, i, self, _, lo, hi, t, j, h, e => by
    rw [TreeL] at h; obtain ⟨mid, rest, rfl, h1, h2⟩ := h
    cases t with
    | zero =>
      simp only [List.getElem?_cons_zero, Option.some.injEq] at e; subst e
      exact ⟨x, mid, rfl, h1, Nat.le_refl _, h2.le⟩
    | succ t =>
      obtain ⟨y, hi', e1, e2, e3, e4⟩ := TreeL.get h2 (show rest[t]? = some j from e)
      have := h1.lt
      rw [show i + 1 + t = i + (t + 1) by omega] at e2
      exact ⟨y, hi', e1, e2, by omega, e4⟩

theorem TreeD.get {m : Mem} : ∀ {xs : List (Str × Node)} {self : Nat} {ids : List (Str × Nat)} {lo hi j : Nat} {k : Str},
    TreeD m xs self ids lo hi → (k, j) ∈ ids → ∃ x hi', (k, x) ∈ xs ∧ Tree m x (some self) k j hi' ∧ lo ≤ j ∧ hi' ≤ hi
  | [], _, _, _, _, j, k, h, e => by rw [TreeD] at h; rw [h.1] at e; simp at e
  | (a, x) :: xs, self, _, lo, hi, j, k, h, e => by
    rw [TreeD] at h; obtain ⟨mid, rest, rfl, h1, h2⟩ := h
    rcases List.mem_cons.1 e with e | e
    · cases e
      exact ⟨x, mid, by simp, h1, Nat.le_refl _, h2.le⟩
    · obtain ⟨y, hi', e1, e2, e3, e4⟩ := TreeD.get h2 e
      have := h1.lt
      exact ⟨y, hi', by simp [e1], e2, by omega, e4⟩

theorem Tree.ofObj {m : Mem} {n : Node} {p : Option Nat} {k : Str} {lo hi : Nat} {c : Cell} {kvs : List (Str × Nat)}
    (ht : Tree m n p k lo hi) (hc : m[lo]? = some c) (hs : c.shape = .obj kvs) : ∃ xs, n = .obj xs ∧ TreeD m xs lo kvs (lo + 1) hi := by
  cases n <;> rw [Tree] at ht
  case obj xs => obtain ⟨ids, h1, h2⟩ := ht; rw [hc] at h1; cases h1; cases hs; exact ⟨xs, rfl, h2⟩
  case arr => obtain ⟨ids, h1, -⟩ := ht; rw [hc] at h1; cases h1; cases hs
  case ref => exact ht.elim
  all_goals (have h1 := ht.1; rw [hc] at h1; cases h1; cases hs)

theorem Tree.ofArr {m : Mem} {n : Node} {p : Option Nat} {k : Str} {lo hi : Nat} {c : Cell} {ids : List Nat}
    (ht : Tree m n p k lo hi) (hc : m[lo]? = some c) (hs : c.shape = .arr ids) : ∃ xs, n = .arr xs ∧ TreeL m xs 0 lo ids (lo + 1) hi := by
  cases n <;> rw [Tree] at ht
  case arr xs => obtain ⟨ids, h1, h2⟩ := ht; rw [hc] at h1; cases h1; cases hs; exact ⟨xs, rfl, h2⟩
  case obj => obtain ⟨ids, h1, -⟩ := ht; rw [hc] at h1; cases h1; cases hs
  case ref => exact ht.elim
  all_goals (have h1 := ht.1; rw [hc] at h1; cases h1; cases hs)

/-- What is reached by going down is found by going up. -/
theorem Tree.steps {m : Mem} {lo i : Nat} {ks : List Str} (h : Steps m lo ks i) :
    ∀ {n : Node} {p : Option Nat} {k : Str} {hi : Nat} {pre : List Str} {top : Nat}, Tree m n p k lo hi → Up m lo pre top →
      Up m i (pre ++ ks) top := by
  induction h with
  | here i => intro n p k hi pre top _ hu; simpa using hu
  | @member i j l c kvs k ks hc hs hk h ih =>
    intro n p k' hi pre top ht hu
    obtain ⟨xs, rfl, h2⟩ := ht.ofObj hc hs
    obtain ⟨x, hi', -, e2, e3, -⟩ := TreeD.get h2 hk
    obtain ⟨c', a, b, d⟩ := e2.slots
    have := ih e2 (Up.step a b (by omega) hu)
    rw [d] at this
    simpa using this
  | @elem i j l c xs t ks hc hs hk h ih =>
    intro n p k' hi pre top ht hu
    obtain ⟨ys, rfl, h2⟩ := ht.ofArr hc hs
    obtain ⟨x, hi', -, e2, e3, -⟩ := TreeL.get h2 hk
    obtain ⟨c', a, b, d⟩ := e2.slots
    have := ih e2 (Up.step a b (by omega) hu)
    rw [d] at this
    simpa using this

/-- `query`'s loop finds what is reached by going down. -/
theorem walk_steps (E : Env) {s : St} {i j : Nat} {ks : List Str} (h : Steps s.mem i ks j)
    (hs : ∀ k ∈ ks, ∀ i, ArrayIndex k i → k.length ≤ 4300) :
    ∀ {n : Node} {p : Option Nat} {k : Str} {hi : Nat}, Tree s.mem n p k i hi → n.RefFree →
      Runs (fun f => walk (ops E f) i ks) s (.ok j) s := by
  induction h with
  | here i => intros; exact .pure
  | @member i j l c kvs k ks hc hsh hk h ih =>
    intro n p k' hi ht hr
    obtain ⟨xs, rfl, h2⟩ := ht.ofObj hc hsh
    obtain ⟨x, hi', e1, e2, e3, -⟩ := TreeD.get h2 hk
    rw [Node.RefFree] at hr
    unfold walk
    refine Runs.bind (.next fun f => kind_plain E hc (by rw [hsh]; rfl)) ?_
    simp only [hsh, Shape.kind]
    refine Runs.bind ?_ (ih (fun k hk => hs k (by simp [hk])) e2 (Node.refFreeD_iff.1 hr.2 _ e1))
    unfold item
    refine Runs.bind (.next fun f => members_obj E hc hsh) ?_
    have hn : (kvs.map Prod.fst).Nodup := by rw [h2.keys]; exact hr.1
    simp only [dictGet_of_mem hn hk]
    exact .pure
  | @elem i j l c xs t ks hc hsh hk h ih =>
    intro n p k' hi ht hr
    obtain ⟨ys, rfl, h2⟩ := ht.ofArr hc hsh
    obtain ⟨x, hi', e1, e2, e3, -⟩ := TreeL.get h2 hk
    rw [Node.RefFree] at hr
    unfold walk
    refine Runs.bind (.next fun f => kind_plain E hc (by rw [hsh]; rfl)) ?_
    simp only [hsh, Shape.kind]
    refine Runs.bind (.const (cell_apply hc)) ?_
    have hi := index_natStr t
    simp only [hsh, index_ascii hi, Bool.not_true, Bool.false_eq_true, if_false, pyInt_index hi (hs _ (by simp) _ hi)]
    refine Runs.bind (a := j) (.const ?_) (ih (fun k hk => hs k (by simp [hk])) e2 (Node.refFreeL_iff.1 hr _ (List.mem_of_getElem? e1)))
    rw [lift_apply, pyIndex_nat, hk]

theorem node_eq (E : Env) (f i : Nat) : (ops E (f + 1)).node i = nodeS (ops E f) i := rfl

mutual
/-- The objects show the data they were built from. -/
theorem node_tree (E : Env) {s : St} : ∀ {n : Node} {p : Option Nat} {k : Str} {lo hi : Nat}, Tree s.mem n p k lo hi →
    Runs (fun f => (ops E f).node lo) s (.ok n) s
  | .null, _, _, _, _, h => by rw [Tree] at h; exact .next fun f => by change nodeS _ _ _ = _; unfold nodeS; rw [M.bind_ok (cell_apply h.1)]; rfl
  | .bool _, _, _, _, _, h => by rw [Tree] at h; exact .next fun f => by change nodeS _ _ _ = _; unfold nodeS; rw [M.bind_ok (cell_apply h.1)]; rfl
  | .num _, _, _, _, _, h => by rw [Tree] at h; exact .next fun f => by change nodeS _ _ _ = _; unfold nodeS; rw [M.bind_ok (cell_apply h.1)]; rfl
  | .str _, _, _, _, _, h => by rw [Tree] at h; exact .next fun f => by change nodeS _ _ _ = _; unfold nodeS; rw [M.bind_ok (cell_apply h.1)]; rfl
  | .arr xs, _, _, lo, _, h => by
    rw [Tree] at h; obtain ⟨ids, h1, h2⟩ := h
    refine Runs.shift (g := fun f => nodeS (ops E f) lo) ?_ (fun f => rfl)
    unfold nodeS
    refine Runs.bind (.const (cell_apply h1)) ?_
    exact Runs.bind (node_treeL E h2) .pure
  | .obj xs, _, _, lo, _, h => by
    rw [Tree] at h; obtain ⟨ids, h1, h2⟩ := h
    refine Runs.shift (g := fun f => nodeS (ops E f) lo) ?_ (fun f => rfl)
    unfold nodeS
    refine Runs.bind (.const (cell_apply h1)) ?_
    exact Runs.bind (node_treeD E h2) .pure
  | .ref .., _, _, _, _, h => by rw [Tree] at h; exact h.elim
theorem node_treeL (E : Env) {s : St} : ∀ {xs : List Node} {i self : Nat} {ids : List Nat} {lo hi : Nat},
    TreeL s.mem xs i self ids lo hi → Runs (fun f => eachL (ops E f).node ids) s (.ok xs) s
  | [], _, _, _, _, _, h => by rw [TreeL] at h; rw [h.1]; exact .pure
  | x :: xs, _, _, _, _, _, h => by
    rw [TreeL] at h; obtain ⟨mid, rest, rfl, h1, h2⟩ := h
    unfold eachL
    exact Runs.bind (node_tree E h1) (Runs.bind (node_treeL E h2) .pure)
theorem node_treeD (E : Env) {s : St} : ∀ {xs : List (Str × Node)} {self : Nat} {ids : List (Str × Nat)} {lo hi : Nat},
    TreeD s.mem xs self ids lo hi → Runs (fun f => eachD (ops E f).node ids) s (.ok xs) s
  | [], _, _, _, _, h => by rw [TreeD] at h; rw [h.1]; exact .pure
  | (k, x) :: xs, _, _, _, _, h => by
    rw [TreeD] at h; obtain ⟨mid, rest, rfl, h1, h2⟩ := h
    unfold eachD
    exact Runs.bind (node_tree E h1) (Runs.bind (node_treeD E h2) .pure)
end

end Verif.Obj
