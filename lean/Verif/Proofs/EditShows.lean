import Verif.Proofs.Edit
import Verif.Props.Placed
import Verif.Spec.Edit
/-! # What is written to an object, seen as data -/

namespace Verif.Obj
open Verif Verif.Spec Verif.Props

theorem natStr_inj {a b : Nat} (h : natStr a = natStr b) : a = b := by
  have := (index_natStr a).2.2
  rw [h, ← (index_natStr b).2.2] at this
  exact this

theorem Up.same {m : Mem} {i top top' : Nat} {ks ks' : List Str} (h : Up m i ks top) (h' : Up m i ks' top') : ks = ks' := by
  have := h.path.symm.trans h'.path
  cases this; rfl

/-- One leads to the other. -/
def Reaches (m : Mem) (i j : Nat) : Prop := ∃ ks, Leading m i ks j

theorem Reaches.self {m : Mem} {i j : Nat} (h : i = j) : Reaches m i j := ⟨[], h ▸ .here i⟩
theorem Reaches.node {m : Mem} {i j l e : Nat} {ptr : List Str} {c : Cell} (hc : m[i]? = some c) (hs : c.shape = .ref j e ptr) (h : Reaches m j l) :
    Reaches m i l := h.imp fun _ q => .node hc hs q
theorem Reaches.member {m : Mem} {i j l : Nat} {c : Cell} {kvs : List (Str × Nat)} {k : Str} (hc : m[i]? = some c) (hs : c.shape = .obj kvs)
    (hk : (k, j) ∈ kvs) (h : Reaches m j l) : Reaches m i l := h.elim fun _ q => ⟨_, .member hc hs hk q⟩
theorem Reaches.elem {m : Mem} {i j l : Nat} {c : Cell} {xs : List Nat} (hc : m[i]? = some c) (hs : c.shape = .arr xs) (hk : j ∈ xs) (h : Reaches m j l) :
    Reaches m i l := by
  obtain ⟨t, ht⟩ := List.mem_iff_getElem?.1 hk
  exact h.elim fun _ q => ⟨_, .elem hc hs ht q⟩

theorem Inv.leading {s : St} (hs : Inv s) {i j : Nat} {ks : List Str} (h : Leading s.mem i ks j) :
    ∀ {pre : List Str} {top : Nat}, Up s.mem i pre top → ∃ top', Up s.mem j (pre ++ ks) top' := by
  induction h with
  | here i => intro pre top hu; exact ⟨top, by simpa using hu⟩
  | member hc hsh hk h ih =>
    intro pre top hu
    obtain ⟨t, h⟩ := ih (hs.step hu (((hs.cells _ _ hc).obj _ hsh).2 _ _ hk))
    exact ⟨t, by simpa using h⟩
  | elem hc hsh hk h ih =>
    intro pre top hu
    obtain ⟨t', h⟩ := ih (hs.step hu ((hs.cells _ _ hc).arr _ hsh _ _ hk))
    exact ⟨t', by simpa using h⟩
  | node hc hsh h ih =>
    intro pre top hu
    obtain ⟨t', hu', -⟩ := Inv.beside hu ⟨_, hc, rfl, rfl⟩ ((hs.cells _ _ hc).ref _ _ _ hsh) hs
    exact ih hu'

/-- Whatever is in another place does not lead here. -/
theorem Inv.apart {s : St} (hs : Inv s) {p y i ty : Nat} {pre rest : List Str} {k k' : Str} (hp : Up s.mem p pre ty) (hy : Slots s.mem y (some p) k')
    {ti : Nat} (hi : Up s.mem i (pre ++ k :: rest) ti) (hk : k' ≠ k) : ¬ Reaches s.mem y i := by
  rintro ⟨ks, h⟩
  obtain ⟨t, h⟩ := hs.leading h (hs.step hp hy)
  have := hi.same h
  simp at this
  exact hk this.1.symm

/-- What is below an object does not lead to it. -/
theorem Inv.below {s : St} (hs : Inv s) {y i : Nat} {k : Str} (hi : i < s.mem.length) (hy : Slots s.mem y (some i) k) : ¬ Reaches s.mem y i := by
  rintro ⟨ks, h⟩
  obtain ⟨pre, t, hu⟩ := hs.up _ i (Nat.lt_succ_self _) hi
  obtain ⟨t', h⟩ := hs.leading h (hs.step hu hy)
  have := congrArg List.length (hu.same h)
  simp at this

section
set_option linter.unusedSectionVars false
variable {m m' : Mem} {i : Nat} (e : ∀ (j : Nat) c, j ≠ i → m[j]? = some c → m'[j]? = some c)
include e

mutual
/-- What does not lead to the object that was written to is the same data as before. -/
theorem Shows.apart : ∀ {n : Node} {y : Nat}, Shows m n y → ¬ Reaches m y i → Shows m' n y
  | .null, y, h, hr => by
    rw [Shows] at h ⊢; obtain ⟨c, h1, h2⟩ := h; exact ⟨c, e _ _ (fun e => hr (.self e)) h1, h2⟩
  | .bool _, y, h, hr => by
    rw [Shows] at h ⊢; obtain ⟨c, h1, h2⟩ := h; exact ⟨c, e _ _ (fun e => hr (.self e)) h1, h2⟩
  | .num _, y, h, hr => by
    rw [Shows] at h ⊢; obtain ⟨c, h1, h2⟩ := h; exact ⟨c, e _ _ (fun e => hr (.self e)) h1, h2⟩
  | .str _, y, h, hr => by
    rw [Shows] at h ⊢; obtain ⟨c, h1, h2⟩ := h; exact ⟨c, e _ _ (fun e => hr (.self e)) h1, h2⟩
  | .arr xs, y, h, hr => by
    rw [Shows] at h ⊢; obtain ⟨c, ids, h1, h2, h3⟩ := h
    exact ⟨c, ids, e _ _ (fun e => hr (.self e)) h1, h2, ShowsL.apart h3 fun x hx hh => hr (.elem h1 h2 hx hh)⟩
  | .obj kvs, y, h, hr => by
    rw [Shows] at h ⊢; obtain ⟨c, ids, h1, h2, h3⟩ := h
    exact ⟨c, ids, e _ _ (fun e => hr (.self e)) h1, h2, ShowsD.apart h3 fun k x hx hh => hr (.member h1 h2 hx hh)⟩
  | .ref own d p, y, h, hr => by
    rw [Shows] at h ⊢; obtain ⟨c, j, c', ids, h1, h2, h3, h4, h5⟩ := h
    exact ⟨c, j, c', ids, e _ _ (fun e => hr (.self e)) h1, h2, e _ _ (fun e => hr (.node h1 h2 (.self e))) h3, h4,
      ShowsD.apart h5 fun k x hx hh => hr (.node h1 h2 (.member h3 h4 hx hh))⟩
theorem ShowsL.apart : ∀ {xs : List Node} {ids : List Nat}, ShowsL m xs ids → (∀ x ∈ ids, ¬ Reaches m x i) → ShowsL m' xs ids
  | [], _, h, _ => by rw [ShowsL] at h ⊢; exact h
  | _ :: _, _, h, hr => by
    rw [ShowsL] at h ⊢; obtain ⟨j, r, rfl, h1, h2⟩ := h
    exact ⟨j, r, rfl, Shows.apart h1 (hr j (by simp)), ShowsL.apart h2 fun x hx => hr x (by simp [hx])⟩
theorem ShowsD.apart : ∀ {xs : List (Str × Node)} {ids : List (Str × Nat)}, ShowsD m xs ids → (∀ k x, (k, x) ∈ ids → ¬ Reaches m x i) → ShowsD m' xs ids
  | [], _, h, _ => by rw [ShowsD] at h ⊢; exact h
  | (k', _) :: _, _, h, hr => by
    rw [ShowsD] at h ⊢; obtain ⟨j, r, rfl, h1, h2⟩ := h
    exact ⟨j, r, rfl, Shows.apart h1 (hr k' j (by simp)), ShowsD.apart h2 fun k x hx => hr k x (by simp [hx])⟩
end
end

/-- The data, seen from the shape of an object. -/
def ShapeOf (m : Mem) (n : Node) (sh : Shape) : Prop := match n, sh with
    | .null, .null => True
    | .bool a, .bool b => a = b
    | .num a, .num b => a = b
    | .str a, .str b => a = b
    | .arr xs, .arr ids => ShowsL m xs ids
    | .obj kvs, .obj ids => ShowsD m kvs ids
    | .ref own d p, .ref j d' p' => d = d' ∧ p = p' ∧ ∃ c' ids, m[j]? = some c' ∧ c'.shape = .obj ids ∧ ShowsD m own ids
    | _, _ => False

theorem Shows.shape {m : Mem} {n : Node} {i : Nat} {c : Cell} (h : Shows m n i) (hc : m[i]? = some c) : ShapeOf m n c.shape := by
  cases n <;> simp only [Shows] at h
  case arr => obtain ⟨d, ids, h1, h2, h3⟩ := h; rw [hc] at h1; cases h1; rw [h2]; exact h3
  case obj => obtain ⟨d, ids, h1, h2, h3⟩ := h; rw [hc] at h1; cases h1; rw [h2]; exact h3
  case ref => obtain ⟨d, j, c', ids, h1, h2, h3⟩ := h; rw [hc] at h1; cases h1; rw [h2]; exact ⟨rfl, rfl, c', ids, h3⟩
  all_goals obtain ⟨d, h1, h2⟩ := h; rw [hc] at h1; cases h1; rw [h2]; simp only [ShapeOf]

mutual
theorem Shows.unique {m : Mem} : ∀ {n n' : Node} {i : Nat}, Shows m n i → Shows m n' i → n = n'
  | .null, n', i, h, h' => by
    rw [Shows] at h; obtain ⟨c, h1, h2⟩ := h
    have := h'.shape h1; rw [h2] at this; cases n' <;> first | exact this.elim | rfl
  | .bool _, n', i, h, h' => by
    rw [Shows] at h; obtain ⟨c, h1, h2⟩ := h
    have := h'.shape h1; rw [h2] at this; cases n' <;> first | exact this.elim | exact congrArg _ this.symm
  | .num _, n', i, h, h' => by
    rw [Shows] at h; obtain ⟨c, h1, h2⟩ := h
    have := h'.shape h1; rw [h2] at this; cases n' <;> first | exact this.elim | exact congrArg _ this.symm
  | .str _, n', i, h, h' => by
    rw [Shows] at h; obtain ⟨c, h1, h2⟩ := h
    have := h'.shape h1; rw [h2] at this; cases n' <;> first | exact this.elim | exact congrArg _ this.symm
  | .arr _, n', i, h, h' => by
    rw [Shows] at h; obtain ⟨c, ids, h1, h2, h3⟩ := h
    have := h'.shape h1; rw [h2] at this; cases n' <;> first | exact this.elim | exact congrArg _ (ShowsL.unique h3 this)
  | .obj _, n', i, h, h' => by
    rw [Shows] at h; obtain ⟨c, ids, h1, h2, h3⟩ := h
    have := h'.shape h1; rw [h2] at this; cases n' <;> first | exact this.elim | exact congrArg _ (ShowsD.unique h3 this)
  | .ref _ _ _, n', i, h, h' => by
    rw [Shows] at h; obtain ⟨c, j, c', ids, h1, h2, h3, h4, h5⟩ := h
    have := h'.shape h1; rw [h2] at this
    cases n'
    case ref =>
      obtain ⟨rfl, rfl, c2, ids2, g1, g2, g3⟩ := this
      rw [h3] at g1; cases g1; rw [h4] at g2; cases g2
      rw [ShowsD.unique h5 g3]
    all_goals exact this.elim
theorem ShowsL.unique {m : Mem} : ∀ {xs ys : List Node} {ids : List Nat}, ShowsL m xs ids → ShowsL m ys ids → xs = ys
  | [], [], _, _, _ => rfl
  | [], y :: ys, _, h, h' => by rw [ShowsL] at h; rw [ShowsL] at h'; subst h; obtain ⟨_, _, e, _⟩ := h'; cases e
  | x :: xs, [], _, h, h' => by rw [ShowsL] at h; rw [ShowsL] at h'; subst h'; obtain ⟨_, _, e, _⟩ := h; cases e
  | x :: xs, y :: ys, _, h, h' => by
    rw [ShowsL] at h; rw [ShowsL] at h'
    obtain ⟨_, _, rfl, h1, h2⟩ := h; obtain ⟨_, _, e, g1, g2⟩ := h'; cases e
    rw [Shows.unique h1 g1, ShowsL.unique h2 g2]
theorem ShowsD.unique {m : Mem} : ∀ {xs ys : List (Str × Node)} {ids : List (Str × Nat)}, ShowsD m xs ids → ShowsD m ys ids → xs = ys
  | [], [], _, _, _ => rfl
  | [], (_, y) :: ys, _, h, h' => by rw [ShowsD] at h; rw [ShowsD] at h'; subst h; obtain ⟨_, _, e, _⟩ := h'; cases e
  | (_, x) :: xs, [], _, h, h' => by rw [ShowsD] at h; rw [ShowsD] at h'; subst h'; obtain ⟨_, _, e, _⟩ := h; cases e
  | (k, x) :: xs, (k', y) :: ys, _, h, h' => by
    rw [ShowsD] at h; rw [ShowsD] at h'
    obtain ⟨_, _, rfl, h1, h2⟩ := h; obtain ⟨_, _, e, g1, g2⟩ := h'; cases e
    rw [Shows.unique h1 g1, ShowsD.unique h2 g2]
end

theorem ShowsL.append {m : Mem} : ∀ {a b : List Node} {x y : List Nat}, ShowsL m a x → ShowsL m b y → ShowsL m (a ++ b) (x ++ y)
  | [], _, _, _, h, h' => by rw [ShowsL] at h; subst h; exact h'
  | n :: a, _, _, _, h, h' => by
    rw [ShowsL] at h; obtain ⟨i, r, rfl, h1, h2⟩ := h
    rw [List.cons_append, ShowsL]; exact ⟨i, _, rfl, h1, ShowsL.append h2 h'⟩

theorem ShowsD.split {m : Mem} {k : Str} {j : Nat} : ∀ {kvs : List (Str × Node)} {ids : List (Str × Nat)}, ShowsD m kvs ids → (k, j) ∈ ids →
    ∃ a x b a' b', kvs = a ++ (k, x) :: b ∧ ids = a' ++ (k, j) :: b' ∧ ShowsD m a a' ∧ Shows m x j ∧ ShowsD m b b'
  | [], ids, h, hk => by rw [ShowsD] at h; subst h; simp at hk
  | (k', x) :: xs, ids, h, hk => by
    rw [ShowsD] at h; obtain ⟨i, r, rfl, h1, h2⟩ := h
    rcases List.mem_cons.1 hk with hk | hk
    · cases hk
      exact ⟨[], x, xs, [], r, rfl, rfl, by simp [ShowsD], h1, h2⟩
    · obtain ⟨a, y, b, a', b', rfl, rfl, g1, g2, g3⟩ := ShowsD.split h2 hk
      refine ⟨(k', x) :: a, y, b, (k', i) :: a', b', rfl, rfl, ?_, g2, g3⟩
      rw [ShowsD]; exact ⟨i, a', rfl, h1, g1⟩

theorem ShowsD.join {m : Mem} {k : Str} {x : Node} {j : Nat} {a b : List (Str × Node)} {a' b' : List (Str × Nat)} (h1 : ShowsD m a a') (h2 : Shows m x j)
    (h3 : ShowsD m b b') : ShowsD m (a ++ (k, x) :: b) (a' ++ (k, j) :: b') :=
  h1.append (by rw [ShowsD]; exact ⟨j, b', rfl, h2, h3⟩)

theorem ShowsL.split {m : Mem} {j : Nat} : ∀ {xs : List Node} {ids : List Nat} {t : Nat}, ShowsL m xs ids → ids[t]? = some j →
    ∃ a x b a' b', xs = a ++ x :: b ∧ ids = a' ++ j :: b' ∧ a.length = t ∧ a'.length = t ∧ ShowsL m a a' ∧ Shows m x j ∧ ShowsL m b b'
  | [], ids, t, h, hk => by rw [ShowsL] at h; subst h; simp at hk
  | x :: xs, ids, 0, h, hk => by
    rw [ShowsL] at h; obtain ⟨i, r, rfl, h1, h2⟩ := h
    simp at hk; subst hk
    exact ⟨[], x, xs, [], r, rfl, rfl, rfl, rfl, by simp [ShowsL], h1, h2⟩
  | x :: xs, ids, t + 1, h, hk => by
    rw [ShowsL] at h; obtain ⟨i, r, rfl, h1, h2⟩ := h
    obtain ⟨a, y, b, a', b', rfl, rfl, l1, l2, g1, g2, g3⟩ := ShowsL.split h2 (by simpa using hk)
    refine ⟨x :: a, y, b, i :: a', b', rfl, rfl, by simp [l1], by simp [l2], ?_, g2, g3⟩
    rw [ShowsL]; exact ⟨i, a', rfl, h1, g1⟩

theorem ShowsL.join {m : Mem} {x : Node} {j : Nat} : ∀ {a : List Node} {a' : List Nat} {b : List Node} {b' : List Nat}, ShowsL m a a' → Shows m x j →
    ShowsL m b b' → ShowsL m (a ++ x :: b) (a' ++ j :: b')
  | [], _, b, b', h1, h2, h3 => by rw [ShowsL] at h1; subst h1; rw [List.nil_append, ShowsL]; exact ⟨j, b', rfl, h2, h3⟩
  | y :: a, _, b, b', h1, h2, h3 => by
    rw [ShowsL] at h1; obtain ⟨i, r, rfl, g1, g2⟩ := h1
    rw [List.cons_append, ShowsL]; exact ⟨i, _, rfl, g1, ShowsL.join g2 h2 h3⟩

/-- A value written to is seen in its place in the data that holds it. -/
theorem Inv.rewrite {s : St} (hs : Inv s) {i i0 : Nat} {ks : List Str} (h : Leading s.mem i0 ks i) {m' : Mem}
    (e : ∀ (j : Nat) c, j ≠ i → s.mem[j]? = some c → m'[j]? = some c) {P : Node → Node → Prop} {y y' : Node} (hy : Shows s.mem y i)
    (hy' : Shows m' y' i) (hP : P y y') (ho : ∀ kvs, y = .obj kvs → ∃ kvs', y' = .obj kvs') :
    ∀ {n : Node}, Shows s.mem n i0 → ∃ n', Shows m' n' i0 ∧ Rewritten P ks n n' ∧ ∀ kvs, n = .obj kvs → ∃ kvs', n' = .obj kvs' := by
  induction h with
  | here i => intro n hn; rw [hn.unique hy]; exact ⟨y', hy', .here hP, ho⟩
  | @member i0 j l d dk k ks hd hds hk h ih =>
    intro n hn
    obtain ⟨pre, top, hu⟩ := hs.up _ i0 (Nat.lt_succ_self _) (List.getElem?_eq_some_iff.1 hd).1
    have hok := (hs.cells _ _ hd).obj _ hds
    obtain ⟨tl, hl⟩ : ∃ tl, Up s.mem l (pre ++ k :: ks) tl := by simpa using hs.leading h (hs.step hu (hok.2 _ _ hk))
    have hne : i0 ≠ l := by
      rintro rfl
      have := congrArg List.length (hu.same hl)
      simp at this
    cases n <;> rw [Shows] at hn
    case obj xs =>
      obtain ⟨d', ds, h1, h2, h3⟩ := hn
      rw [hd] at h1; cases h1; rw [hds] at h2; cases h2
      obtain ⟨a, x, b, a', b', rfl, rfl, g1, g2, g3⟩ := h3.split hk
      obtain ⟨x', r1, r2, -⟩ := ih e hy hy' g2
      have hnd := hok.1
      simp only [List.map_append, List.map_cons, List.nodup_append, List.nodup_cons, List.mem_cons] at hnd
      have far : ∀ k' y, (k', y) ∈ a' ++ (k, j) :: b' → k' ≠ k → ¬ Reaches s.mem y l := fun k' y hy hne => hs.apart hu (hok.2 _ _ hy) hl hne
      have fa : ∀ k' y, (k', y) ∈ a' → ¬ Reaches s.mem y l := fun k' y hy =>
        far k' y (by simp [hy]) (hnd.2.2 k' (List.mem_map.2 ⟨_, hy, rfl⟩) k (.inl rfl))
      have fb : ∀ k' y, (k', y) ∈ b' → ¬ Reaches s.mem y l := fun k' y hy =>
        far k' y (by simp [hy]) fun e' => hnd.2.1.1 (List.mem_map.2 ⟨_, hy, e'⟩)
      exact ⟨.obj (a ++ (k, x') :: b), by rw [Shows]; exact ⟨d, _, e _ _ hne hd, hds, (g1.apart e fa).join r1 (g3.apart e fb)⟩, .member r2, fun _ _ => ⟨_, rfl⟩⟩
    all_goals exfalso
    case arr => obtain ⟨d', ds, h1, h2, h3⟩ := hn; rw [hd] at h1; cases h1; rw [hds] at h2; cases h2
    case ref => obtain ⟨d', _, _, _, h1, h2, _⟩ := hn; rw [hd] at h1; cases h1; rw [hds] at h2; cases h2
    all_goals obtain ⟨d', h1, h2⟩ := hn; rw [hd] at h1; cases h1; rw [hds] at h2; cases h2
  | @elem i0 j l d dk t ks hd hds hk h ih =>
    intro n hn
    obtain ⟨pre, top, hu⟩ := hs.up _ i0 (Nat.lt_succ_self _) (List.getElem?_eq_some_iff.1 hd).1
    have hok := (hs.cells _ _ hd).arr _ hds
    obtain ⟨tl, hl⟩ : ∃ tl, Up s.mem l (pre ++ natStr t :: ks) tl := by simpa using hs.leading h (hs.step hu (hok _ _ hk))
    have hne : i0 ≠ l := by
      rintro rfl
      have := congrArg List.length (hu.same hl)
      simp at this
    cases n <;> rw [Shows] at hn
    case arr xs =>
      obtain ⟨d', ds, h1, h2, h3⟩ := hn
      rw [hd] at h1; cases h1; rw [hds] at h2; cases h2
      obtain ⟨a, x, b, a', b', rfl, rfl, l1, l2, g1, g2, g3⟩ := h3.split hk
      obtain ⟨x', r1, r2, -⟩ := ih e hy hy' g2
      have far : ∀ (t' y : Nat), (a' ++ j :: b')[t']? = some y → t' ≠ t → ¬ Reaches s.mem y l := fun t' y hy hne =>
        hs.apart hu (hok _ _ hy) hl fun e => hne (natStr_inj e)
      have fa : ∀ y ∈ a', ¬ Reaches s.mem y l := fun y hy => by
        obtain ⟨u, hu⟩ := List.mem_iff_getElem?.1 hy
        have hlt := (List.getElem?_eq_some_iff.1 hu).1
        exact far u y (by rw [List.getElem?_append_left hlt]; exact hu) (by omega)
      have fb : ∀ y ∈ b', ¬ Reaches s.mem y l := fun y hy => by
        obtain ⟨u, hu⟩ := List.mem_iff_getElem?.1 hy
        refine far (t + 1 + u) y ?_ (by omega)
        rw [List.getElem?_append_right (by omega), show t + 1 + u - a'.length = u + 1 by omega]
        simpa using hu
      subst l1
      exact ⟨.arr (a ++ x' :: b), by rw [Shows]; exact ⟨d, _, e _ _ hne hd, hds, (g1.apart e fa).join r1 (g3.apart e fb)⟩, .elem r2, fun _ h => by cases h⟩
    all_goals exfalso
    case obj => obtain ⟨d', ds, h1, h2, h3⟩ := hn; rw [hd] at h1; cases h1; rw [hds] at h2; cases h2
    case ref => obtain ⟨d', _, _, _, h1, h2, _⟩ := hn; rw [hd] at h1; cases h1; rw [hds] at h2; cases h2
    all_goals obtain ⟨d', h1, h2⟩ := hn; rw [hd] at h1; cases h1; rw [hds] at h2; cases h2
  | @node i0 j l de ptr d ks hd hds h ih =>
    intro n hn
    obtain ⟨pre, top0, hu0⟩ := hs.up _ i0 (Nat.lt_succ_self _) (List.getElem?_eq_some_iff.1 hd).1
    obtain ⟨top, hu, -⟩ := Inv.beside hu0 ⟨_, hd, rfl, rfl⟩ ((hs.cells _ _ hd).ref _ _ _ hds) hs
    have hsh := hn.shape hd
    rw [hds] at hsh
    cases n
    case ref own dn pn =>
      obtain ⟨rfl, rfl, c2, ids, h1, h2, h3⟩ := hsh
      have hne : i0 ≠ l := by
        rintro rfl
        obtain ⟨tl, hl⟩ := hs.leading h hu
        have hks : ks = [] := by have := hu0.same hl; simpa using this
        subst hks
        cases h with
        | here => rw [hd] at h1; cases h1; rw [hds] at h2; cases h2
        | node g1 g2 _ => rw [h1] at g1; cases g1; rw [h2] at g2; cases g2
      obtain ⟨n', r1, r2, r3⟩ := ih e hy hy' (n := .obj own) (by rw [Shows]; exact ⟨c2, ids, h1, h2, h3⟩)
      obtain ⟨own', rfl⟩ := r3 own rfl
      rw [Shows] at r1
      obtain ⟨c3, ids3, q1, q2, q3⟩ := r1
      exact ⟨.ref own' dn pn, by rw [Shows]; exact ⟨d, j, c3, ids3, e _ _ hne hd, hds, q1, q2, q3⟩, .node r2, fun _ h => by cases h⟩
    all_goals exact hsh.elim

/-! ## What each operation writes -/

theorem dictSet_sets {k : Str} {y : Node} {kvs : List (Str × Node)} (hn : (kvs.map Prod.fst).Nodup) : Sets k y kvs (dictSet k y kvs) := by
  have old : ∀ (a : List (Str × Node)) {x : Node} {b : List (Str × Node)}, k ∉ a.map Prod.fst → dictSet k y (a ++ (k, x) :: b) = a ++ (k, y) :: b := by
    intro a x b
    induction a with
    | nil => intro _; simp [dictSet]
    | cons p a ih =>
      obtain ⟨k', z⟩ := p
      intro h
      simp only [List.map_cons, List.mem_cons, not_or] at h
      simp [dictSet, Ne.symm h.1, ih h.2]
  have new : ∀ (a : List (Str × Node)), k ∉ a.map Prod.fst → dictSet k y a = a ++ [(k, y)] := by
    intro a
    induction a with
    | nil => intro _; simp [dictSet]
    | cons p a ih =>
      obtain ⟨k', z⟩ := p
      intro h
      simp only [List.map_cons, List.mem_cons, not_or] at h
      simp [dictSet, Ne.symm h.1, ih h.2]
  by_cases hk : k ∈ kvs.map Prod.fst
  · obtain ⟨⟨k', x⟩, hx, rfl⟩ := List.mem_map.1 hk
    obtain ⟨a, b, rfl⟩ := List.append_of_mem hx
    have : k' ∉ (a ++ b).map Prod.fst := by
      have h : ((k' :: ((a ++ b).map Prod.fst))).Nodup := by
        rw [List.map_append, List.map_cons] at hn
        rw [List.map_append]
        exact (List.perm_middle.nodup_iff).1 hn
      exact (List.nodup_cons.1 h).1
    show Sets k' y _ _
    rw [old a fun h => this (by simp only [List.map_append, List.mem_append]; exact .inl h)]
    exact .over this
  · rw [new kvs hk]; exact .new hk

theorem dictDel_drops {k : Str} {x : Node} {kvs : List (Str × Node)} (hn : (kvs.map Prod.fst).Nodup) (hx : (k, x) ∈ kvs) : Drops k x kvs (dictDel k kvs) := by
  have old : ∀ (a : List (Str × Node)) {b : List (Str × Node)}, k ∉ a.map Prod.fst → dictDel k (a ++ (k, x) :: b) = a ++ b := by
    intro a b
    induction a with
    | nil => intro _; simp [dictDel]
    | cons p a ih =>
      obtain ⟨k', z⟩ := p
      intro h
      simp only [List.map_cons, List.mem_cons, not_or] at h
      simp [dictDel, Ne.symm h.1, ih h.2]
  obtain ⟨a, b, rfl⟩ := List.append_of_mem hx
  have : k ∉ (a ++ b).map Prod.fst := by
    have h : ((k :: ((a ++ b).map Prod.fst))).Nodup := by
      rw [List.map_append, List.map_cons] at hn
      rw [List.map_append]
      exact (List.perm_middle.nodup_iff).1 hn
    exact (List.nodup_cons.1 h).1
  rw [old a fun h => this (by simp only [List.map_append, List.mem_append]; exact .inl h)]
  exact .gone this

/-- Only the object `i` is another; what is new is elsewhere. -/
structure Only (i : Nat) (s s' : St) : Prop where
  cells : ∀ (j : Nat) c, j ≠ i → s.mem[j]? = some c → s'.mem[j]? = some c
  docs : s'.docs = s.docs
  storage : s'.storage = s.storage

theorem Only.refl (i : Nat) (s : St) : Only i s s := ⟨fun _ _ _ h => h, rfl, rfl⟩
theorem Only.trans {i : Nat} {a b c : St} (h : Only i a b) (h' : Only i b c) : Only i a c :=
  ⟨fun j x hj hx => h'.cells j x hj (h.cells j x hj hx), h'.docs.trans h.docs, h'.storage.trans h.storage⟩

/-- The object `i` has these members. -/
def Holds (s : St) (i : Nat) (kvs : List (Str × Node)) : Prop := ∃ c ids, s.mem[i]? = some c ∧ c.shape = .obj ids ∧ ShowsD s.mem kvs ids

theorem Holds.nodup {s : St} (hs : Inv s) {i : Nat} {kvs : List (Str × Node)} (h : Holds s i kvs) : (kvs.map Prod.fst).Nodup := by
  obtain ⟨c, ids, hc, hsh, hd⟩ := h
  rw [← hd.keys]; exact ((hs.cells _ _ hc).obj _ hsh).1

/-- Members stay what they are when their object is written to. -/
theorem Inv.kids {s : St} (hs : Inv s) {i : Nat} {c : Cell} {ids : List (Str × Nat)} (hc : s.mem[i]? = some c) (hsh : c.shape = .obj ids) {m' : Mem}
    (e : ∀ (j : Nat) c, j ≠ i → s.mem[j]? = some c → m'[j]? = some c) {kvs : List (Str × Node)} (h : ShowsD s.mem kvs ids) : ShowsD m' kvs ids :=
  h.apart e fun _ _ hx => hs.below (List.getElem?_eq_some_iff.1 hc).1 (((hs.cells _ _ hc).obj _ hsh).2 _ _ hx)

theorem setItem_writes {s : St} (hs : Inv s) {i : Nat} {k : Str} {v : Val} {kvs : List (Str × Node)} (h : Holds s i kvs) :
    ∃ x s', setItem i k v s = (.ok x, s') ∧ Only i s s' ∧ Holds s' i (dictSet k (wrap v) kvs) := by
  obtain ⟨⟨sh, p, key⟩, ids, hc, rfl, hd⟩ := h
  obtain ⟨ext, e, ht⟩ := build_spec v (some i) k s.mem
  have hi := (List.getElem?_eq_some_iff.1 hc).1
  have h1 : ({ s with mem := s.mem ++ ext } : St).mem[i]? = some ⟨.obj ids, p, key⟩ := by
    show (s.mem ++ ext)[i]? = _
    rw [List.getElem?_append_left hi]; exact hc
  refine ⟨s.mem.length, { s with mem := (s.mem ++ ext).set i ⟨.obj (dictSet k s.mem.length ids), p, key⟩ }, ?_, ⟨fun j x hj hx => ?_, rfl, rfl⟩,
    ⟨_, _, List.getElem?_set_self (by simp; omega), rfl, ?_⟩⟩
  · unfold setItem
    rw [M.bind_ok (cell_apply hc)]
    simp only
    rw [M.bind_ok (show state s = (.ok s, s) from rfl)]
    simp only [e]
    rw [M.bind_ok (show setMem (s.mem ++ ext) s = (.ok (), { s with mem := s.mem ++ ext }) from rfl)]
    rw [M.bind_ok (setShape_apply (s := { s with mem := s.mem ++ ext }) h1 _)]
    rfl
  · show ((s.mem ++ ext).set i _)[j]? = _
    rw [List.getElem?_set_ne (Ne.symm hj), List.getElem?_append_left (List.getElem?_eq_some_iff.1 hx).1]; exact hx
  · have e1 : ∀ (j : Nat) x, j ≠ i → s.mem[j]? = some x → ((s.mem ++ ext).set i ⟨.obj (dictSet k s.mem.length ids), p, key⟩)[j]? = some x := fun j x hj hx => by
      rw [List.getElem?_set_ne (Ne.symm hj), List.getElem?_append_left (List.getElem?_eq_some_iff.1 hx).1]; exact hx
    refine ShowsD.set k ?_ (hs.kids hc rfl e1 hd)
    refine (ht.keep fun j a b => ?_).shows
    rw [List.getElem?_set_ne (by omega)]

theorem delItem_writes {s : St} (hs : Inv s) {i : Nat} {k : Str} {kvs : List (Str × Node)} (h : Holds s i kvs) :
    ∃ s', delItem i k s = (.ok (), s') ∧ Only i s s' ∧ Holds s' i (dictDel k kvs) ∧ (k ∉ kvs.map Prod.fst → s' = s) := by
  obtain ⟨⟨sh, p, key⟩, ids, hc, rfl, hd⟩ := h
  have hi := (List.getElem?_eq_some_iff.1 hc).1
  have hnd := ((hs.cells _ _ hc).obj _ rfl).1
  unfold delItem
  rw [M.bind_ok (cell_apply hc)]
  simp only
  cases hk : dictHas k ids with
  | true =>
    simp only [if_true]
    have e1 : ∀ (j : Nat) x, j ≠ i → s.mem[j]? = some x → (s.mem.set i ⟨.obj (dictDel k ids), p, key⟩)[j]? = some x := fun j x hj hx => by
      rw [List.getElem?_set_ne (Ne.symm hj)]; exact hx
    refine ⟨_, setShape_apply hc _, ⟨e1, rfl, rfl⟩, ⟨_, _, List.getElem?_set_self hi, rfl, (hs.kids hc rfl e1 hd).del k⟩, fun h => ?_⟩
    exact absurd (hd.keys ▸ dictHas_iff.1 hk) h
  | false =>
    refine ⟨s, rfl, .refl i s, ⟨_, _, hc, rfl, ?_⟩, fun _ => rfl⟩
    have hnot : k ∉ ids.map Prod.fst := fun h => by rw [dictHas_iff.2 h] at hk; cases hk
    have : dictDel k ids = ids := by
      have gen : ∀ (l : List (Str × Nat)), k ∉ l.map Prod.fst → dictDel k l = l := by
        intro l
        induction l with
        | nil => intro _; rfl
        | cons q l ih =>
          obtain ⟨k', z⟩ := q
          intro h
          simp only [List.map_cons, List.mem_cons, not_or] at h
          simp [dictDel, Ne.symm h.1, ih h.2]
      exact gen ids hnot
    exact this ▸ hd.del k

theorem getItem_reads {s : St} {i : Nat} {k : Str} {kvs : List (Str × Node)} (h : Holds s i kvs) :
    (k ∉ kvs.map Prod.fst ∧ getItem i k s = (.err .keyError, s)) ∨
      ∃ x n, dictGet k kvs = some n ∧ Shows s.mem n x ∧ getItem i k s = (.ok x, s) ∧ ∃ c ids, s.mem[i]? = some c ∧ c.shape = .obj ids ∧ (k, x) ∈ ids := by
  obtain ⟨⟨sh, p, key⟩, ids, hc, rfl, hd⟩ := h
  unfold getItem
  rcases hd.get k with ⟨h1, h2⟩ | ⟨n, x, h1, h2, h3⟩
  · refine .inl ⟨Verif.dictGet_none.1 h1, ?_⟩
    rw [M.bind_ok (cell_apply hc)]
    simp only [h2]; rfl
  · refine .inr ⟨x, n, h1, h3, ?_, _, ids, hc, rfl, dictGet_mem h2⟩
    rw [M.bind_ok (cell_apply hc)]
    simp only [h2]; rfl

/-- Taking a member out: the object taken out is the data that was the member. -/
theorem popKey_writes {s : St} (hs : Inv s) {i : Nat} {k : Str} {kvs : List (Str × Node)} (h : Holds s i kvs) :
    (k ∉ kvs.map Prod.fst ∧ popKey i k s = (.err .keyError, s)) ∨
      ∃ x n s', dictGet k kvs = some n ∧ Shows s.mem n x ∧ Shows s'.mem n x ∧ popKey i k s = (.ok x, s') ∧ Only i s s' ∧ Holds s' i (dictDel k kvs) := by
  rcases getItem_reads (k := k) h with ⟨h1, h2⟩ | ⟨x, n, h1, h2, h3, c, ids, hc, hsh, hx⟩
  · refine .inl ⟨h1, ?_⟩
    unfold popKey
    rw [M.bind_err h2]
  · obtain ⟨s', d1, d2, d3, -⟩ := delItem_writes hs (k := k) h
    refine .inr ⟨x, n, s', h1, h2, h2.apart d2.cells ?_, ?_, d2, d3⟩
    · exact hs.below (List.getElem?_eq_some_iff.1 hc).1 (((hs.cells _ _ hc).obj _ hsh).2 _ _ hx)
    · unfold popKey
      rw [M.bind_ok h3, M.bind_ok d1]
      rfl

theorem popItem_eq {s : St} {i : Nat} {c : Cell} {k : Str} {y : Nat} {r : List (Str × Nat)} (hc : s.mem[i]? = some c) (hsh : c.shape = .obj ((k, y) :: r)) :
    popItem i s = (popKey i k >>= fun x => pure (k, x)) s := by
  obtain ⟨sh, p, key⟩ := c
  cases hsh
  unfold popItem popKey
  rw [M.bind_ok (cell_apply hc)]
  simp only [M.bind_apply]
  rcases getItem i k s with ⟨r1, s1⟩
  cases r1 with
  | ok a =>
    simp only
    rcases delItem i k s1 with ⟨r2, s2⟩
    cases r2 <;> rfl
  | err _ => rfl
  | timeout => rfl

theorem dictDel_head {α : Type} (k : Str) (x : α) (r : List (Str × α)) : dictDel k ((k, x) :: r) = r := by simp [dictDel]

theorem popItem_writes {s : St} (hs : Inv s) {i : Nat} {k : Str} {n : Node} {r : List (Str × Node)} (h : Holds s i ((k, n) :: r)) :
    ∃ x s', Shows s.mem n x ∧ Shows s'.mem n x ∧ popItem i s = (.ok (k, x), s') ∧ Only i s s' ∧ Holds s' i r := by
  have h' := h
  obtain ⟨c, ids, hc, hsh, hd⟩ := h'
  rw [ShowsD] at hd
  obtain ⟨y, rest, rfl, -, -⟩ := hd
  rcases popKey_writes hs (k := k) h with ⟨h1, -⟩ | ⟨x, n', s', g1, g2, g3, g4, g5, g6⟩
  · simp at h1
  · simp [dictGet] at g1; subst g1
    rw [dictDel_head] at g6
    refine ⟨x, s', g2, g3, ?_, g5, g6⟩
    rw [popItem_eq hc hsh, M.bind_ok g4]
    rfl

theorem clearN_writes (i : Nat) : ∀ (kvs : List (Str × Node)) (n : Nat) {s : St}, kvs.length < n → Inv s → Holds s i kvs →
    ∃ s', clearN i n s = (.ok (), s') ∧ Only i s s' ∧ Holds s' i []
  | kvs, 0, s, hn, _, _ => absurd hn (by omega)
  | [], n + 1, s, _, hs, h => by
    obtain ⟨⟨sh, p, key⟩, ids, hc, rfl, hd⟩ := h
    rw [ShowsD] at hd; subst hd
    refine ⟨s, ?_, .refl i s, ⟨_, [], hc, rfl, by simp [ShowsD]⟩⟩
    unfold clearN
    rw [M.bind_ok (cell_apply hc)]
    rfl
  | (k, x) :: r, n + 1, s, hn, hs, h => by
    obtain ⟨y, s1, -, -, g1, g2, g3⟩ := popItem_writes hs h
    have h1 : Inv s1 := by have := (post_popItem hs i).1; rw [g1] at this; exact this
    obtain ⟨s2, e1, e2, e3⟩ := clearN_writes i r n (by simp at hn; omega) h1 g3
    refine ⟨s2, ?_, g2.trans e2, e3⟩
    obtain ⟨⟨sh, p, key⟩, ids, hc, rfl, hd⟩ := h
    rw [ShowsD] at hd; obtain ⟨z, rest, rfl, -, -⟩ := hd
    unfold clearN
    rw [M.bind_ok (cell_apply hc)]
    simp only
    rw [M.bind_ok g1]
    exact e1

theorem ShowsD.length {m : Mem} {kvs : List (Str × Node)} {ids : List (Str × Nat)} (h : ShowsD m kvs ids) : ids.length = kvs.length := by
  have := congrArg List.length h.keys
  simpa using this

theorem clearAll_writes {s : St} (hs : Inv s) {i : Nat} {kvs : List (Str × Node)} (h : Holds s i kvs) :
    ∃ s', clearAll i s = (.ok (), s') ∧ Only i s s' ∧ Holds s' i [] := by
  have h' := h
  obtain ⟨⟨sh, p, key⟩, ids, hc, rfl, hd⟩ := h'
  obtain ⟨s', e1, e2⟩ := clearN_writes i kvs (ids.length + 1) (by rw [hd.length]; omega) hs h
  refine ⟨s', ?_, e2⟩
  unfold clearAll
  rw [M.bind_ok (cell_apply hc)]
  exact e1

theorem updateLoop_writes (i : Nat) : ∀ (vs : List (Str × Val)) {kvs : List (Str × Node)} {s : St}, (∀ k v, (k, v) ∈ vs → (wrap v).RefFree) → Inv s →
    Holds s i kvs → ∃ s' kvs', updateLoop i vs s = (.ok (), s') ∧ Only i s s' ∧ Holds s' i kvs' ∧ SetsAll vs kvs kvs'
  | [], kvs, s, _, hs, h => ⟨s, kvs, rfl, .refl i s, h, .nil _⟩
  | (k, v) :: vs, kvs, s, hv, hs, h => by
    obtain ⟨x, s1, g1, g2, g3⟩ := setItem_writes hs (k := k) (v := v) h
    have h1 : Inv s1 := by have := (post_setItem hs (hv k v (by simp)) i k).1; rw [g1] at this; exact this
    obtain ⟨s2, kvs', e1, e2, e3, e4⟩ := updateLoop_writes i vs (fun k v hk => hv k v (by simp [hk])) h1 g3
    refine ⟨s2, kvs', ?_, g2.trans e2, e3, .cons (dictSet_sets (h.nodup hs)) e4⟩
    unfold updateLoop
    rw [M.bind_ok g1]
    exact e1

theorem updateAll_writes {s : St} (hs : Inv s) {i : Nat} {vs : List (Str × Val)} (hv : ∀ k v, (k, v) ∈ vs → (wrap v).RefFree) {kvs : List (Str × Node)}
    (h : Holds s i kvs) : ∃ s' kvs', updateAll i vs s = (.ok (), s') ∧ Only i s s' ∧ Holds s' i kvs' ∧ SetsAll vs kvs kvs' := by
  obtain ⟨s', kvs', e1, e2⟩ := updateLoop_writes i vs hv hs h
  obtain ⟨⟨sh, p, key⟩, ids, hc, rfl, hd⟩ := h
  refine ⟨s', kvs', ?_, e2⟩
  unfold updateAll
  rw [M.bind_ok (cell_apply hc)]
  exact e1

theorem setDefault_writes {s : St} (hs : Inv s) {i : Nat} {k : Str} {v : Val} {kvs : List (Str × Node)} (h : Holds s i kvs) :
    (∃ x n, (k, n) ∈ kvs ∧ Shows s.mem n x ∧ setDefault i k v s = (.ok (some x), s)) ∨
      (k ∉ kvs.map Prod.fst ∧ ∃ s', setDefault i k v s = (.ok none, s') ∧ Only i s s' ∧ Holds s' i (dictSet k (wrap v) kvs)) := by
  have h' := h
  obtain ⟨⟨sh, p, key⟩, ids, hc, rfl, hd⟩ := h'
  unfold setDefault
  rw [M.bind_ok (cell_apply hc)]
  rcases hd.get k with ⟨h1, h2⟩ | ⟨n, x, h1, h2, h3⟩
  · obtain ⟨x, s1, g1, g2, g3⟩ := setItem_writes hs (k := k) (v := v) h
    refine .inr ⟨Verif.dictGet_none.1 h1, s1, ?_, g2, g3⟩
    simp only [h2]
    rw [M.bind_ok g1]
    rfl
  · refine .inl ⟨x, n, dictGet_mem h1, h3, ?_⟩
    simp only [h2]; rfl

theorem edit_kept {e : Edit} (h : PlainEdit e) : e.Kept := by
  cases e with
  | call c =>
    cases c with
    | create v voc => exact wrap_refFree _ h
    | _ => trivial
  | set => exact wrap_refFree _ h
  | setdefault => exact wrap_refFree _ h
  | update i kvs => exact fun k v hk => wrap_refFree _ (h k v hk)
  | put => exact h
  | delAt => exact h
  | putAt => exact h
  | slice => exact h
  | _ => trivial

theorem reached_inv {s : St} (h : Reached s) : Inv s := by
  obtain ⟨E, f, cs, hE, hcs, rfl⟩ := h
  exact (edits_good E (fun u v h => wrap_refFree v (hE u v h)) f cs St.empty Inv.empty fun e he => edit_kept (hcs e he)).1

theorem Members.holds {s : St} {i : Nat} {kvs : List (Str × Node)} (h : Members s i kvs) : Holds s i kvs := by
  unfold Members at h; rw [Shows] at h; exact h

theorem Holds.members {s : St} {i : Nat} {kvs : List (Str × Node)} (h : Holds s i kvs) : Members s i kvs := by
  unfold Members; rw [Shows]; exact h

theorem Inv.written {s s' : St} (hs : Inv s) {i : Nat} {n n' : Node} {P : Node → Node → Prop} (ho : Only i s s')
    (h : Shows s.mem n i) (h' : Shows s'.mem n' i) (hP : P n n')
    (hn : ∀ kvs, n = .obj kvs → ∃ kvs', n' = .obj kvs') : Written P i s s' :=
  ⟨fun _ _ _ hj hl => (hs.rewrite hl ho.cells h h' hP hn hj).imp fun _ q => ⟨q.1, q.2.1⟩, fun _ _ hj hl => hj.apart ho.cells fun ⟨ks, q⟩ => hl ks q,
   ho.docs, ho.storage⟩

theorem position_spec {xs : List Nat} {t : Int} : (∃ p, position xs t = some p ∧ p < xs.length ∧ (t = p ∨ t = p - xs.length)) ∨
    (position xs t = none ∧ (t < -xs.length ∨ (xs.length : Int) ≤ t)) := by
  unfold position
  split
  · split
    · exact .inl ⟨_, rfl, by assumption, .inl (by omega)⟩
    · exact .inr ⟨rfl, .inr (by omega)⟩
  · split
    · exact .inl ⟨_, rfl, by omega, .inr (by omega)⟩
    · exact .inr ⟨rfl, .inl (by omega)⟩

theorem delElem_writes {s : St} (hs : Inv s) {i : Nat} {t : Int} {xs : List Node} (h : Shows s.mem (.arr xs) i) :
    ((t < -xs.length ∨ (xs.length : Int) ≤ t) ∧ delElem i t s = (.err .indexError, s)) ∨
      ∃ s' ys, delElem i t s = (.ok (), s') ∧ Only i s s' ∧ Shows s'.mem (.arr ys) i ∧ Removes t xs ys := by
  rw [Shows] at h
  obtain ⟨⟨sh, p, key⟩, ids, hc, rfl, hd⟩ := h
  have hi := (List.getElem?_eq_some_iff.1 hc).1
  unfold delElem
  rcases position_spec (xs := ids) (t := t) with ⟨q, h1, h2, h3⟩ | ⟨h1, h2⟩
  · obtain ⟨j, hj⟩ : ∃ j, ids[q]? = some j := ⟨_, List.getElem?_eq_getElem h2⟩
    have hlen := hd.length
    obtain ⟨a, x, b, a', b', rfl, rfl, l1, l2, g1, g2, g3⟩ := hd.split hj
    have e1 : ∀ (j : Nat) x (c : Cell), j ≠ i → s.mem[j]? = some x → (s.mem.set i c)[j]? = some x := fun j x c hj hx => by
      rw [List.getElem?_set_ne (Ne.symm hj)]; exact hx
    have far : ∀ y ∈ a' ++ j :: b', ¬ Reaches s.mem y i := fun y hy => by
      obtain ⟨u, hu⟩ := List.mem_iff_getElem?.1 hy
      exact hs.below hi ((hs.cells _ _ hc).arr _ rfl _ _ hu)
    have he : (a' ++ j :: b').eraseIdx q = a' ++ b' := by
      subst l2; simp [List.eraseIdx_append_of_length_le]
    refine .inr ⟨{ s with mem := s.mem.set i ⟨.arr (a' ++ b'), p, key⟩ }, a ++ b, ?_, ⟨fun j x hj hx => e1 j x _ hj hx, rfl, rfl⟩, ?_, ?_⟩
    · rw [M.bind_ok (cell_apply hc)]
      simp only [h1, he]
      exact setShape_apply hc _
    · rw [Shows]
      refine ⟨_, a' ++ b', List.getElem?_set_self hi, rfl, ?_⟩
      exact ShowsL.append (g1.apart (fun j x hj hx => e1 j x _ hj hx) fun y hy => far y (by simp [hy]))
        (g3.apart (fun j x hj hx => e1 j x _ hj hx) fun y hy => far y (by simp [hy]))
    · rcases h3 with h3 | h3
      · exact .front (by omega)
      · have := g3.length
        refine .back ?_
        simp only [List.length_append, List.length_cons] at h3
        omega
  · refine .inl ⟨by rw [← hd.length]; exact h2, ?_⟩
    rw [M.bind_ok (cell_apply hc)]
    simp only [h1]; rfl

theorem putItem_writes {s : St} (hs : Inv s) {i j : Nat} {k : Str} {x : Node} {kvs : List (Str × Node)} (h : Holds s i kvs) (hx : Shows s.mem x j)
    (hj : ¬ Reaches s.mem j i) : ∃ s', putItem i k j s = (.ok (), s') ∧ Only i s s' ∧ Holds s' i (dictSet k x kvs) := by
  obtain ⟨⟨sh, p, key⟩, ids, hc, rfl, hd⟩ := h
  have hi := (List.getElem?_eq_some_iff.1 hc).1
  have e1 : ∀ (u : Nat) x, u ≠ i → s.mem[u]? = some x → (s.mem.set i ⟨.obj (dictSet k j ids), p, key⟩)[u]? = some x := fun u x hu hx => by
    rw [List.getElem?_set_ne (Ne.symm hu)]; exact hx
  refine ⟨{ s with mem := s.mem.set i ⟨.obj (dictSet k j ids), p, key⟩ }, ?_, ⟨e1, rfl, rfl⟩, _, _, List.getElem?_set_self hi, rfl,
    ShowsD.set k (hx.apart e1 hj) (hs.kids hc rfl e1 hd)⟩
  unfold putItem
  rw [M.bind_ok (cell_apply hc)]
  exact setShape_apply hc _

theorem putElem_writes {s : St} (hs : Inv s) {i j : Nat} {t : Int} {y : Node} {xs : List Node} (h : Shows s.mem (.arr xs) i) (hy : Shows s.mem y j)
    (hj : ¬ Reaches s.mem j i) : ((t < -xs.length ∨ (xs.length : Int) ≤ t) ∧ putElem i t j s = (.err .indexError, s)) ∨
      ∃ s' ys, putElem i t j s = (.ok (), s') ∧ Only i s s' ∧ Shows s'.mem (.arr ys) i ∧ Replaces t y xs ys := by
  rw [Shows] at h
  obtain ⟨⟨sh, p, key⟩, ids, hc, rfl, hd⟩ := h
  have hi := (List.getElem?_eq_some_iff.1 hc).1
  unfold putElem
  rcases position_spec (xs := ids) (t := t) with ⟨q, h1, h2, h3⟩ | ⟨h1, h2⟩
  · obtain ⟨j0, hj0⟩ : ∃ j, ids[q]? = some j := ⟨_, List.getElem?_eq_getElem h2⟩
    have hlen := hd.length
    obtain ⟨a, x, b, a', b', rfl, rfl, l1, l2, g1, g2, g3⟩ := hd.split hj0
    have e1 : ∀ (j : Nat) x (c : Cell), j ≠ i → s.mem[j]? = some x → (s.mem.set i c)[j]? = some x := fun j x c hj hx => by
      rw [List.getElem?_set_ne (Ne.symm hj)]; exact hx
    have far : ∀ y ∈ a' ++ j0 :: b', ¬ Reaches s.mem y i := fun y hy => by
      obtain ⟨u, hu⟩ := List.mem_iff_getElem?.1 hy
      exact hs.below hi ((hs.cells _ _ hc).arr _ rfl _ _ hu)
    have he : (a' ++ j0 :: b').set q j = a' ++ j :: b' := by
      subst l2; simp
    refine .inr ⟨{ s with mem := s.mem.set i ⟨.arr (a' ++ j :: b'), p, key⟩ }, a ++ y :: b, ?_, ⟨fun j x hj hx => e1 j x _ hj hx, rfl, rfl⟩, ?_, ?_⟩
    · rw [M.bind_ok (cell_apply hc)]
      simp only [h1, he]
      exact setShape_apply hc _
    · rw [Shows]
      refine ⟨_, a' ++ j :: b', List.getElem?_set_self hi, rfl, ?_⟩
      exact ShowsL.join (g1.apart (fun j x hj hx => e1 j x _ hj hx) fun y hy => far y (by simp [hy])) (hy.apart (fun j x hj hx => e1 j x _ hj hx) hj)
        (g3.apart (fun j x hj hx => e1 j x _ hj hx) fun y hy => far y (by simp [hy]))
    · rcases h3 with h3 | h3
      · exact .front (by omega)
      · have := g3.length
        refine .back ?_
        simp only [List.length_append, List.length_cons] at h3
        omega
  · refine .inl ⟨by rw [← hd.length]; exact h2, ?_⟩
    rw [M.bind_ok (cell_apply hc)]
    simp only [h1]; rfl

theorem ShowsL.take {m : Mem} : ∀ {xs : List Node} {ids : List Nat} (n : Nat), ShowsL m xs ids → ShowsL m (xs.take n) (ids.take n)
  | [], ids, n, h => by rw [ShowsL] at h; subst h; simp [ShowsL]
  | x :: xs, ids, 0, _ => by simp [ShowsL]
  | x :: xs, ids, n + 1, h => by
    rw [ShowsL] at h; obtain ⟨i, r, rfl, h1, h2⟩ := h
    rw [List.take_succ_cons, List.take_succ_cons, ShowsL]; exact ⟨i, _, rfl, h1, ShowsL.take n h2⟩

theorem ShowsL.drop {m : Mem} : ∀ {xs : List Node} {ids : List Nat} (n : Nat), ShowsL m xs ids → ShowsL m (xs.drop n) (ids.drop n)
  | [], ids, n, h => by rw [ShowsL] at h; subst h; simp [ShowsL]
  | x :: xs, ids, 0, h => h
  | x :: xs, ids, n + 1, h => by
    rw [ShowsL] at h; obtain ⟨i, r, rfl, h1, h2⟩ := h
    exact ShowsL.drop n h2

theorem cut_slice (xs : List Node) (a b : Option Int) : SliceOf a b xs ((xs.take (bound xs.length xs.length b)).drop (bound xs.length 0 a)) := by
  intro t x
  have ha : ((bound xs.length 0 a : Nat) : Int) = min (sliceEnd xs.length 0 a) xs.length := by
    cases a with
    | none => simp only [bound, sliceEnd]; omega
    | some a => simp only [bound, sliceEnd]; split <;> split <;> omega
  have hb : ((bound xs.length xs.length b : Nat) : Int) = min (sliceEnd xs.length xs.length b) xs.length := by
    cases b with
    | none => simp [bound, sliceEnd]
    | some a => simp only [bound, sliceEnd]; split <;> split <;> omega
  have h0 : 0 ≤ sliceEnd xs.length 0 a := by
    cases a with
    | none => simp [sliceEnd]
    | some a => simp only [sliceEnd]; split <;> omega
  rw [List.getElem?_drop, List.getElem?_take]
  constructor
  · intro h
    split at h
    · have hx := (List.getElem?_eq_some_iff.1 h).1
      exact ⟨_, by omega, by omega, h⟩
    · cases h
  · rintro ⟨u, h1, h2, h3⟩
    have hx := (List.getElem?_eq_some_iff.1 h3).1
    have : bound xs.length 0 a + t = u := by omega
    rw [this, if_pos (by omega)]
    exact h3

end Verif.Obj
