import Verif.Proofs.LoadDone
import Verif.Proofs.Types
/-! # The loaded document and the data, side by side -/

namespace Verif.Obj
open Verif Verif.Spec

variable {E : Env} {base d : Nat} {tk : List Str}

mutual
theorem Tree.end_eq {m m' : Mem} : ∀ {n : Node} {p p' : Option Nat} {k k' : Str} {lo hi hi' : Nat},
    Tree m n p k lo hi → Tree m' n p' k' lo hi' → hi = hi'
  | .null, _, _, _, _, _, _, _, h, h' => by rw [Tree] at h h'; omega
  | .bool _, _, _, _, _, _, _, _, h, h' => by rw [Tree] at h h'; omega
  | .num _, _, _, _, _, _, _, _, h, h' => by rw [Tree] at h h'; omega
  | .str _, _, _, _, _, _, _, _, h, h' => by rw [Tree] at h h'; omega
  | .arr _, _, _, _, _, _, _, _, h, h' => by
    rw [Tree] at h h'; obtain ⟨_, _, h⟩ := h; obtain ⟨_, _, h'⟩ := h'; exact TreeL.end_eq h h'
  | .obj _, _, _, _, _, _, _, _, h, h' => by
    rw [Tree] at h h'; obtain ⟨_, _, h⟩ := h; obtain ⟨_, _, h'⟩ := h'; exact TreeD.end_eq h h'
  | .ref .., _, _, _, _, _, _, _, h, _ => by rw [Tree] at h; exact h.elim
theorem TreeL.end_eq {m m' : Mem} : ∀ {xs : List Node} {i i' self self' : Nat} {ids ids' : List Nat} {lo hi hi' : Nat},
    TreeL m xs i self ids lo hi → TreeL m' xs i' self' ids' lo hi' → hi = hi'
  | [], _, _, _, _, _, _, _, _, _, h, h' => by rw [TreeL] at h h'; omega
  | x :: xs, _, _, _, _, _, _, _, _, _, h, h' => by
    rw [TreeL] at h h'; obtain ⟨mid, _, _, h1, h2⟩ := h; obtain ⟨mid', _, _, h1', h2'⟩ := h'
    obtain rfl := Tree.end_eq h1 h1'
    exact TreeL.end_eq h2 h2'
theorem TreeD.end_eq {m m' : Mem} : ∀ {xs : List (Str × Node)} {self self' : Nat} {ids ids' : List (Str × Nat)} {lo hi hi' : Nat},
    TreeD m xs self ids lo hi → TreeD m' xs self' ids' lo hi' → hi = hi'
  | [], _, _, _, _, _, _, _, h, h' => by rw [TreeD] at h h'; omega
  | (k, x) :: xs, _, _, _, _, _, _, _, h, h' => by
    rw [TreeD] at h h'; obtain ⟨mid, _, _, h1, h2⟩ := h; obtain ⟨mid', _, _, h1', h2'⟩ := h'
    obtain rfl := Tree.end_eq h1 h1'
    exact TreeD.end_eq h2 h2'
end

mutual
theorem Done.end_eq {m m' : Mem} : ∀ {n : Node} {p p' : Option Nat} {k k' : Str} {pre : List Str} {lo hi hi' r : Nat} {L : List (Str × Nat)},
    Tree m n p k lo hi → Done E base d tk m' n p' k' pre lo hi' r L → hi = hi'
  | .obj kvs, _, _, _, _, _, _, _, _, _, _, h, h' => by
    rw [Tree] at h; rw [Done] at h'
    obtain ⟨_, _, h⟩ := h; obtain ⟨_, _, _, _, h', _⟩ := h'
    exact DoneD.end_eq h h'
  | .null, _, _, _, _, _, _, _, _, _, _, h, h' => by rw [done_leaf (by simp)] at h'; exact h.end_eq h'.2.1
  | .bool _, _, _, _, _, _, _, _, _, _, _, h, h' => by rw [done_leaf (by simp)] at h'; exact h.end_eq h'.2.1
  | .num _, _, _, _, _, _, _, _, _, _, _, h, h' => by rw [done_leaf (by simp)] at h'; exact h.end_eq h'.2.1
  | .str _, _, _, _, _, _, _, _, _, _, _, h, h' => by rw [done_leaf (by simp)] at h'; exact h.end_eq h'.2.1
  | .arr _, _, _, _, _, _, _, _, _, _, _, h, h' => by rw [done_leaf (by simp)] at h'; exact h.end_eq h'.2.1
  | .ref .., _, _, _, _, _, _, _, _, _, _, h, h' => by rw [done_leaf (by simp)] at h'; exact h.end_eq h'.2.1
theorem DoneD.end_eq {m m' : Mem} : ∀ {xs : List (Str × Node)} {self self' : Nat} {pre : List Str} {ids ids' : List (Str × Nat)} {lo hi hi' : Nat} {L : List (Str × Nat)},
    TreeD m xs self ids lo hi → DoneD E base d tk m' xs self' pre ids' lo hi' L → hi = hi'
  | [], _, _, _, _, _, _, _, _, _, h, h' => by rw [TreeD] at h; rw [DoneD] at h'; omega
  | (k, x) :: xs, _, _, _, _, _, _, _, _, _, h, h' => by
    rw [TreeD] at h; rw [DoneD] at h'
    obtain ⟨mid, _, _, h1, h2⟩ := h; obtain ⟨mid', _, _, _, _, _, _, h1', h2'⟩ := h'
    obtain rfl := Done.end_eq h1 h1'
    exact DoneD.end_eq h2 h2'
end

/-- A member, before and after. -/
theorem DoneD.both {m m' : Mem} {key : Str} {y : Node} : ∀ {xs : List (Str × Node)} {self : Nat} {pre : List Str} {ids ids' : List (Str × Nat)} {lo hi : Nat} {L : List (Str × Nat)},
    TreeD m xs self ids lo hi → DoneD E base d tk m' xs self pre ids' lo hi L → (key, y) ∈ xs →
    ∃ j mid r L', (key, j) ∈ ids ∧ (key, r) ∈ ids' ∧ lo ≤ j ∧ mid ≤ hi ∧ Tree m y (some self) key j mid ∧ Done E base d tk m' y (some self) key (pre ++ [key]) j mid r L'
  | [], _, _, _, _, _, _, _, _, _, e => by simp at e
  | (k, x) :: xs, self, _, _, _, lo, hi, _, h, h', e => by
    rw [TreeD] at h; rw [DoneD] at h'
    obtain ⟨mid, rest, rfl, h1, h2⟩ := h; obtain ⟨mid', r', rest', L1, L2, rfl, -, h1', h2'⟩ := h'
    obtain rfl := Done.end_eq h1 h1'
    rcases List.mem_cons.1 e with e | e
    · cases e
      exact ⟨lo, mid, r', L1, by simp, by simp, Nat.le_refl _, h2.le, h1, h1'⟩
    · obtain ⟨j, mid', r, L', a, b, c, c', t, dn⟩ := DoneD.both h2 h2' e
      have := h1.lt
      exact ⟨j, mid', r, L', by simp [a], by simp [b], by omega, c', t, dn⟩

theorem mem_del_pair {α : Type} {a k : Str} {x : α} (h : k ≠ a) {d : List (Str × α)} (hm : (k, x) ∈ d) : (k, x) ∈ dictDel a d := by
  induction d with
  | nil => simp at hm
  | cons p d ih =>
    obtain ⟨k', y⟩ := p
    unfold dictDel
    rcases List.mem_cons.1 hm with hm | hm
    · cases hm
      rw [if_neg h]; simp
    · split
      · exact hm
      · simp [ih hm]

/-- One step down in the loaded document. -/
theorem Done.below {m : Mem} {kvs : List (Str × Node)} {p : Option Nat} {k : Str} {pre : List Str} {lo hi r : Nat} {L : List (Str × Nat)}
    (h : Done E base d tk m (.obj kvs) p k pre lo hi r L) :
    ∃ ids L1, DoneD E base d tk m kvs lo pre ids (lo + 1) hi L1 ∧ L1 <+: L ∧
      ∀ key j l ks, key ≠ c!"$anchor" → (key, j) ∈ ids → Below m j ks l → Below m r (key :: ks) l := by
  rw [Done] at h
  obtain ⟨ids, L1, L2, e, hd, hc, hr, hn, -⟩ := h
  refine ⟨ids, L1, hd, ⟨L2, e.symm⟩, fun key j l ks hkey hj hb => ?_⟩
  by_cases hR : c!"$ref" ∈ kvs.map Prod.fst
  · obtain ⟨-, t, e, ptr, -, -, -, hcell⟩ := hr hR
    rw [if_pos hR] at hc
    exact .own hcell rfl hc rfl hj hb
  · rw [hn hR]
    rw [if_neg hR] at hc
    exact .member hc rfl (mem_del_pair hkey hj) hb

/-- What is at a place, before and after. -/
theorem Done.at {m m' : Mem} {n y : Node} {ks : List Str} (h : At n ks y) : ∀ {p : Option Nat} {k : Str} {pre : List Str} {lo hi r : Nat} {L : List (Str × Nat)},
    Tree m n p k lo hi → Done E base d tk m' n p k pre lo hi r L → ∃ p' k' lo' hi' r' L', Tree m y p' k' lo' hi' ∧
      Done E base d tk m' y p' k' (pre ++ ks) lo' hi' r' L' ∧ Steps m lo ks lo' ∧ (c!"$anchor" ∉ ks → Below m' r ks r') ∧
      (p ≠ none ∨ ks ≠ [] → p' ≠ none) ∧ lo ≤ lo' ∧ hi' ≤ hi := by
  induction h with
  | here n =>
    intro p k pre lo hi r L ht hd
    exact ⟨p, k, lo, hi, r, L, ht, by simpa using hd, .here _, fun _ => .here _, fun h => h.resolve_right fun h => h rfl, Nat.le_refl _, Nat.le_refl _⟩
  | @member kvs key x y ks hm _ ih =>
    intro p k pre lo hi r L ht hd
    obtain ⟨ids', L1, hd, -, hb⟩ := hd.below
    rw [Tree] at ht
    obtain ⟨ids, hc, ht⟩ := ht
    obtain ⟨j, mid, r1, L', h1, h2, h3, h3', h4, h5⟩ := hd.both ht hm
    obtain ⟨p', k', lo', hi', r', L'', e1, e2, e3, e4, e5, e6, e7⟩ := ih h4 h5
    refine ⟨p', k', lo', hi', r', L'', e1, by simpa using e2, .member hc rfl h1 e3, ?_, fun _ => e5 (.inl (by simp)), by omega, by omega⟩
    intro hna
    simp only [List.mem_cons, not_or] at hna
    exact hb _ _ _ _ (fun h => hna.1 h.symm) h2 (e4 hna.2)

/-! ## Anchors -/

theorem Steps.snoc {m : Mem} {i j l : Nat} {ks : List Str} {k : Str} {c : Cell} {kvs : List (Str × Nat)} (h : Steps m i ks j)
    (hc : m[j]? = some c) (hs : c.shape = .obj kvs) (hk : (k, l) ∈ kvs) : Steps m i (ks ++ [k]) l := by
  induction h with
  | here => exact .member hc hs hk (.here _)
  | member a b c' _ ih => exact .member a b c' (ih hc)
  | elem a b c' _ ih => exact .elem a b c' (ih hc)

theorem Below.append {m : Mem} {i j l : Nat} {ks ks' : List Str} (h : Below m i ks j) (h' : Below m j ks' l) : Below m i (ks ++ ks') l := by
  induction h with
  | here => exact h'
  | member a b c _ ih => exact .member a b c (ih h')
  | own a b c e f _ ih => exact .own a b c e f (ih h')

/-- Two lists, item by item. -/
inductive All2 {α β : Type} (R : α → β → Prop) : List α → List β → Prop
  | nil : All2 R [] []
  | cons {a : α} {b : β} {l : List α} {l' : List β} (h : R a b) (h' : All2 R l l') : All2 R (a :: l) (b :: l')

theorem All2.append {α β : Type} {R : α → β → Prop} {a c : List α} {b e : List β} (h : All2 R a b) (h' : All2 R c e) : All2 R (a ++ c) (b ++ e) := by
  induction h with
  | nil => exact h'
  | cons h _ ih => exact .cons h ih

/-- The anchors registered and the anchors in the data. -/
def Named (n0 : Node) (m m' : Mem) (i0 r0 : Nat) (p : Str × Nat) (q : Str × List Str) : Prop :=
  p.1 = q.1 ∧ Steps m i0 q.2 p.2 ∧ Below m' r0 q.2 p.2 ∧ ∃ its c ids, At n0 q.2 (.obj its) ∧ dictGet c!"$anchor" its = some (.str q.1) ∧
    m'[p.2]? = some c ∧ c.shape = .obj ids ∧ ids.map Prod.fst = (its.map Prod.fst).erase c!"$anchor"

theorem At.snoc {n x : Node} {ks : List Str} {k : Str} {kvs : List (Str × Node)} (h : At n ks (.obj kvs)) (hk : (k, x) ∈ kvs) : At n (ks ++ [k]) x := by
  generalize e : Node.obj kvs = y at h
  induction h with
  | here => subst e; exact .member hk (.here _)
  | member a _ ih => exact .member a (ih e)

theorem del_keys {α : Type} (a : Str) (d : List (Str × α)) : (dictDel a d).map Prod.fst = (d.map Prod.fst).erase a := by
  induction d with
  | nil => rfl
  | cons p d ih =>
    obtain ⟨k, x⟩ := p
    unfold dictDel
    rw [List.map_cons, List.erase_cons]
    by_cases h : k = a
    · simp [h]
    · simp [h, ih]

theorem get_of_key {α : Type} {k : Str} {d : List (Str × α)} (h : k ∈ d.map Prod.fst) : ∃ x, dictGet k d = some x ∧ (k, x) ∈ d := by
  induction d with
  | nil => simp at h
  | cons p d ih =>
    obtain ⟨k', y⟩ := p
    unfold dictGet
    by_cases e : k' = k
    · subst e; exact ⟨y, by simp, by simp⟩
    · rw [if_neg e]
      simp only [List.map_cons, List.mem_cons] at h
      obtain ⟨x, a, b⟩ := ih (h.resolve_left fun h => e h.symm)
      exact ⟨x, a, by simp [b]⟩

theorem get_none_key {α : Type} {k : Str} {d : List (Str × α)} (h : k ∉ d.map Prod.fst) : dictGet k d = none := by
  induction d with
  | nil => rfl
  | cons p d ih =>
    obtain ⟨k', y⟩ := p
    simp only [List.map_cons, List.mem_cons, not_or] at h
    unfold dictGet
    rw [if_neg fun e => h.1 e.symm, ih h.2]

mutual
theorem Done.named {n0 : Node} {m m' : Mem} {i0 r0 : Nat} : ∀ {n : Node} {p : Option Nat} {k : Str} {pre : List Str} {lo hi r : Nat} {L : List (Str × Nat)},
    Tree m n p k lo hi → Done E base d tk m' n p k pre lo hi r L → TextAnchors n → At n0 pre n → Steps m i0 pre lo → Below m' r0 pre r →
    All2 (Named n0 m m' i0 r0) L (anchorsUp n pre)
  | .obj kvs, p, k, pre, lo, hi, r, L, ht, hd, ha, hat0, hs, hb => by
    rw [Tree] at ht
    obtain ⟨ids, hc, ht⟩ := ht
    rw [Done] at hd
    obtain ⟨ids', L1, L2, rfl, hd, hc', hr, hn, hA, hA', -⟩ := hd
    rw [anchorsUp]
    have stepB : ∀ key j, key ≠ c!"$anchor" → (key, j) ∈ ids' → Below m' r0 (pre ++ [key]) j := by
      intro key j hkey hj
      refine Below.append hb ?_
      by_cases hR : c!"$ref" ∈ kvs.map Prod.fst
      · obtain ⟨-, t, e, ptr, -, -, -, hcell⟩ := hr hR
        rw [if_pos hR] at hc'
        exact .own hcell rfl hc' rfl hj (.here _)
      · rw [hn hR]
        rw [if_neg hR] at hc'
        exact .member hc' rfl (mem_del_pair hkey hj) (.here _)
    refine All2.append (DoneD.named kvs ht hd (fun ks ys x hat hx => ?_) (fun x hx => ha [] kvs x (.here _) hx) (fun key x hx => At.snoc hat0 hx) (fun key j hj => Steps.snoc hs hc rfl hj) stepB) ?_
    · obtain ⟨k', x', hm, hat⟩ := hat
      exact ha (k' :: ks) ys x (.member hm hat) hx
    · by_cases hA1 : c!"$anchor" ∈ kvs.map Prod.fst
      · obtain ⟨x, hx, hx'⟩ := get_of_key hA1
        obtain ⟨a, rfl⟩ := ha [] kvs x (.here _) hx'
        obtain ⟨t, h1, rfl⟩ := hA hA1
        have hR : c!"$ref" ∉ kvs.map Prod.fst := fun h => (hr h).1 hA1
        have := hn hR; subst this
        rw [hx, h1 a hx]
        rw [if_neg hR] at hc'
        exact .cons ⟨rfl, hs, hb, kvs, _, _, hat0, hx, hc', rfl, by rw [del_keys, hd.keys]⟩ .nil
      · rw [hA' hA1, get_none_key hA1]; exact .nil
  | .null, _, _, _, _, _, _, _, _, hd, _, _, _, _ => by rw [done_leaf (by simp)] at hd; rw [hd.2.2]; simp only [anchorsUp]; exact .nil
  | .bool _, _, _, _, _, _, _, _, _, hd, _, _, _, _ => by rw [done_leaf (by simp)] at hd; rw [hd.2.2]; simp only [anchorsUp]; exact .nil
  | .num _, _, _, _, _, _, _, _, _, hd, _, _, _, _ => by rw [done_leaf (by simp)] at hd; rw [hd.2.2]; simp only [anchorsUp]; exact .nil
  | .str _, _, _, _, _, _, _, _, _, hd, _, _, _, _ => by rw [done_leaf (by simp)] at hd; rw [hd.2.2]; simp only [anchorsUp]; exact .nil
  | .arr _, _, _, _, _, _, _, _, _, hd, _, _, _, _ => by rw [done_leaf (by simp)] at hd; rw [hd.2.2]; simp only [anchorsUp]; exact .nil
  | .ref .., _, _, _, _, _, _, _, _, hd, _, _, _, _ => by rw [done_leaf (by simp)] at hd; rw [hd.2.2]; simp only [anchorsUp]; exact .nil
theorem DoneD.named {n0 : Node} {m m' : Mem} {i0 r0 : Nat} : ∀ (xs : List (Str × Node)) {self : Nat} {pre : List Str} {ids ids' : List (Str × Nat)} {lo hi : Nat} {L : List (Str × Nat)},
    TreeD m xs self ids lo hi → DoneD E base d tk m' xs self pre ids' lo hi L →
    (∀ ks ys x, (∃ k y, (k, y) ∈ xs ∧ At y ks (.obj ys)) → (c!"$anchor", x) ∈ ys → ∃ a, x = .str a) →
    (∀ x, (c!"$anchor", x) ∈ xs → ∃ a, x = .str a) → (∀ key x, (key, x) ∈ xs → At n0 (pre ++ [key]) x) →
    (∀ key j, (key, j) ∈ ids → Steps m i0 (pre ++ [key]) j) → (∀ key j, key ≠ c!"$anchor" → (key, j) ∈ ids' → Below m' r0 (pre ++ [key]) j) →
    All2 (Named n0 m m' i0 r0) L (anchorsUpD xs pre)
  | [], _, _, _, _, _, _, _, _, hd, _, _, _, _, _ => by rw [DoneD] at hd; rw [hd.2.2]; simp only [anchorsUpD]; exact .nil
  | (k, x) :: xs, self, pre, ids, ids', lo, hi, L, ht, hd, ha, ha', hat0, hs, hb => by
    rw [TreeD] at ht; rw [DoneD] at hd
    obtain ⟨mid, rest, rfl, h1, h2⟩ := ht; obtain ⟨mid', r', rest', L1, L2, rfl, rfl, h1', h2'⟩ := hd
    obtain rfl := Done.end_eq h1 h1'
    rw [anchorsUpD]
    refine All2.append ?_ (DoneD.named xs h2 h2' (fun ks ys x' ⟨k', y, hm, hat⟩ => ha ks ys x' ⟨k', y, by simp [hm], hat⟩)
      (fun x hx => ha' x (by simp [hx])) (fun key x hx => hat0 key x (by simp [hx])) (fun key j hj => hs key j (by simp [hj])) (fun key j hk hj => hb key j hk (by simp [hj])))
    by_cases hk : k = c!"$anchor"
    · subst hk
      obtain ⟨a, rfl⟩ := ha' x (by simp)
      rw [done_leaf (by simp)] at h1'
      rw [h1'.2.2]; simp only [anchorsUp]; exact .nil
    · exact Done.named h1 h1' (fun ks ys x' hat => ha ks ys x' ⟨k, x, by simp, hat⟩) (hat0 k x (by simp)) (hs k lo (by simp)) (hb k r' hk (by simp))
end

theorem lastOf_append {α : Type} (a : Str) (L L' : List (Str × α)) : lastOf a (L ++ L') = (lastOf a L').or (lastOf a L) := by
  unfold lastOf
  rw [List.filter_append, List.getLast?_append]
  cases (L'.filter fun p => p.1 = a).getLast? <;> simp

theorem register_get (a : Str) (L old : List (Str × Nat)) : dictGet a (register L old) = (lastOf a L).or (dictGet a old) := by
  induction L generalizing old with
  | nil => simp [register, lastOf]
  | cons p L ih =>
    have e : lastOf a (p :: L) = (lastOf a L).or (lastOf a [p]) := lastOf_append a [p] L
    change dictGet a (register L (dictSet p.1 p.2 old)) = _
    rw [ih, e, dictGet_set]
    by_cases h : p.1 = a <;> cases lastOf a L <;> simp [lastOf, h]

theorem All2.last {α β : Type} {R : Str × α → Str × β → Prop} (hR : ∀ p q, R p q → p.1 = q.1) {L : List (Str × α)} {L' : List (Str × β)} (h : All2 R L L') (a : Str) :
    (lastOf a L = none ∧ lastOf a L' = none) ∨ ∃ x y, lastOf a L = some x ∧ lastOf a L' = some y ∧ R (a, x) (a, y) := by
  induction h with
  | nil => simp [lastOf]
  | @cons p q l l' h1 h2 ih =>
    have e : ∀ {γ : Type} (p : Str × γ) L, lastOf a (p :: L) = (lastOf a L).or (lastOf a [p]) := fun p L => lastOf_append a [p] L
    rw [e p, e q]
    rcases ih with ⟨e1, e2⟩ | ⟨x, y, e1, e2, e3⟩
    · rw [e1, e2]
      have := hR _ _ h1
      by_cases hp : p.1 = a
      · right
        refine ⟨p.2, q.2, by simp [lastOf, hp], by simp [lastOf, ← this, hp], ?_⟩
        have hq : q.1 = a := this ▸ hp
        subst hp
        rw [show (p.1, q.2) = q by rw [this]]
        exact h1
      · left
        simp [lastOf, ← this, hp]
    · rw [e1, e2]
      exact .inr ⟨x, y, by simp, by simp, e3⟩

/-- After loading a document made from a dictionary. -/
theorem load_done {E : Env} {s s1 s2 : St} {v : Val} {kvs : List (Str × Val)} (hv : v = .dict kvs) {voc : List Kw}
    (hvoc : (voc.filter fun k => !k.isAssertion) = [.ref, .anchor, .id])
    (hst : ∀ (t : Str) (e : Nat), dictGet t s.storage = some e → ∃ x, s.docs[e]? = some x ∧ x.ready = false)
    {d f : Nat} (h1 : newDocument v voc s = (.ok d, s1)) (h2 : (ops E f).load d s1 = (.ok (), s2)) :
    ∃ hi r L x, Tree s1.mem (wrap v) none [] s.mem.length hi ∧ s1.docs[d]? = some ⟨s.mem.length, false, voc, [], none⟩ ∧
      s2.docs[d]? = some x ∧ x.value = r ∧ x.ready = true ∧ x.anchors = register L [] ∧ SameSlots s1.mem s2.mem ∧
      Done E hi d (kvs.map Prod.fst) s2.mem (wrap v) none [] [] s.mem.length hi r L := by
  obtain ⟨ext, ht, e⟩ := newDocument_spec (.inr ⟨kvs, hv⟩) voc s
  rw [e] at h1
  cases h1
  generalize hs1 : ({ s with mem := s.mem ++ ext, docs := s.docs ++ [⟨s.mem.length, false, voc, [], none⟩] } : St) = s1 at h2 ⊢
  have hm : s1.mem = s.mem ++ ext := by rw [← hs1]
  have hd : s1.docs[s.docs.length]? = some ⟨s.mem.length, false, voc, [], none⟩ := by rw [← hs1]; simp
  have hf : Fresh s.docs.length s1 := by
    refine ⟨⟨_, hd, rfl⟩, fun t e he => ?_⟩
    rw [← hs1] at he ⊢
    obtain ⟨x, hx, hr⟩ := hst t e he
    exact ⟨x, docs_append hx, hr⟩
  rw [← hm] at ht
  obtain ⟨c, hc, hpar, hkey⟩ := ht.slots
  have hroot : RootAt s1 s.mem.length (kvs.map Prod.fst) := by
    have ht' := ht
    rw [hv, wrap, Tree] at ht'
    obtain ⟨ids, h1, h2⟩ := ht'
    refine ⟨_, ids, h1, rfl, ?_⟩
    rw [h2.keys, wrapDict_eq_map, List.map_map]; rfl
  cases f with
  | zero => cases h2
  | succ f =>
    change loadS (ops E f) _ s1 = _ at h2
    unfold loadS at h2
    rw [M.bind_ok (schema_apply hd)] at h2
    simp only [Bool.false_eq_true, if_false, hvoc] at h2
    peel h2 r s3 h3
    have hlen : s1.mem.length = s.mem.length + ext.length := by rw [hm]; simp
    obtain ⟨fr, L, hdone, ha⟩ := process_done (base := s.mem.length + ext.length) (wrap v) ht (Up.top hc hpar) hroot (Nat.le_refl _) (Nat.le_refl _) (by omega) hf h3
    obtain ⟨y, hy, -⟩ := fr.docs _ _ hd
    rw [M.bind_ok (schema_apply hy)] at h2
    cases h2
    refine ⟨_, r, L, { y with value := r, ready := true }, ht, hd, ?_, rfl, rfl, ?_, fr.slots, hdone⟩
    · exact List.getElem?_set_self (List.getElem?_eq_some_iff.1 hy).1
    · have e1 : anch s.docs.length s3 = y.anchors := by unfold anch; rw [hy]
      have e2 : anch s.docs.length s1 = [] := by unfold anch; rw [hd]
      rw [← e1, ha, e2]

end Verif.Obj
