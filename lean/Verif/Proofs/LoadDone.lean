import Verif.Proofs.LoadStep
/-! # What a successful load leaves behind: the whole document -/

namespace Verif.Obj
open Verif Verif.Spec

variable (E : Env) (base d : Nat) (tk : List Str)

mutual
/-- The memory `m` after a successful load: the object built for the tree `n` in the cells from `lo` to `hi` is at its
place, and is represented by `r`, which is a reference if the object has a member `$ref`; new objects are beyond `base`;
`L` lists the anchors in the order of their registration; `pre` is the path; `tk` are the members of the root. -/
def Done (m : Mem) : Node → Option Nat → Str → List Str → Nat → Nat → Nat → List (Str × Nat) → Prop
  | .obj kvs, p, k, pre, lo, hi, r, L => ∃ ids L1 L2, L = L1 ++ L2 ∧ DoneD m kvs lo pre ids (lo + 1) hi L1 ∧
      m[lo]? = some ⟨.obj (if c!"$ref" ∈ kvs.map Prod.fst then ids else dictDel c!"$anchor" ids), p, k⟩ ∧
      (c!"$ref" ∈ kvs.map Prod.fst → c!"$anchor" ∉ kvs.map Prod.fst ∧ ∃ t e ptr, (∀ a, dictGet c!"$ref" kvs = some (.str a) → t = a) ∧
        RefTarget E d t e ptr ∧ base ≤ r ∧ m[r]? = some ⟨.ref lo e ptr, p, k⟩) ∧
      (c!"$ref" ∉ kvs.map Prod.fst → r = lo) ∧
      (c!"$anchor" ∈ kvs.map Prod.fst → ∃ t, (∀ a, dictGet c!"$anchor" kvs = some (.str a) → t = a) ∧ L2 = [(t, lo)]) ∧
      (c!"$anchor" ∉ kvs.map Prod.fst → L2 = []) ∧
      ((c!"$id" ∈ kvs.map Prod.fst ∨ c!"id" ∈ kvs.map Prod.fst) → p ≠ none → c!"enum" ∈ pre ∨ (c!"$ref" ∉ kvs.map Prod.fst ∧
        ∃ t, IdText E tk t ∧ (∀ a, dictGet (idKey (kvs.map Prod.fst)) kvs = some (.str a) → t = a) ∧
          ∀ xs, dictGet (idKey (kvs.map Prod.fst)) kvs = some (.obj xs) → c!"$ref" ∉ xs.map Prod.fst → ∃ ys, t = nodeStr E.w (.obj ys)))
  | n, p, k, _, lo, hi, r, L => r = lo ∧ Tree m n p k lo hi ∧ L = []
def DoneD (m : Mem) : List (Str × Node) → Nat → List Str → List (Str × Nat) → Nat → Nat → List (Str × Nat) → Prop
  | [], _, _, ids, lo, hi, L => ids = [] ∧ hi = lo ∧ L = []
  | (k, x) :: xs, self, pre, ids, lo, hi, L => ∃ mid r rest L1 L2, ids = (k, r) :: rest ∧ L = L1 ++ L2 ∧
      Done m x (some self) k (pre ++ [k]) lo mid r L1 ∧ DoneD m xs self pre rest mid hi L2
end

variable {E base d tk}

theorem done_leaf {m : Mem} {n : Node} (hn : ∀ kvs, n ≠ .obj kvs) {p : Option Nat} {k : Str} {pre : List Str} {lo hi r : Nat} {L : List (Str × Nat)} :
    Done E base d tk m n p k pre lo hi r L ↔ r = lo ∧ Tree m n p k lo hi ∧ L = [] := by
  cases n <;> first | exact absurd rfl (hn _) | (rw [Done]; simp)

mutual
theorem Done.lt {m : Mem} : ∀ {n : Node} {p : Option Nat} {k : Str} {pre : List Str} {lo hi r : Nat} {L : List (Str × Nat)},
    Done E base d tk m n p k pre lo hi r L → lo < hi
  | .obj kvs, _, _, _, _, _, _, _, h => by
    rw [Done] at h; obtain ⟨ids, L1, L2, -, h, -⟩ := h; have := DoneD.le h; omega
  | .null, _, _, _, _, _, _, _, h => by rw [done_leaf (by simp)] at h; exact h.2.1.lt
  | .bool _, _, _, _, _, _, _, _, h => by rw [done_leaf (by simp)] at h; exact h.2.1.lt
  | .num _, _, _, _, _, _, _, _, h => by rw [done_leaf (by simp)] at h; exact h.2.1.lt
  | .str _, _, _, _, _, _, _, _, h => by rw [done_leaf (by simp)] at h; exact h.2.1.lt
  | .arr _, _, _, _, _, _, _, _, h => by rw [done_leaf (by simp)] at h; exact h.2.1.lt
  | .ref .., _, _, _, _, _, _, _, h => by rw [done_leaf (by simp)] at h; exact h.2.1.lt
theorem DoneD.le {m : Mem} : ∀ {xs : List (Str × Node)} {self : Nat} {pre : List Str} {ids : List (Str × Nat)} {lo hi : Nat} {L : List (Str × Nat)},
    DoneD E base d tk m xs self pre ids lo hi L → lo ≤ hi
  | [], _, _, _, _, _, _, h => by rw [DoneD] at h; omega
  | (k, x) :: xs, _, _, _, _, _, _, h => by
    rw [DoneD] at h; obtain ⟨mid, r, rest, L1, L2, -, -, h1, h2⟩ := h
    have := Done.lt h1; have := DoneD.le h2; omega
end

mutual
theorem Done.keep {m m' : Mem} : ∀ {n : Node} {p : Option Nat} {k : Str} {pre : List Str} {lo hi r : Nat} {L : List (Str × Nat)},
    (∀ j, lo ≤ j → j < hi → m'[j]? = m[j]?) → (∀ j, base ≤ j → j < m.length → m'[j]? = m[j]?) →
    Done E base d tk m n p k pre lo hi r L → Done E base d tk m' n p k pre lo hi r L
  | .obj kvs, _, _, _, lo, hi, _, _, e, e', h => by
    have hl := h.lt
    rw [Done] at h ⊢; obtain ⟨ids, L1, L2, a1, a2, a3, a4, a5⟩ := h
    refine ⟨ids, L1, L2, a1, DoneD.keep (fun j a b => e j (by omega) b) e' a2, by rw [e lo (by omega) (by omega)]; exact a3, ?_, a5⟩
    intro hr
    obtain ⟨b1, t, e1, ptr, b2, b3, b4, b5⟩ := a4 hr
    exact ⟨b1, t, e1, ptr, b2, b3, b4, by rw [e' _ b4 (List.getElem?_eq_some_iff.1 b5).1]; exact b5⟩
  | .null, _, _, _, _, _, _, _, e, _, h => by rw [done_leaf (by simp)] at h ⊢; exact ⟨h.1, h.2.1.keep e, h.2.2⟩
  | .bool _, _, _, _, _, _, _, _, e, _, h => by rw [done_leaf (by simp)] at h ⊢; exact ⟨h.1, h.2.1.keep e, h.2.2⟩
  | .num _, _, _, _, _, _, _, _, e, _, h => by rw [done_leaf (by simp)] at h ⊢; exact ⟨h.1, h.2.1.keep e, h.2.2⟩
  | .str _, _, _, _, _, _, _, _, e, _, h => by rw [done_leaf (by simp)] at h ⊢; exact ⟨h.1, h.2.1.keep e, h.2.2⟩
  | .arr _, _, _, _, _, _, _, _, e, _, h => by rw [done_leaf (by simp)] at h ⊢; exact ⟨h.1, h.2.1.keep e, h.2.2⟩
  | .ref .., _, _, _, _, _, _, _, e, _, h => by rw [done_leaf (by simp)] at h ⊢; exact ⟨h.1, h.2.1.keep e, h.2.2⟩
theorem DoneD.keep {m m' : Mem} : ∀ {xs : List (Str × Node)} {self : Nat} {pre : List Str} {ids : List (Str × Nat)} {lo hi : Nat} {L : List (Str × Nat)},
    (∀ j, lo ≤ j → j < hi → m'[j]? = m[j]?) → (∀ j, base ≤ j → j < m.length → m'[j]? = m[j]?) →
    DoneD E base d tk m xs self pre ids lo hi L → DoneD E base d tk m' xs self pre ids lo hi L
  | [], _, _, _, _, _, _, _, _, h => by rw [DoneD] at h ⊢; exact h
  | (k, x) :: xs, _, _, _, _, _, _, e, e', h => by
    rw [DoneD] at h ⊢; obtain ⟨mid, r, rest, L1, L2, a1, a2, h1, h2⟩ := h
    have := Done.lt h1; have := DoneD.le h2
    exact ⟨mid, r, rest, L1, L2, a1, a2, Done.keep (fun j a b => e j a (by omega)) e' h1, DoneD.keep (fun j a b => e j (by omega) b) e' h2⟩
end

theorem DoneD.keys {m : Mem} : ∀ {xs : List (Str × Node)} {self : Nat} {pre : List Str} {ids : List (Str × Nat)} {lo hi : Nat} {L : List (Str × Nat)},
    DoneD E base d tk m xs self pre ids lo hi L → ids.map Prod.fst = xs.map Prod.fst
  | [], _, _, _, _, _, _, h => by rw [DoneD] at h; rw [h.1]; rfl
  | (k, x) :: xs, _, _, _, _, _, _, h => by
    rw [DoneD] at h; obtain ⟨mid, r, rest, L1, L2, rfl, -, -, h2⟩ := h
    simp [h2.keys]

theorem DoneD.get {m : Mem} {key : Str} {y : Node} : ∀ {xs : List (Str × Node)} {self : Nat} {pre : List Str} {ids : List (Str × Nat)} {lo hi : Nat} {L : List (Str × Nat)},
    DoneD E base d tk m xs self pre ids lo hi L → dictGet key xs = some y → ∃ j mid r L', dictGet key ids = some r ∧ lo ≤ j ∧ mid ≤ hi ∧
      Done E base d tk m y (some self) key (pre ++ [key]) j mid r L'
  | [], _, _, _, _, _, _, _, e => by simp [dictGet] at e
  | (k, x) :: xs, _, _, _, _, _, _, h, e => by
    rw [DoneD] at h; obtain ⟨mid, r, rest, L1, L2, rfl, -, h1, h2⟩ := h
    unfold dictGet at e ⊢
    split at e
    · next hk =>
      cases e; subst hk
      rw [if_pos rfl]
      exact ⟨_, mid, r, L1, rfl, Nat.le_refl _, h2.le, h1⟩
    · next hk =>
      rw [if_neg hk]
      obtain ⟨j, mid', r', L', a, b, c, e⟩ := DoneD.get h2 e
      have := h1.lt
      exact ⟨j, mid', r', L', a, by omega, c, e⟩

/-- A processed text is the object built for it. -/
theorem Done.str {m : Mem} {a : Str} {p : Option Nat} {k : Str} {pre : List Str} {lo hi r : Nat} {L : List (Str × Nat)}
    (h : Done E base d tk m (.str a) p k pre lo hi r L) : m[r]? = some ⟨.str a, p, k⟩ ∧ lo = r := by
  rw [done_leaf (by simp)] at h
  obtain ⟨rfl, h, -⟩ := h
  rw [Tree] at h
  exact ⟨h.1, rfl⟩

theorem TextOf.done {sb : St} {m : Mem} {kvs : List (Str × Node)} {lo hi : Nat} {pre : List Str} {ids : List (Str × Nat)} {L : List (Str × Nat)} {key t : Str}
    (hd : DoneD E base d tk m kvs lo pre ids (lo + 1) hi L) (hsb : ∀ j, lo + 1 ≤ j → j < m.length → sb.mem[j]? = m[j]?) (h : TextOf E sb ids key t) :
    (∀ a, dictGet key kvs = some (.str a) → t = a) ∧
    (∀ xs, dictGet key kvs = some (.obj xs) → c!"$ref" ∉ xs.map Prod.fst → ∃ ys, t = nodeStr E.w (.obj ys)) := by
  constructor
  · intro a ha
    obtain ⟨j, mid, r, L', h1, h2, h3, h4⟩ := hd.get ha
    obtain ⟨h5, rfl⟩ := h4.str
    refine h.str E h1 (c := ⟨.str a, some lo, key⟩) ?_ rfl
    rw [hsb _ h2 (List.getElem?_eq_some_iff.1 h5).1]; exact h5
  · intro xs hxs hnr
    obtain ⟨j, mid, r, L', h1, h2, h3, h4⟩ := hd.get hxs
    rw [Done] at h4
    obtain ⟨ids', L1, L2, -, -, h5, -, h6, -⟩ := h4
    have := h6 hnr
    subst this
    obtain ⟨x, f, n, hx, hn, rfl⟩ := h
    rw [h1] at hx; cases hx
    obtain ⟨ys, rfl⟩ := node_obj E (c := ⟨_, some lo, key⟩) (by rw [hsb _ h2 (List.getElem?_eq_some_iff.1 h5).1]; exact h5) rfl hn
    exact ⟨ys, rfl⟩

/-! ## The traversal -/

/-- The root is still the object with the members `tk`. -/
def RootAt (s : St) (top : Nat) (tk : List Str) : Prop := ∃ ct kt, s.mem[top]? = some ct ∧ ct.shape = .obj kt ∧ kt.map Prod.fst = tk

theorem RootAt.keep {s s' : St} {top : Nat} {tk : List Str} (h : RootAt s top tk) (e : s'.mem[top]? = s.mem[top]?) : RootAt s' top tk := by
  obtain ⟨ct, kt, h1, h2, h3⟩ := h
  exact ⟨ct, kt, e.trans h1, h2, h3⟩

/-- Register the anchors. -/
def register (L old : List (Str × Nat)) : List (Str × Nat) := L.foldl (fun acc p => dictSet p.1 p.2 acc) old

theorem register_append (L1 L2 old : List (Str × Nat)) : register (L1 ++ L2) old = register L2 (register L1 old) := by
  simp [register]

mutual
theorem process_done {top : Nat} : ∀ (n : Node) {p : Option Nat} {k : Str} {pre : List Str} {lo hi f r : Nat} {s s' : St},
    Tree s.mem n p k lo hi → Up s.mem lo pre top → RootAt s top tk → top ≤ lo → hi ≤ base → base ≤ s.mem.length → Fresh d s →
    (ops E f).process d [.ref, .anchor, .id] lo s = (.ok r, s') →
    Frame d lo hi s s' ∧ ∃ L, Done E base d tk s'.mem n p k pre lo hi r L ∧ anch d s' = register L (anch d s)
  | .obj kvs, p, k, pre, lo, hi, f, r, s, s', ht, hup, hroot, htl, hb, hbs, hf, h => by
    have hlt := ht.lt
    rw [Tree] at ht; obtain ⟨ids, h1, h2⟩ := ht
    cases f with
    | zero => cases h
    | succ f =>
      change processS E (ops E f) d _ lo s = _ at h
      unfold processS at h
      peel h t s1 h3
      obtain ⟨rfl, rfl⟩ := kind_inv E h1 rfl h3
      simp only [Shape.kind, ne_eq, not_true_eq_false] at h
      peel h ys s2 h4
      obtain ⟨rfl, rfl⟩ := (Own.obj h1 rfl).members E h4
      peel h ids' s3 h5
      obtain ⟨fr, L1, hd, ha⟩ := processKids_done kvs h2 hup hroot htl (by omega) hb hbs hf h5
      have hle := hd.le
      have h1' : s3.mem[lo]? = some ⟨.obj ys, p, k⟩ := by rw [fr.mem lo (by omega) (by omega)]; exact h1
      rw [M.bind_ok (setMembers_obj h1' rfl)] at h
      have f2 : Frame d lo (lo + 1) s3 { s3 with mem := s3.mem.set lo ⟨.obj ids', p, k⟩ } :=
        frame_shape (c := ⟨.obj ys, p, k⟩) fr.fresh h1' (.obj ids')
      have hl3 : s3.mem.length = ({ s3 with mem := s3.mem.set lo ⟨.obj ids', p, k⟩ } : St).mem.length := by simp
      have hset : ∀ j, j ≠ lo → (s3.mem.set lo ⟨.obj ids', p, k⟩)[j]? = s3.mem[j]? := fun j hj => List.getElem?_set_ne (Ne.symm hj)
      have hself : (s3.mem.set lo ⟨.obj ids', p, k⟩)[lo]? = some ⟨.obj ids', p, k⟩ := by
        rw [List.getElem?_set_self (List.getElem?_eq_some_iff.1 h1').1]
      have hup2 : Up (s3.mem.set lo ⟨.obj ids', p, k⟩) lo pre top := (hup.keep fr.slots).keep f2.slots
      have htop2 : p ≠ none → top ≠ lo ∧ RootAt { s3 with mem := s3.mem.set lo ⟨.obj ids', p, k⟩ } top tk := by
        intro hp
        have hne : top ≠ lo := by
          rintro rfl
          cases hup with
          | top a b => rw [h1] at a; cases a; exact hp b
          | step a b c e =>
            have hle' : ∀ {i ks t}, Up s2.mem i ks t → t ≤ i := by
              intro i ks t hu
              induction hu with
              | top => exact Nat.le_refl _
              | step _ _ _ _ ih => omega
            have := hle' e; omega
        refine ⟨hne, (hroot.keep (s' := s3) (fr.mem top (by have := fr.len; obtain ⟨ct, kt, a, -⟩ := hroot; exact (List.getElem?_eq_some_iff.1 a).1) (by omega))).keep ?_⟩
        exact hset top hne
      have st := applyAll_inv E (s := { s3 with mem := s3.mem.set lo ⟨.obj ids', p, k⟩ }) hself rfl f2.fresh hup2 htop2 h
      have hk := hd.keys
      have fin : Frame d lo hi s2 s' :=
        ((fr.wider (by omega) (Nat.le_refl _)).trans (f2.wider (Nat.le_refl _) (by omega))).trans (st.frame.wider (Nat.le_refl _) (by omega))
      have hfm : ∀ j, j ≠ lo → j < s3.mem.length → s'.mem[j]? = s3.mem[j]? := fun j hj hl => by
        rw [st.frame.mem j (by rw [← hl3]; exact hl) (by omega)]; exact hset j hj
      have hd' : DoneD E base d tk s'.mem kvs lo pre ids' (lo + 1) hi L1 :=
        hd.keep (fun j a b => hfm j (by omega) (by have := fr.len; omega)) (fun j a b => hfm j (by omega) b)
      have hset' : ∀ j, lo + 1 ≤ j → j < s3.mem.length → (s3.mem.set lo ⟨.obj ids', p, k⟩)[j]? = s3.mem[j]? := fun j a _ => hset j (by omega)
      have hanch : anch d { s3 with mem := s3.mem.set lo ⟨.obj ids', p, k⟩ } = register L1 (anch d s2) := ha
      refine ⟨fin, ?_⟩
      have hident : (c!"$id" ∈ kvs.map Prod.fst ∨ c!"id" ∈ kvs.map Prod.fst) → p ≠ none → c!"enum" ∈ pre ∨ (c!"$ref" ∉ kvs.map Prod.fst ∧
          ∃ t, IdText E tk t ∧ (∀ a, dictGet (idKey (kvs.map Prod.fst)) kvs = some (.str a) → t = a) ∧
          ∀ xs, dictGet (idKey (kvs.map Prod.fst)) kvs = some (.obj xs) → c!"$ref" ∉ xs.map Prod.fst → ∃ ys, t = nodeStr E.w (.obj ys)) := by
        intro hi' hp
        rw [← hk] at hi' ⊢
        rcases st.ident hi' hp with h | ⟨h, sb, t, e1, e2, e3⟩
        · exact .inl h
        · refine .inr ⟨h, t, e3, ?_⟩
          exact e2.done hd (fun j a b => (e1 j (by rw [← hl3]; exact b) (by omega)).trans (hset j (by omega)))
      by_cases hR : c!"$ref" ∈ kvs.map Prod.fst
      · obtain ⟨hA, hc', ha', t, e, ptr, ht, htg, hle', hcell⟩ := st.ref (by rw [hk]; exact hR)
        rw [hk] at hA
        refine ⟨L1, ?_, ha'.trans hanch⟩
        rw [Done]
        refine ⟨ids', L1, [], by simp, hd', by rw [if_pos hR]; exact hc', fun _ => ⟨hA, t, e, ptr, ?_, htg, ?_, hcell⟩, fun h => absurd hR h,
          fun h => absurd h hA, fun _ => rfl, hident⟩
        · exact (TextOf.done hd hset' ht).1
        · rw [← hl3] at hle'; have := fr.len; omega
      · obtain ⟨rfl, hc', hA1, hA2⟩ := st.plain (by rw [hk]; exact hR)
        by_cases hA : c!"$anchor" ∈ kvs.map Prod.fst
        · obtain ⟨t, ht, ha'⟩ := hA1 (by rw [hk]; exact hA)
          refine ⟨L1 ++ [(t, r)], ?_, ?_⟩
          · rw [Done]
            exact ⟨ids', L1, [(t, r)], rfl, hd', by rw [if_neg hR]; exact hc', fun h => absurd h hR, fun _ => rfl,
              fun _ => ⟨t, (TextOf.done hd hset' ht).1, rfl⟩, fun h => absurd hA h, hident⟩
          · rw [ha', hanch, register_append]; rfl
        · refine ⟨L1, ?_, (hA2 (by rw [hk]; exact hA)).trans hanch⟩
          rw [Done]
          exact ⟨ids', L1, [], by simp, hd', by rw [if_neg hR]; exact hc', fun h => absurd h hR, fun _ => rfl,
              fun h => absurd h hA, fun _ => rfl, hident⟩
  | .null, _, _, _, _, _, f, _, s, s', ht, _, _, _, _, _, hf, h => processLeaf_done (by simp) ht hf h
  | .bool _, _, _, _, _, _, f, _, s, s', ht, _, _, _, _, _, hf, h => processLeaf_done (by simp) ht hf h
  | .num _, _, _, _, _, _, f, _, s, s', ht, _, _, _, _, _, hf, h => processLeaf_done (by simp) ht hf h
  | .str _, _, _, _, _, _, f, _, s, s', ht, _, _, _, _, _, hf, h => processLeaf_done (by simp) ht hf h
  | .arr _, _, _, _, _, _, f, _, s, s', ht, _, _, _, _, _, hf, h => processLeaf_done (by simp) ht hf h
  | .ref .., _, _, _, _, _, f, _, s, s', ht, _, _, _, _, _, hf, h => processLeaf_done (by simp) ht hf h
theorem processKids_done {top : Nat} : ∀ (xs : List (Str × Node)) {self : Nat} {pre : List Str} {ids ids' : List (Str × Nat)} {lo hi f : Nat} {s s' : St},
    TreeD s.mem xs self ids lo hi → Up s.mem self pre top → RootAt s top tk → top ≤ self → self < lo → hi ≤ base → base ≤ s.mem.length → Fresh d s →
    eachD ((ops E f).process d [.ref, .anchor, .id]) ids s = (.ok ids', s') →
    Frame d lo hi s s' ∧ ∃ L, DoneD E base d tk s'.mem xs self pre ids' lo hi L ∧ anch d s' = register L (anch d s)
  | [], self, pre, ids, ids', lo, hi, f, s, s', ht, _, _, _, _, _, _, hf, h => by
    rw [TreeD] at ht
    obtain ⟨rfl, rfl⟩ := ht
    cases h
    refine ⟨.refl hf, [], ?_, rfl⟩
    rw [DoneD]; exact ⟨rfl, rfl, rfl⟩
  | (k, x) :: xs, self, pre, ids, ids', lo, hi, f, s, s', ht, hup, hroot, htl, hsl, hb, hbs, hf, h => by
    rw [TreeD] at ht; obtain ⟨mid, rest, rfl, h1, h2⟩ := ht
    have hlt := h1.lt; have hle := h2.le
    unfold eachD at h
    peel h r s1 h3
    have hupx : Up s.mem lo (pre ++ [k]) top := by
      obtain ⟨c', a, b, c⟩ := h1.slots
      have := Up.step a b hsl hup
      rwa [c] at this
    obtain ⟨f1, L1, hd1, ha1⟩ := process_done x h1 hupx hroot (by omega) (by omega) hbs hf h3
    have hroot1 : RootAt s1 top tk := by
      refine hroot.keep (f1.mem top ?_ (by omega))
      obtain ⟨ct, kt, a, -⟩ := hroot; exact (List.getElem?_eq_some_iff.1 a).1
    have h2' : TreeD s1.mem xs self rest mid hi := h2.keep fun j a b => f1.mem j (by omega) (by omega)
    peel h ys s2 h4
    have hl1 := f1.len
    obtain ⟨f2, L2, hd2, ha2⟩ := processKids_done xs h2' (hup.keep f1.slots) hroot1 htl (by omega) hb (by omega) f1.fresh h4
    cases h
    refine ⟨(f1.wider (Nat.le_refl _) hle).trans (f2.wider (by omega) (Nat.le_refl _)), L1 ++ L2, ?_, ?_⟩
    · rw [DoneD]
      exact ⟨mid, r, ys, L1, L2, rfl, rfl, hd1.keep (fun j a b => f2.mem j (by omega) (by omega)) (fun j a b => f2.mem j b (by omega)), hd2⟩
    · rw [ha2, ha1, register_append]
theorem processLeaf_done {n : Node} (hn : ∀ kvs, n ≠ .obj kvs) {p : Option Nat} {k : Str} {pre : List Str} {lo hi f r : Nat} {s s' : St}
    (ht : Tree s.mem n p k lo hi) (hf : Fresh d s) (h : (ops E f).process d [.ref, .anchor, .id] lo s = (.ok r, s')) :
    Frame d lo hi s s' ∧ ∃ L, Done E base d tk s'.mem n p k pre lo hi r L ∧ anch d s' = register L (anch d s) := by
  have key : ∃ c, s.mem[lo]? = some c ∧ c.shape.isRef = false ∧ c.shape.kind ≠ .object := by
    cases n <;> rw [Tree] at ht
    case obj => exact absurd rfl (hn _)
    case ref => exact ht.elim
    case arr => obtain ⟨ids, h, -⟩ := ht; exact ⟨_, h, rfl, by simp [Shape.kind]⟩
    all_goals exact ⟨_, ht.1, rfl, by simp [Shape.kind]⟩
  obtain ⟨c, hc, hr, hk⟩ := key
  cases f with
  | zero => cases h
  | succ f =>
    change processS E (ops E f) d _ lo s = _ at h
    unfold processS at h
    peel h t s1 h3
    obtain ⟨rfl, rfl⟩ := kind_inv E hc hr h3
    rw [if_pos hk] at h
    cases h
    refine ⟨.refl hf, [], ?_, rfl⟩
    rw [done_leaf hn]
    exact ⟨rfl, ht, rfl⟩
end

end Verif.Obj
