import Verif.Proofs.EmbeddedAgain
/-! # Reading named objects through their identifiers -/

namespace Verif.Obj
open Verif Verif.Spec

variable {E : Env} {bs d : Nat} {tk : List Str}

theorem unanchored_leaf {n : Node} (hn : ∀ kvs, n ≠ .obj kvs) : unanchored n = n := by
  cases n with
  | obj kvs => exact absurd rfl (hn kvs)
  | _ => rw [unanchored]; exact hn

mutual
/-- What loading left, where there is no `$ref`. -/
theorem Done.showsPlain {m : Mem} : ∀ {n : Node} {p : Option Nat} {k : Str} {pre : List Str} {lo hi r : Nat} {L : List (Str × Nat)},
    Done E bs d tk m n p k pre lo hi r L → Without [c!"$ref"] n → r = lo ∧ Shows m (unanchored n) r
  | .obj kvs, p, k, pre, lo, hi, r, L, h, hw => by
    rw [Done] at h; obtain ⟨ids, L1, L2, -, h1, h2, -, h3, -⟩ := h
    rw [Without] at hw
    have hR : c!"$ref" ∉ kvs.map Prod.fst := fun h => withoutD_keys hw _ h (by simp)
    obtain rfl := h3 hR
    rw [if_neg hR] at h2
    rw [unanchored, Shows]
    exact ⟨rfl, _, _, h2, rfl, (h1.showsPlain hw).del _⟩
  | .null, _, _, _, _, _, _, _, h, _ => by rw [done_leaf (by simp)] at h; obtain ⟨rfl, h, -⟩ := h; exact ⟨rfl, by rw [unanchored_leaf (by simp)]; exact h.shows⟩
  | .bool _, _, _, _, _, _, _, _, h, _ => by rw [done_leaf (by simp)] at h; obtain ⟨rfl, h, -⟩ := h; exact ⟨rfl, by rw [unanchored_leaf (by simp)]; exact h.shows⟩
  | .num _, _, _, _, _, _, _, _, h, _ => by rw [done_leaf (by simp)] at h; obtain ⟨rfl, h, -⟩ := h; exact ⟨rfl, by rw [unanchored_leaf (by simp)]; exact h.shows⟩
  | .str _, _, _, _, _, _, _, _, h, _ => by rw [done_leaf (by simp)] at h; obtain ⟨rfl, h, -⟩ := h; exact ⟨rfl, by rw [unanchored_leaf (by simp)]; exact h.shows⟩
  | .arr _, _, _, _, _, _, _, _, h, _ => by rw [done_leaf (by simp)] at h; obtain ⟨rfl, h, -⟩ := h; exact ⟨rfl, by rw [unanchored_leaf (by simp)]; exact h.shows⟩
  | .ref .., _, _, _, _, _, _, _, h, _ => by rw [done_leaf (by simp)] at h; obtain ⟨rfl, h, -⟩ := h; exact ⟨rfl, by rw [unanchored_leaf (by simp)]; exact h.shows⟩
theorem DoneD.showsPlain {m : Mem} : ∀ {xs : List (Str × Node)} {self : Nat} {pre : List Str} {ids : List (Str × Nat)} {lo hi : Nat} {L : List (Str × Nat)},
    DoneD E bs d tk m xs self pre ids lo hi L → WithoutD [c!"$ref"] xs → ShowsD m (unanchoredD xs) ids
  | [], _, _, _, _, _, _, h, _ => by rw [DoneD] at h; rw [unanchoredD, ShowsD]; exact h.1
  | (k, x) :: xs, _, _, _, _, _, _, h, hw => by
    rw [DoneD] at h; obtain ⟨mid, r, rest, L1, L2, rfl, -, h1, h2⟩ := h
    rw [WithoutD] at hw
    rw [unanchoredD, ShowsD]
    exact ⟨r, rest, rfl, (h1.showsPlain hw.2.1).2, h2.showsPlain hw.2.2⟩
end

/-- Going down in the data is going down in the objects that show it. -/
theorem walk_reach {n z : Node} {ptr : List Str} (h : Reach n ptr z) : ∀ {s : St} {i : Nat}, Shows s.mem n i →
    ∃ j, Runs (fun f => walk (ops E f) i ptr) s (.ok j) s ∧ Steps s.mem i ptr j ∧ Shows s.mem z j := by
  induction h with
  | here n => intro s i hs; exact ⟨i, .pure, .here i, hs⟩
  | @member kvs k x z ks hk _ ih =>
    intro s i hs
    rw [Shows] at hs
    obtain ⟨c, ids, hc, hsh, hd⟩ := hs
    rcases hd.get k with ⟨e, -⟩ | ⟨x', i', e1, e2, hx⟩
    · rw [hk] at e; cases e
    · rw [hk] at e1; cases e1
      obtain ⟨j, h1, h2, h3⟩ := ih hx
      refine ⟨j, ?_, .member hc hsh (dictGet_mem e2) h2, h3⟩
      unfold walk
      refine Runs.bind (.next fun f => kind_plain E hc (by rw [hsh]; rfl)) ?_
      simp only [hsh, Shape.kind]
      refine Runs.bind ?_ h1
      unfold item
      refine Runs.bind (.next fun f => members_obj E hc hsh) ?_
      simp only [e2]
      exact .pure
  | @elem xs t x z ks hx small _ ih =>
    intro s i hs
    rw [Shows] at hs
    obtain ⟨c, ids, hc, hsh, hd⟩ := hs
    obtain ⟨i', e2, hx'⟩ : ∃ i', ids[t]? = some i' ∧ Shows s.mem x i' := by
      rcases hd.get t with ⟨e, -⟩ | ⟨x', i', e1, e2, hx'⟩
      · rw [hx] at e; cases e
      · rw [hx] at e1; cases e1; exact ⟨i', e2, hx'⟩
    obtain ⟨j, h1, h2, h3⟩ := ih hx'
    refine ⟨j, ?_, .elem hc hsh e2 h2, h3⟩
    unfold walk
    refine Runs.bind (.next fun f => kind_plain E hc (by rw [hsh]; rfl)) ?_
    simp only [hsh, Shape.kind]
    refine Runs.bind (.const (cell_apply hc)) ?_
    have hi := index_natStr t
    simp only [hsh, index_ascii hi, Bool.not_true, Bool.false_eq_true, if_false, pyInt_index hi small]
    refine Runs.bind (a := i') (.const ?_) h1
    rw [lift_apply, pyIndex_nat, e2]

theorem register_cases (k : Str) : ∀ (K : List (Str × Schema)) (b : Nat) (st : List (Str × Nat)),
    (∃ t x, K[t]? = some (k, x) ∧ dictGet k (register (numbered b K) st) = some (b + t)) ∨
    (k ∉ K.map Prod.fst ∧ dictGet k (register (numbered b K) st) = dictGet k st)
  | [], b, st => .inr ⟨by simp, rfl⟩
  | (k0, x0) :: K, b, st => by
    rw [numbered]
    change (∃ t x, _ ∧ dictGet k (register (numbered (b + 1) K) (dictSet k0 b st)) = _) ∨ (_ ∧ dictGet k (register (numbered (b + 1) K) (dictSet k0 b st)) = _)
    rcases register_cases k K (b + 1) (dictSet k0 b st) with ⟨t, x, h1, h2⟩ | ⟨h1, h2⟩
    · exact .inl ⟨t + 1, x, by simpa using h1, by rw [h2]; congr 1; omega⟩
    · by_cases e : k0 = k
      · subst e
        exact .inl ⟨0, x0, rfl, by rw [h2, dictGet_set]; simp⟩
      · refine .inr ⟨by simp [h1, Ne.symm e], ?_⟩
        rw [h2, dictGet_set, if_neg e]

/-- Every identifier names a schema of its object. -/
structure Names (voc : List Kw) (m : Mem) (all : List (Embed × Nat)) (s : St) : Prop where
  mem : s.mem = m
  has : ∀ z ∈ all, ∃ e y, dictGet z.1.key s.storage = some e ∧ s.docs[e]? = some y ∧ y.value = z.2 ∧ y.anchors = [] ∧ y.vocabulary = voc

theorem All2.at {α β : Type} {R : α → β → Prop} : ∀ {l : List α} {l' : List β}, All2 R l l' → ∀ {t : Nat} {b : β}, l'[t]? = some b → ∃ a ∈ l, R a b := by
  intro l l' h
  induction h with
  | nil => intro t b e; simp at e
  | @cons a b l l' h _ ih =>
    intro t b' e
    cases t with
    | zero => simp only [List.getElem?_cons_zero, Option.some.injEq] at e; subst e; exact ⟨a, by simp, h⟩
    | succ t => obtain ⟨a', h1, h2⟩ := ih (by simpa using e); exact ⟨a', by simp [h1], h2⟩

theorem All2.of {α β : Type} {R : α → β → Prop} {l : List α} {l' : List β} (h : All2 R l l') {a : α} (ha : a ∈ l) : ∃ b ∈ l', R a b := by
  induction h with
  | nil => simp at ha
  | @cons a' b l l' h _ ih =>
    rw [List.mem_cons] at ha
    rcases ha with rfl | ha
    · exact ⟨b, by simp, h⟩
    · obtain ⟨b', h1, h2⟩ := ih ha; exact ⟨b', by simp [h1], h2⟩

theorem named_keeps {ip : Rfc3986.IpRe} {store : List (Str × Nat)} {k : Str} {e : Nat} (h : dictGet k store = some e) (d : Nat) (kvs : List (Str × Node)) :
    dictGet k (named ip store d kvs) = some e := by
  unfold named
  split
  · next k' _ =>
    split
    · exact h
    · next hh =>
      rw [dictGet_set, if_neg]; · exact h
      rintro rfl
      exact hh (dictHas_iff.2 (List.mem_map.2 ⟨_, dictGet_mem h, rfl⟩))
  · exact h

theorem Names.grown {voc : List Kw} {m : Mem} {all part : List (Embed × Nat)} {s : St} (h : Names voc m all s) (inj : ∀ z ∈ all, ∀ z' ∈ all, z.1.key = z'.1.key → z = z')
    (sub : ∀ z ∈ part, z ∈ all) {K : List (Str × Schema)} (hK : All2 (Kin voc) part K) : Names voc m all (grown s K) := by
  refine ⟨h.mem, fun z hz => ?_⟩
  rcases register_cases z.1.key K s.docs.length s.storage with ⟨t, x, h1, h2⟩ | ⟨h1, h2⟩
  · obtain ⟨z', hz', e, v, hv⟩ := hK.at h1
    have := inj _ (sub _ hz') _ hz e
    subst this
    simp only at hv
    subst hv
    refine ⟨_, kid z'.2 voc v, h2, ?_, rfl, rfl, rfl⟩
    change (s.docs ++ K.map Prod.snd)[_]? = _
    rw [List.getElem?_append_right (by omega)]
    simp [h1]
  · obtain ⟨e, y, a1, a2, a3⟩ := h.has z hz
    exact ⟨e, y, h2.trans a1, grown_self a2 K, a3⟩

/-- Loading a named object as a document. -/
theorem load_embedded {voc : List Kw} (hvoc : (voc.filter fun k => !k.isAssertion) = [.ref, .anchor, .id]) {m : Mem} {all : List (Embed × Nat)} {top : Nat} {base : Option Str}
    (inj : ∀ z ∈ all, ∀ z' ∈ all, z.1.key = z'.1.key → z = z') (hb : BaseAt m top base) {s : St} (h : Names voc m all s) {z : Embed × Nat} (hz : z ∈ all)
    (hp : Placed E bs d tk m top base z.1 z.2) (sub : ∀ x ∈ embedsAt E.ip base (.obj z.1.its) z.1.path z.2, x ∈ all) (hw : Without [c!"$ref"] (.obj z.1.its)) :
    ∃ e y s', dictGet z.1.key s.storage = some e ∧ Runs (fun f => (ops E f).load e) s (.ok ()) s' ∧ Names voc m all s' ∧ s'.docs[e]? = some y ∧ y.value = z.2 ∧ y.anchors = [] := by
  obtain ⟨e, y, a1, a2, a3, a4, a5⟩ := h.has z hz
  cases hr : y.ready with
  | true =>
    refine ⟨e, y, s, a1, Runs.shift (g := fun f => loadS (ops E f) e) ?_ (fun f => rfl), h, a2, a3, a4⟩
    unfold loadS
    refine Runs.bind (.const (schema_apply a2)) ?_
    simp only [hr, if_true]
    exact .pure
  | false =>
    obtain ⟨j, k, hi, r, L, hd⟩ := hp.done
    obtain ⟨rfl, -⟩ := hd.showsPlain hw
    obtain ⟨K, k1, k2⟩ := process_again (E := E) hb (.obj z.1.its) h.mem hd (fun _ _ => hp.up) a2 hp.fits hp.plain hw
    rw [a5] at k2
    have hg := h.grown inj sub k2
    have hy := grown_self a2 K
    refine ⟨e, { y with value := z.2, ready := true }, { grown s K with docs := (grown s K).docs.set e { y with value := z.2, ready := true } }, a1,
      Runs.shift (g := fun f => loadS (ops E f) e) ?_ (fun f => rfl), ⟨hg.mem, fun z' hz' => ?_⟩, List.getElem?_set_self (List.getElem?_eq_some_iff.1 hy).1, rfl, a4⟩
    · unfold loadS
      refine Runs.bind (.const (schema_apply a2)) ?_
      simp only [hr, Bool.false_eq_true, if_false, a5, hvoc, a3]
      exact Runs.bind k1 (Runs.bind (.const (schema_apply hy)) (.const (by rw [← a5]; rfl)))
    · obtain ⟨e', y', b1, b2, b3, b4, b5⟩ := hg.has z' hz'
      by_cases he : e = e'
      · subst he
        rw [hy] at b2; cases b2
        exact ⟨e, _, b1, List.getElem?_set_self (List.getElem?_eq_some_iff.1 hy).1, a3.symm.trans b3, b4, b5⟩
      · exact ⟨e', y', b1, (List.getElem?_set_ne he).trans b2, b3, b4, b5⟩

theorem read_again {voc voc' : List Kw} (hvoc : (voc.filter fun k => !k.isAssertion) = [.ref, .anchor, .id]) {m : Mem} {all : List (Embed × Nat)} {top : Nat} {base : Option Str}
    (inj : ∀ z ∈ all, ∀ z' ∈ all, z.1.key = z'.1.key → z = z') (hb : BaseAt m top base) {s : St} (h : Names voc m all s) {z : Embed × Nat} (hz : z ∈ all)
    (hp : Placed E bs d tk m top base z.1 z.2) (sub : ∀ x ∈ embedsAt E.ip base (.obj z.1.its) z.1.path z.2, x ∈ all) (hw : Without [c!"$ref"] (.obj z.1.its))
    {u : Uri} (hu : Store.baseText E.ip u = .ok z.1.key) {ptr : List Str} (hne : ptr ≠ [[]]) {x : Node} (hx : Reach (unanchored (.obj z.1.its)) ptr x) :
    ∃ j s', Runs (fun f => readBy E f voc' u ptr) s (.ok j) s' ∧ Names voc m all s' ∧ Steps m z.2 ptr j ∧ Shows m x j := by
  obtain ⟨e, y, s', a1, a2, a3, a4, a5, a6⟩ := load_embedded hvoc inj hb h hz hp sub hw
  obtain ⟨j0, k, hi, r, L, hd⟩ := hp.done
  obtain ⟨rfl, hs⟩ := hd.showsPlain hw
  have hs' : Shows s'.mem (unanchored (.obj z.1.its)) z.2 := by rw [a3.mem]; exact hs
  obtain ⟨j, b1, b2, b3⟩ := walk_reach (E := E) hx hs'
  rw [a3.mem] at b2 b3
  refine ⟨j, s', ?_, a3, b2, b3⟩
  unfold readBy
  refine Runs.bind (a := e) (s1 := s) (.const ?_) (Runs.shift (g := fun f => queryS (ops E f) e ptr) ?_ (fun f => rfl))
  · unfold storeLoad
    rw [M.bind_ok (show (lift (Store.baseText E.ip u) : M Str) s = (.ok z.1.key, s) by rw [hu]; rfl), M.bind_ok (state_apply s)]
    simp only [a1]; rfl
  · unfold queryS
    refine Runs.bind a2 (Runs.bind (.const (schema_apply a4)) ?_)
    rw [a5, a6]
    split
    · next k =>
      have hk : k ≠ [] := fun e => hne (by rw [e])
      simp only [dictGet, hk, if_false]
      exact b1
    · exact b1

end Verif.Obj
