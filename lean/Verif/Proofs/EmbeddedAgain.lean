import Verif.Proofs.EmbeddedRoot
/-! # Loading a named object as a document of its own -/

namespace Verif.Obj
open Verif Verif.Spec

variable {E : Env} {bs d : Nat} {tk : List Str}

mutual
theorem Done.size {m : Mem} : ∀ {n : Node} {p : Option Nat} {k : Str} {pre : List Str} {lo hi r : Nat} {L : List (Str × Nat)},
    Done E bs d tk m n p k pre lo hi r L → hi = lo + cells n
  | .obj kvs, _, _, _, _, _, _, _, h => by
    rw [Done] at h; obtain ⟨ids, L1, L2, -, h, -⟩ := h; have := DoneD.size h; rw [cells]; omega
  | .null, _, _, _, _, _, _, _, h => by rw [done_leaf (by simp)] at h; exact h.2.1.size
  | .bool _, _, _, _, _, _, _, _, h => by rw [done_leaf (by simp)] at h; exact h.2.1.size
  | .num _, _, _, _, _, _, _, _, h => by rw [done_leaf (by simp)] at h; exact h.2.1.size
  | .str _, _, _, _, _, _, _, _, h => by rw [done_leaf (by simp)] at h; exact h.2.1.size
  | .arr _, _, _, _, _, _, _, _, h => by rw [done_leaf (by simp)] at h; exact h.2.1.size
  | .ref .., _, _, _, _, _, _, _, h => by rw [done_leaf (by simp)] at h; exact h.2.1.size
theorem DoneD.size {m : Mem} : ∀ {xs : List (Str × Node)} {self : Nat} {pre : List Str} {ids : List (Str × Nat)} {lo hi : Nat} {L : List (Str × Nat)},
    DoneD E bs d tk m xs self pre ids lo hi L → hi = lo + cellsD xs
  | [], _, _, _, _, _, _, h => by rw [DoneD] at h; rw [cellsD]; exact h.2.1
  | (k, x) :: xs, _, _, _, _, _, _, h => by
    rw [DoneD] at h; obtain ⟨mid, r, rest, L1, L2, -, -, h1, h2⟩ := h
    have := Done.size h1; have := DoneD.size h2; rw [cellsD]; omega
end

/-- The named object `q` is at `i`, as loading left it. -/
structure Placed (E : Env) (bs d : Nat) (tk : List Str) (m : Mem) (top : Nat) (base : Option Str) (q : Embed) (i : Nat) : Prop where
  done : ∃ j k hi r L, Done E bs d tk m (.obj q.its) (some j) k q.path i hi r L
  up : Up m i q.path top
  fits : NamedDoc E.ip base (.obj q.its) q.path
  plain : Node.RefFree (.obj q.its)
  own : ownKey E.ip base q.its q.path = some q.key
  below : top < i

mutual
theorem Done.embedded {m : Mem} {top : Nat} {base : Option Str} {q : Embed} {i : Nat} : ∀ {n : Node} {j : Nat} {k : Str} {pre : List Str} {lo hi r : Nat} {L : List (Str × Nat)},
    Done E bs d tk m n (some j) k pre lo hi r L → (∀ kvs, n = .obj kvs → Up m lo pre top) → top < lo → NamedDoc E.ip base n pre → n.RefFree → (q, i) ∈ embedsAt E.ip base n pre lo →
    Placed E bs d tk m top base q i ∧ ∀ z ∈ embedsAt E.ip base (.obj q.its) q.path i, z ∈ embedsAt E.ip base n pre lo
  | .obj kvs, j, k, pre, lo, hi, r, L, h, hup, ht, hn, hf, hq => by
    have h0 := h
    have hup := hup kvs rfl
    rw [Done] at h; obtain ⟨ids, L1, L2, -, h1, h2, -⟩ := h
    have hn0 := hn; have hf0 := hf
    rw [NamedDoc] at hn; rw [Node.RefFree] at hf
    rw [embedsAt, List.mem_append] at hq
    rcases hq with hq | hq
    · obtain ⟨a, b⟩ := DoneD.embedded h1 hup (by omega) (by omega) hn.2 hf.2 hq
      exact ⟨a, fun z hz => by rw [embedsAt]; exact List.mem_append_left _ (b z hz)⟩
    · split at hq
      · next key e =>
        rw [List.mem_singleton] at hq; cases hq
        exact ⟨⟨⟨j, k, hi, r, L, h0⟩, hup, hn0, hf0, e, ht⟩, fun z hz => hz⟩
      · simp at hq
  | .null, _, _, _, _, _, _, _, _, _, _, _, _, hq => by simp [embedsAt] at hq
  | .bool _, _, _, _, _, _, _, _, _, _, _, _, _, hq => by simp [embedsAt] at hq
  | .num _, _, _, _, _, _, _, _, _, _, _, _, _, hq => by simp [embedsAt] at hq
  | .str _, _, _, _, _, _, _, _, _, _, _, _, _, hq => by simp [embedsAt] at hq
  | .arr _, _, _, _, _, _, _, _, _, _, _, _, _, hq => by simp [embedsAt] at hq
  | .ref .., _, _, _, _, _, _, _, _, _, _, _, _, hq => by simp [embedsAt] at hq
theorem DoneD.embedded {m : Mem} {top : Nat} {base : Option Str} {q : Embed} {i : Nat} : ∀ {xs : List (Str × Node)} {self : Nat} {pre : List Str} {ids : List (Str × Nat)} {lo hi : Nat} {L : List (Str × Nat)},
    DoneD E bs d tk m xs self pre ids lo hi L → Up m self pre top → top ≤ self → self < lo → NamedDocD E.ip base xs pre → Node.RefFreeD xs → (q, i) ∈ embedsAtD E.ip base xs pre lo →
    Placed E bs d tk m top base q i ∧ ∀ z ∈ embedsAt E.ip base (.obj q.its) q.path i, z ∈ embedsAtD E.ip base xs pre lo
  | [], _, _, _, _, _, _, _, _, _, _, _, _, hq => by simp [embedsAtD] at hq
  | (k, x) :: xs, self, pre, ids, lo, hi, L, h, hup, ht, hs, hn, hf, hq => by
    rw [DoneD] at h; obtain ⟨mid, r, rest, L1, L2, -, -, h1, h2⟩ := h
    rw [NamedDocD] at hn; rw [Node.RefFreeD] at hf
    rw [embedsAtD, List.mem_append] at hq
    have hsz := h1.size
    have hlt := h1.lt
    rcases hq with hq | hq
    · have hupx : ∀ kvs, x = .obj kvs → Up m lo (pre ++ [k]) top := by
        rintro kvs rfl
        rw [Done] at h1
        obtain ⟨ids, _, _, -, -, hc, -⟩ := h1
        exact Up.step hc rfl hs hup
      obtain ⟨a, b⟩ := Done.embedded h1 hupx (by omega) hn.1 hf.1 hq
      exact ⟨a, fun z hz => by rw [embedsAtD]; exact List.mem_append_left _ (b z hz)⟩
    · rw [← hsz] at hq
      obtain ⟨a, b⟩ := DoneD.embedded h2 hup ht (by omega) hn.2 hf.2 hq
      exact ⟨a, fun z hz => by rw [embedsAtD, ← hsz]; exact List.mem_append_right _ (b z hz)⟩
end

/-- New schemas in the state. -/
def grown (s : St) (K : List (Str × Schema)) : St := { s with docs := s.docs ++ K.map Prod.snd, storage := register (numbered s.docs.length K) s.storage }

theorem grown_nil (s : St) : grown s [] = s := by simp [grown, numbered, register]

theorem grown_append (s : St) (K K' : List (Str × Schema)) : grown (grown s K) K' = grown s (K ++ K') := by
  simp only [grown, numbered_append, register_append, List.map_append, List.append_assoc, List.length_append, List.length_map]

theorem grown_self {s : St} {e : Nat} {y : Schema} (h : s.docs[e]? = some y) (K : List (Str × Schema)) : (grown s K).docs[e]? = some y := by
  rw [grown]; exact (List.getElem?_append_left (List.getElem?_eq_some_iff.1 h).1).trans h

theorem again_leaf {e : Nat} {s : St} {n : Node} (hn : ∀ kvs, n ≠ .obj kvs) {p : Option Nat} {k : Str} {pre : List Str} {lo hi r : Nat} {L : List (Str × Nat)}
    (h : Done E bs d tk s.mem n p k pre lo hi r L) {base : Option Str} (voc : List Kw) :
    ∃ K, Runs (fun f => (ops E f).process e [.ref, .anchor, .id] r) s (.ok r) (grown s K) ∧ All2 (Kin voc) (embedsAt E.ip base n pre lo) K := by
  rw [done_leaf hn] at h
  obtain ⟨rfl, ht, -⟩ := h
  have h1 : embedsAt E.ip base n pre r = [] := by
    cases n with
    | obj kvs => exact absurd rfl (hn kvs)
    | _ => rw [embedsAt]; exact hn
  rw [h1]
  refine ⟨[], ?_, .nil⟩
  rw [grown_nil]
  cases n with
  | obj kvs => exact absurd rfl (hn kvs)
  | arr xs => rw [Tree] at ht; obtain ⟨ids, ht, -⟩ := ht; exact process_leaf E _ _ ht rfl (by simp [Shape.kind])
  | ref own d p => rw [Tree] at ht; exact ht.elim
  | _ => rw [Tree] at ht; exact process_leaf E _ _ ht.1 rfl (by simp [Shape.kind])

theorem del_gone {α : Type} {a : Str} : ∀ {ds : List (Str × α)}, (ds.map Prod.fst).Nodup → a ∉ (dictDel a ds).map Prod.fst
  | [], _ => by simp [dictDel]
  | (k, x) :: ds, h => by
    rw [List.map_cons, List.nodup_cons] at h
    rw [dictDel]
    split
    · next e => subst e; exact h.1
    · next e =>
      rw [List.map_cons, List.mem_cons]
      rintro (e' | e')
      · exact e e'.symm
      · exact del_gone h.2 e'

/-- The core keywords on an object that has been loaded. -/
theorem core_again {e : Nat} {y : Schema} {s : St} (hy : s.docs[e]? = some y) {lo top j : Nat} {pre : List Str} {base : Option Str}
    {kvs : List (Str × Node)} {ids : List (Str × Nat)} {k : Str} (hc : s.mem[lo]? = some ⟨.obj (dictDel c!"$anchor" ids), some j, k⟩) (hkeys : ids.map Prod.fst = kvs.map Prod.fst)
    (text : ∀ key a, dictGet key kvs = some (.str a) → ∃ y q p, dictGet key ids = some y ∧ s.mem[y]? = some ⟨.str a, q, p⟩)
    (hup : Up s.mem lo pre top) (hb : BaseAt s.mem top base) (hn : NamedObject E.ip base pre kvs) (hR : c!"$ref" ∉ kvs.map Prod.fst) (hnd : (kvs.map Prod.fst).Nodup) :
    ∃ K, Runs (fun f => applyAll E (ops E f) e [.ref, .anchor, .id] lo) s (.ok lo) (grown s K) ∧
      All2 (Kin y.vocabulary) (match ownKey E.ip base kvs pre with | some k => [(⟨k, pre, kvs⟩, lo)] | none => []) K := by
  have hm := members_runs E hc rfl
  have h1 : (Kw.ref.keys.any fun x => dictHas x (dictDel c!"$anchor" ids)) = false := no_ref (by rw [mem_del (by decide), hkeys]; exact hR)
  have h2 : (Kw.anchor.keys.any fun x => dictHas x (dictDel c!"$anchor" ids)) = false := no_anchor (del_gone (by rw [hkeys]; exact hnd))
  have start : ∀ {z s''}, Runs (fun f => applyAll E (ops E f) e [.id] lo) s z s'' → Runs (fun f => applyAll E (ops E f) e [.ref, .anchor, .id] lo) s z s'' :=
    fun h => applyAll_step E hm h1 (applyAll_step E hm h2 h)
  rcases hn.name with hnl | ⟨-, t, htx, hok⟩
  · rw [ownKey_nameless hnl]
    exact ⟨[], by rw [grown_nil]; exact start (applyAll_step E hm (nameless_left hkeys hnl) (applyAll_nil E)), .nil⟩
  · obtain ⟨hany, z, q, p, hz, hzc⟩ := name_left hkeys text htx
    have hnt : nameText kvs = some t := by simp [nameText, htx]
    unfold NameOk at hok
    by_cases hen : c!"enum" ∈ pre
    · rw [if_pos hen] at hok
      obtain ⟨u, hu, hf⟩ := hok
      have hown : ownKey E.ip base kvs pre = none := by unfold ownKey; rw [if_pos hen]
      rw [hown]
      exact ⟨[], by rw [grown_nil]; exact start (applyAll_apply E hm hany (applyId_enum hc hup hz hzc hen hu hf) (applyAll_nil E)), .nil⟩
    · rw [if_neg hen] at hok
      obtain ⟨key, hkey⟩ := hok
      have hown : ownKey E.ip base kvs pre = some key := by unfold ownKey; rw [if_neg hen, hnt]; exact hkey
      rw [hown]
      obtain ⟨v, hv⟩ := applyId_child (d := e) hc hup hb hy hz hzc hen hkey
      exact ⟨[(key, kid lo y.vocabulary v)], start (applyAll_apply E hm hany hv (applyAll_nil E)), .cons ⟨rfl, v, rfl⟩ .nil⟩

mutual
theorem process_again {base : Option Str} {top e : Nat} {y : Schema} {m : Mem} (hb : BaseAt m top base) : ∀ (n : Node) {j : Nat} {k : Str} {pre : List Str} {lo hi r : Nat} {L : List (Str × Nat)} {s : St},
    s.mem = m → Done E bs d tk m n (some j) k pre lo hi r L → (∀ kvs, n = .obj kvs → Up m lo pre top) → s.docs[e]? = some y → NamedDoc E.ip base n pre → n.RefFree → Without [c!"$ref"] n →
    ∃ K, Runs (fun f => (ops E f).process e [.ref, .anchor, .id] r) s (.ok r) (grown s K) ∧ All2 (Kin y.vocabulary) (embedsAt E.ip base n pre lo) K
  | .obj kvs, j, k, pre, lo, hi, r, L, s, hm, h, hup, hy, hn, hf, hw => by
    subst hm
    have hup := hup kvs rfl
    rw [Done] at h; obtain ⟨ids, L1, L2, -, h1, h2, -, h3, -⟩ := h
    rw [NamedDoc] at hn; rw [Node.RefFree] at hf; rw [Without] at hw
    have hR : c!"$ref" ∉ kvs.map Prod.fst := fun h => withoutD_keys hw _ h (by simp)
    obtain rfl := h3 hR
    rw [if_neg hR] at h2
    obtain ⟨K1, k1, k2⟩ := del_again hb kvs (s := s) rfl h1 hup (by omega) hy
      (fun x hx => by
        obtain ⟨a, ha⟩ := hn.1.core.anchor (List.mem_map.2 ⟨_, dictGet_mem hx, rfl⟩)
        rw [hx] at ha; exact ⟨a, Option.some.inj ha⟩) hn.2 hf.2 hw
    have text : ∀ key a, dictGet key kvs = some (.str a) → ∃ y q p', dictGet key ids = some y ∧ s.mem[y]? = some ⟨.str a, q, p'⟩ := by
      intro key a h
      obtain ⟨i, mid, r, L', g1, g2, g3, g4⟩ := h1.get h
      obtain ⟨g5, rfl⟩ := g4.str
      exact ⟨_, _, _, g1, g5⟩
    obtain ⟨K2, k3, k4⟩ := core_again (E := E) (s := grown s K1) (grown_self hy K1) (lo := r) (top := top) h2 h1.keys text hup hb hn.1 hR hf.1
    refine ⟨K1 ++ K2, ?_, by rw [embedsAt]; exact k2.append k4⟩
    rw [grown_append] at k3
    refine Runs.shift (g := fun f => processS E (ops E f) e _ r) ?_ (fun f => rfl)
    unfold processS
    refine Runs.bind (.next fun f => kind_plain E h2 rfl) ?_
    simp only [Shape.kind, ne_eq, not_true_eq_false, if_false]
    refine Runs.bind (members_runs E h2 rfl) (Runs.bind k1 (Runs.bind (a := ()) (s1 := grown s K1) (.const ?_) k3))
    rw [setMembers_obj (s := grown s K1) h2 rfl]
    have : (grown s K1).mem.set r ⟨.obj (dictDel c!"$anchor" ids), some j, k⟩ = (grown s K1).mem := by
      apply List.ext_getElem?
      intro i
      by_cases e : r = i
      · subst e; exact (List.getElem?_set_self (List.getElem?_eq_some_iff.1 h2).1).trans h2.symm
      · rw [List.getElem?_set_ne e]
    rw [this]
  | .null, _, _, _, _, _, _, _, s, hm, h, _, _, _, _, _ => again_leaf (by simp) (hm ▸ h) _
  | .bool _, _, _, _, _, _, _, _, s, hm, h, _, _, _, _, _ => again_leaf (by simp) (hm ▸ h) _
  | .num _, _, _, _, _, _, _, _, s, hm, h, _, _, _, _, _ => again_leaf (by simp) (hm ▸ h) _
  | .str _, _, _, _, _, _, _, _, s, hm, h, _, _, _, _, _ => again_leaf (by simp) (hm ▸ h) _
  | .arr _, _, _, _, _, _, _, _, s, hm, h, _, _, _, _, _ => again_leaf (by simp) (hm ▸ h) _
  | .ref .., _, _, _, _, _, _, _, s, hm, h, _, _, _, _, _ => again_leaf (by simp) (hm ▸ h) _
theorem kids_again {base : Option Str} {top e : Nat} {y : Schema} {m : Mem} (hb : BaseAt m top base) : ∀ (xs : List (Str × Node)) {self : Nat} {pre : List Str} {ids : List (Str × Nat)} {lo hi : Nat}
    {L : List (Str × Nat)} {s : St}, s.mem = m → DoneD E bs d tk m xs self pre ids lo hi L → Up m self pre top → self < lo → s.docs[e]? = some y →
    NamedDocD E.ip base xs pre → Node.RefFreeD xs → WithoutD [c!"$ref"] xs →
    ∃ K, Runs (fun f => eachD ((ops E f).process e [.ref, .anchor, .id]) ids) s (.ok ids) (grown s K) ∧ All2 (Kin y.vocabulary) (embedsAtD E.ip base xs pre lo) K
  | [], self, pre, ids, lo, hi, L, s, hm, h, _, _, _, _, _, _ => by
    rw [DoneD] at h
    obtain ⟨rfl, -, -⟩ := h
    exact ⟨[], by rw [grown_nil]; exact .pure, by rw [embedsAtD]; exact .nil⟩
  | (k, x) :: xs, self, pre, ids, lo, hi, L, s, hm, h, hup, hs, hy, hn, hf, hw => by
    rw [DoneD] at h; obtain ⟨mid, r, rest, L1, L2, rfl, -, h1, h2⟩ := h
    rw [NamedDocD] at hn; rw [Node.RefFreeD] at hf; rw [WithoutD] at hw
    have hlt := h1.lt
    have hupx : ∀ kvs, x = .obj kvs → Up m lo (pre ++ [k]) top := by
      rintro kvs rfl
      rw [Done] at h1
      obtain ⟨ids, _, _, -, -, hc, -⟩ := h1
      exact Up.step hc rfl hs hup
    obtain ⟨K1, k1, k2⟩ := process_again hb x hm h1 hupx hy hn.1 hf.1 hw.2.1
    obtain ⟨K2, k3, k4⟩ := kids_again hb xs (s := grown s K1) hm h2 hup (by omega) (grown_self hy K1) hn.2 hf.2 hw.2.2
    rw [grown_append] at k3
    refine ⟨K1 ++ K2, ?_, by rw [embedsAtD, ← h1.size]; exact k2.append k4⟩
    unfold eachD
    exact Runs.bind k1 (Runs.bind k3 .pure)
theorem del_again {base : Option Str} {top e : Nat} {y : Schema} {m : Mem} (hb : BaseAt m top base) : ∀ (xs : List (Str × Node)) {self : Nat} {pre : List Str} {ids : List (Str × Nat)} {lo hi : Nat}
    {L : List (Str × Nat)} {s : St}, s.mem = m → DoneD E bs d tk m xs self pre ids lo hi L → Up m self pre top → self < lo → s.docs[e]? = some y →
    (∀ x, dictGet c!"$anchor" xs = some x → ∃ a, x = .str a) →
    NamedDocD E.ip base xs pre → Node.RefFreeD xs → WithoutD [c!"$ref"] xs →
    ∃ K, Runs (fun f => eachD ((ops E f).process e [.ref, .anchor, .id]) (dictDel c!"$anchor" ids)) s (.ok (dictDel c!"$anchor" ids)) (grown s K) ∧
      All2 (Kin y.vocabulary) (embedsAtD E.ip base xs pre lo) K
  | [], self, pre, ids, lo, hi, L, s, hm, h, _, _, _, _, _, _, _ => by
    rw [DoneD] at h
    obtain ⟨rfl, -, -⟩ := h
    exact ⟨[], by rw [grown_nil]; exact .pure, by rw [embedsAtD]; exact .nil⟩
  | (k, x) :: xs, self, pre, ids, lo, hi, L, s, hm, h, hup, hs, hy, ha, hn, hf, hw => by
    rw [DoneD] at h; obtain ⟨mid, r, rest, L1, L2, rfl, -, h1, h2⟩ := h
    rw [NamedDocD] at hn; rw [Node.RefFreeD] at hf; rw [WithoutD] at hw
    have hlt := h1.lt
    by_cases hk : k = c!"$anchor"
    · rw [dictDel, if_pos hk]
      obtain ⟨a, rfl⟩ := ha x (by rw [dictGet, if_pos hk])
      obtain ⟨K2, k3, k4⟩ := kids_again hb xs (s := s) hm h2 hup (by omega) hy hn.2 hf.2 hw.2.2
      exact ⟨K2, k3, by rw [embedsAtD, ← h1.size]; simpa [embedsAt] using k4⟩
    · rw [dictDel, if_neg hk]
      have hupx : ∀ kvs, x = .obj kvs → Up m lo (pre ++ [k]) top := by
        rintro kvs rfl
        rw [Done] at h1
        obtain ⟨ids, _, _, -, -, hc, -⟩ := h1
        exact Up.step hc rfl hs hup
      obtain ⟨K1, k1, k2⟩ := process_again hb x hm h1 hupx hy hn.1 hf.1 hw.2.1
      obtain ⟨K2, k3, k4⟩ := del_again hb xs (s := grown s K1) hm h2 hup (by omega) (grown_self hy K1)
        (fun x hx => ha x (by rw [dictGet, if_neg hk]; exact hx)) hn.2 hf.2 hw.2.2
      rw [grown_append] at k3
      refine ⟨K1 ++ K2, ?_, by rw [embedsAtD, ← h1.size]; exact k2.append k4⟩
      unfold eachD
      exact Runs.bind k1 (Runs.bind k3 .pure)
end

end Verif.Obj
