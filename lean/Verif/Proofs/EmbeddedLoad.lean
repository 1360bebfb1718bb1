import Verif.Proofs.Embedded
/-! # Loading a document with named objects inside: the traversal -/

namespace Verif.Obj
open Verif Verif.Spec

mutual
/-- How many objects the data takes. -/
def cells : Node → Nat
  | .obj kvs => cellsD kvs + 1
  | .arr xs => cellsL xs + 1
  | _ => 1
def cellsL : List Node → Nat
  | [] => 0
  | x :: xs => cells x + cellsL xs
def cellsD : List (Str × Node) → Nat
  | [] => 0
  | (_, x) :: xs => cells x + cellsD xs
end

mutual
theorem Tree.size {m : Mem} : ∀ {n : Node} {p : Option Nat} {k : Str} {lo hi : Nat}, Tree m n p k lo hi → hi = lo + cells n
  | .null, _, _, _, _, h => by rw [Tree] at h; simp only [cells]; exact h.2
  | .bool _, _, _, _, _, h => by rw [Tree] at h; simp only [cells]; exact h.2
  | .num _, _, _, _, _, h => by rw [Tree] at h; simp only [cells]; exact h.2
  | .str _, _, _, _, _, h => by rw [Tree] at h; simp only [cells]; exact h.2
  | .arr _, _, _, _, _, h => by rw [Tree] at h; obtain ⟨_, _, h⟩ := h; rw [cells]; have := TreeL.size h; omega
  | .obj _, _, _, _, _, h => by rw [Tree] at h; obtain ⟨_, _, h⟩ := h; rw [cells]; have := TreeD.size h; omega
  | .ref .., _, _, _, _, h => by rw [Tree] at h; exact h.elim
theorem TreeL.size {m : Mem} : ∀ {xs : List Node} {i self : Nat} {ids : List Nat} {lo hi : Nat}, TreeL m xs i self ids lo hi → hi = lo + cellsL xs
  | [], _, _, _, _, _, h => by rw [TreeL] at h; rw [cellsL]; exact h.2
  | x :: xs, _, _, _, _, _, h => by
    rw [TreeL] at h; obtain ⟨mid, rest, _, h1, h2⟩ := h
    have := Tree.size h1; have := TreeL.size h2; rw [cellsL]; omega
theorem TreeD.size {m : Mem} : ∀ {xs : List (Str × Node)} {self : Nat} {ids : List (Str × Nat)} {lo hi : Nat}, TreeD m xs self ids lo hi → hi = lo + cellsD xs
  | [], _, _, _, _, h => by rw [TreeD] at h; rw [cellsD]; exact h.2
  | (k, x) :: xs, _, _, _, _, h => by
    rw [TreeD] at h; obtain ⟨mid, rest, _, h1, h2⟩ := h
    have := Tree.size h1; have := TreeD.size h2; rw [cellsD]; omega
end

mutual
/-- The named objects, with the place of each in the memory, when the data begins at `lo`. -/
def embedsAt (ip : Rfc3986.IpRe) (base : Option Str) : Node → List Str → Nat → List (Embed × Nat)
  | .obj kvs, pre, lo => embedsAtD ip base kvs pre (lo + 1) ++ (match ownKey ip base kvs pre with | some k => [(⟨k, pre, kvs⟩, lo)] | none => [])
  | _, _, _ => []
def embedsAtD (ip : Rfc3986.IpRe) (base : Option Str) : List (Str × Node) → List Str → Nat → List (Embed × Nat)
  | [], _, _ => []
  | (k, x) :: r, pre, lo => embedsAt ip base x (pre ++ [k]) lo ++ embedsAtD ip base r pre (lo + cells x)
end

mutual
theorem embedsAt_fst (ip : Rfc3986.IpRe) (base : Option Str) : ∀ (n : Node) (pre : List Str) (lo : Nat), (embedsAt ip base n pre lo).map Prod.fst = embeds ip base n pre
  | .obj kvs, pre, lo => by
    rw [embedsAt, embeds, List.map_append, embedsAtD_fst ip base kvs]
    cases ownKey ip base kvs pre <;> rfl
  | .null, _, _ => by simp [embedsAt, embeds]
  | .bool _, _, _ => by simp [embedsAt, embeds]
  | .num _, _, _ => by simp [embedsAt, embeds]
  | .str _, _, _ => by simp [embedsAt, embeds]
  | .arr _, _, _ => by simp [embedsAt, embeds]
  | .ref .., _, _ => by simp [embedsAt, embeds]
theorem embedsAtD_fst (ip : Rfc3986.IpRe) (base : Option Str) : ∀ (xs : List (Str × Node)) (pre : List Str) (lo : Nat),
    (embedsAtD ip base xs pre lo).map Prod.fst = embedsD ip base xs pre
  | [], _, _ => by simp [embedsAtD, embedsD]
  | (k, x) :: xs, pre, lo => by rw [embedsAtD, embedsD, List.map_append, embedsAt_fst ip base x, embedsAtD_fst ip base xs]
end

/-- The schemas with the numbers they get. -/
def numbered : Nat → List (Str × Schema) → List (Str × Nat)
  | _, [] => []
  | b, (k, _) :: r => (k, b) :: numbered (b + 1) r

theorem numbered_append (K K' : List (Str × Schema)) : ∀ b, numbered b (K ++ K') = numbered b K ++ numbered (b + K.length) K' := by
  induction K with
  | nil => intro b; simp [numbered]
  | cons p K ih =>
    intro b
    obtain ⟨k, x⟩ := p
    simp only [List.cons_append, numbered, ih, List.length_cons]
    rw [show b + 1 + K.length = b + (K.length + 1) by omega]

/-- The schemas made for named objects. -/
def Kin (voc : List Kw) (q : Embed × Nat) (p : Str × Schema) : Prop := q.1.key = p.1 ∧ ∃ v, p.2 = kid q.2 voc v

/-- From `s`, where the schema being loaded is `x`, to `s'`: the schemas `K` are new and under their identifiers; texts stay. -/
structure Adds (A B : List Schema) (x : Schema) (K : List (Str × Schema)) (s s' : St) : Prop where
  docs : ∃ x', s'.docs = A ++ x' :: (B ++ K.map Prod.snd) ∧ x'.ready = false ∧ x'.vocabulary = x.vocabulary
  storage : s'.storage = register (numbered (A.length + 1 + B.length) K) s.storage
  texts : ∀ (j : Nat) (c : Cell) (t : Str), s.mem[j]? = some c → c.shape = .str t → s'.mem[j]? = some c

theorem Adds.trans {A B : List Schema} {x x1 : Schema} {K K' : List (Str × Schema)} {s s1 s2 : St} (h : Adds A B x K s s1)
    (hx : s1.docs = A ++ x1 :: (B ++ K.map Prod.snd)) (h' : Adds A (B ++ K.map Prod.snd) x1 K' s1 s2) : Adds A B x (K ++ K') s s2 := by
  obtain ⟨x', a1, a2, a3⟩ := h.docs
  obtain ⟨x'', b1, b2, b3⟩ := h'.docs
  rw [hx] at a1
  have a4 := List.append_cancel_left a1
  cases a4
  refine ⟨⟨x'', by rw [b1]; simp, b2, b3.trans a3⟩, ?_, fun j c t hc ht => h'.texts j c t (h.texts j c t hc ht) ht⟩
  rw [h'.storage, h.storage, numbered_append, register_append]
  simp [Nat.add_assoc]

variable {E : Env}

theorem ownKey_nameless {ip : Rfc3986.IpRe} {base : Option Str} {kvs : List (Str × Node)} {pre : List Str} (h : Nameless kvs) : ownKey ip base kvs pre = none := by
  have h0 : dictGet (nameKey kvs) kvs = none := by
    refine dictGet_none ?_
    unfold nameKey; split
    · exact h.1
    · exact h.2
  unfold ownKey; split
  · rfl
  · simp [nameText, h0]

/-- The core keywords on an object with `$ref`. -/
theorem core_reference {A B : List Schema} {x : Schema} {s : St} (hd : s.docs = A ++ x :: B) (hr : x.ready = false) {lo : Nat}
    {kvs : List (Str × Node)} {ids : List (Str × Nat)} {par : Option Nat} {k : Str} (hc : s.mem[lo]? = some ⟨.obj ids, par, k⟩) (hkeys : ids.map Prod.fst = kvs.map Prod.fst)
    (text : ∀ key a, dictGet key kvs = some (.str a) → ∃ y q p, dictGet key ids = some y ∧ s.mem[y]? = some ⟨.str a, q, p⟩)
    (hco : CoreObject (LocalRef E.ip) kvs) (hnl : Nameless kvs) (hR : c!"$ref" ∈ kvs.map Prod.fst) :
    ∃ r s', Runs (fun f => applyAll E (ops E f) A.length [.ref, .anchor, .id] lo) s (.ok r) s' ∧ Adds A B x [] s s' := by
  have hll := (List.getElem?_eq_some_iff.1 hc).1
  have hself : s.docs[A.length]? = some x := by rw [hd]; simp
  have hm := members_runs E hc rfl
  obtain ⟨hA, t, ht, u, b, ptr, hu, hp, hbu, hbt⟩ := hco.ref hR
  obtain ⟨y, q, p, hy, hyc⟩ := text _ _ ht
  have h1 : Runs (fun f => applyCore E (ops E f) A.length lo .ref) s (.ok s.mem.length) { s with mem := s.mem ++ [⟨.ref lo A.length ptr, par, k⟩] } := by
    change Runs (fun f => applyRef E (ops E f) A.length lo) _ _ _
    unfold applyRef
    refine Runs.bind (itemText_runs E hm hy hyc) ?_
    refine Runs.bind (a := u) (s1 := s) (.const (by rw [hu]; rfl)) ?_
    refine Runs.bind (a := ptr) (s1 := s) (.const (by rw [hp]; rfl)) ?_
    refine Runs.bind (a := b) (s1 := s) (.const (by rw [hbu]; rfl)) ?_
    refine Runs.bind (.const (cell_apply hc)) ?_
    simp only [hbt, Bool.not_false, if_true]
    exact .const rfl
  have hc' : (s.mem ++ [⟨.ref lo A.length ptr, par, k⟩])[lo]? = some ⟨.obj ids, par, k⟩ := by rw [List.getElem?_append_left hll]; exact hc
  have hm' : Runs (fun f => (ops E f).members s.mem.length) { s with mem := s.mem ++ [⟨.ref lo A.length ptr, par, k⟩] } (.ok ids)
      { s with mem := s.mem ++ [⟨.ref lo A.length ptr, par, k⟩] } :=
    membersRef_runs E (c := ⟨.ref lo A.length ptr, par, k⟩) (by simp) rfl hself hr (members_runs E hc' rfl)
  rw [← hkeys] at hR hA
  refine ⟨_, _, applyAll_apply E hm ((any_ref ids).2 hR) h1 (applyAll_step E hm' (no_anchor hA) (applyAll_step E hm' (no_id (by rw [hkeys]; exact hnl)) (applyAll_nil E))),
    ⟨⟨x, by simp [hd], hr, rfl⟩, rfl, fun j c t hc _ => ?_⟩⟩
  change (s.mem ++ _)[j]? = _
  rw [List.getElem?_append_left (List.getElem?_eq_some_iff.1 hc).1]; exact hc

/-- The first two core keywords on an object without `$ref`. -/
theorem core_anchor {A B : List Schema} {x : Schema} {s : St} (hd : s.docs = A ++ x :: B) (hr : x.ready = false) {lo : Nat}
    {kvs : List (Str × Node)} {ids : List (Str × Nat)} {par : Option Nat} {k : Str} (hc : s.mem[lo]? = some ⟨.obj ids, par, k⟩) (hkeys : ids.map Prod.fst = kvs.map Prod.fst)
    (text : ∀ key a, dictGet key kvs = some (.str a) → ∃ y q p, dictGet key ids = some y ∧ s.mem[y]? = some ⟨.str a, q, p⟩)
    {P : Str → Prop} (hco : CoreObject P kvs) (hR : c!"$ref" ∉ kvs.map Prod.fst) :
    ∃ (s4 : St) (x4 : Schema), (∀ y s'', Runs (fun f => applyAll E (ops E f) A.length [.id] lo) s4 y s'' →
      Runs (fun f => applyAll E (ops E f) A.length [.ref, .anchor, .id] lo) s y s'') ∧ s4.mem = s.mem.set lo ⟨.obj (dictDel c!"$anchor" ids), par, k⟩ ∧
      s4.docs = A ++ x4 :: B ∧ x4.ready = false ∧ x4.vocabulary = x.vocabulary ∧ s4.storage = s.storage := by
  have hll := (List.getElem?_eq_some_iff.1 hc).1
  have hself : s.docs[A.length]? = some x := by rw [hd]; simp
  have hm := members_runs E hc rfl
  rw [← hkeys] at hR
  by_cases hA : c!"$anchor" ∈ kvs.map Prod.fst
  · obtain ⟨a, ha⟩ := hco.anchor hA
    obtain ⟨y, q, p, hy, hyc⟩ := text _ _ ha
    rw [← hkeys] at hA
    have h1 : Runs (fun f => applyCore E (ops E f) A.length lo .anchor) s (.ok lo)
        { s with mem := s.mem.set lo ⟨.obj (dictDel c!"$anchor" ids), par, k⟩, docs := s.docs.set A.length { x with anchors := dictSet a lo x.anchors } } := by
      change Runs (fun f => applyAnchor E (ops E f) A.length lo) _ _ _
      unfold applyAnchor
      refine Runs.bind (itemText_runs E hm hy hyc) ?_
      refine Runs.bind (.const (schema_apply hself)) ?_
      refine Runs.bind (a := ()) (s1 := { s with docs := s.docs.set A.length { x with anchors := dictSet a lo x.anchors } }) (.const rfl) ?_
      refine Runs.bind (.const (cell_apply (s := { s with docs := s.docs.set A.length { x with anchors := dictSet a lo x.anchors } }) hc)) ?_
      simp only [dictHas_iff.2 hA, if_true]
      exact Runs.bind (.const (setShape_apply (s := { s with docs := s.docs.set A.length { x with anchors := dictSet a lo x.anchors } }) hc _)) .pure
    refine ⟨_, { x with anchors := dictSet a lo x.anchors }, fun z s'' h => applyAll_step E hm (no_ref hR) (applyAll_apply E hm ((any_anchor ids).2 hA) h1 h),
      rfl, ?_, hr, rfl, rfl⟩
    change s.docs.set A.length _ = _
    rw [hd]; simp
  · rw [← hkeys] at hA
    refine ⟨s, x, fun z s'' h => applyAll_step E hm (no_ref hR) (applyAll_step E hm (no_anchor hA) h), ?_, hd, hr, rfl, rfl⟩
    rw [del_absent hA]
    apply List.ext_getElem?
    intro i
    by_cases e : lo = i
    · subst e; rw [List.getElem?_set_self hll]; exact hc
    · rw [List.getElem?_set_ne e]

/-- The name among the members that are left. -/
theorem name_left {s : St} {kvs : List (Str × Node)} {ids : List (Str × Nat)} (hkeys : ids.map Prod.fst = kvs.map Prod.fst)
    (text : ∀ key a, dictGet key kvs = some (.str a) → ∃ y q p, dictGet key ids = some y ∧ s.mem[y]? = some ⟨.str a, q, p⟩)
    {t : Str} (htx : dictGet (nameKey kvs) kvs = some (.str t)) :
    (Kw.id.keys.any fun x => dictHas x (dictDel c!"$anchor" ids)) = true ∧
    ∃ y q p, dictGet (nameKey (dictDel c!"$anchor" ids)) (dictDel c!"$anchor" ids) = some y ∧ s.mem[y]? = some ⟨.str t, q, p⟩ := by
  have hk4 : ∀ key, key ≠ c!"$anchor" → (key ∈ (dictDel c!"$anchor" ids).map Prod.fst ↔ key ∈ kvs.map Prod.fst) := by
    intro key hne; rw [mem_del hne, hkeys]
  obtain ⟨y, q, p, hy, hyc⟩ := text _ _ htx
  have hnk : nameKey (dictDel c!"$anchor" ids) = nameKey kvs := by
    have : dictHas c!"$id" (dictDel c!"$anchor" ids) = dictHas c!"$id" kvs := by rw [Bool.eq_iff_iff, dictHas_iff, dictHas_iff, hk4 _ (by decide)]
    unfold nameKey; rw [this]
  have hnk' : nameKey kvs ≠ c!"$anchor" := by unfold nameKey; split <;> decide
  refine ⟨?_, y, q, p, by rw [hnk, get_del hnk']; exact hy, hyc⟩
  rw [any_id]
  have hmem : nameKey kvs ∈ kvs.map Prod.fst := List.mem_map.2 ⟨_, dictGet_mem htx, rfl⟩
  unfold nameKey at hmem
  split at hmem
  · exact .inl ((hk4 _ (by decide)).2 hmem)
  · exact .inr ((hk4 _ (by decide)).2 hmem)

theorem nameless_left {kvs : List (Str × Node)} {ids : List (Str × Nat)} (hkeys : ids.map Prod.fst = kvs.map Prod.fst) (h : Nameless kvs) :
    (Kw.id.keys.any fun x => dictHas x (dictDel c!"$anchor" ids)) = false := by
  refine no_id ?_
  rw [mem_del (by decide), mem_del (by decide), hkeys]; exact h

theorem set_texts {m : Mem} {lo : Nat} {ids : List (Str × Nat)} {par : Option Nat} {k : Str} (hc : m[lo]? = some ⟨.obj ids, par, k⟩) (c0 : Cell) :
    ∀ (i : Nat) (c : Cell) (t : Str), m[i]? = some c → c.shape = .str t → (m.set lo c0)[i]? = some c := by
  intro i c t hi ht
  rw [List.getElem?_set_ne]; · exact hi
  rintro rfl
  rw [hc] at hi; cases hi; cases ht

/-- The core keywords on an object inside a document. -/
theorem core_named {A B : List Schema} {x : Schema} {s : St} (hd : s.docs = A ++ x :: B) (hr : x.ready = false) {lo top j : Nat} {pre : List Str} {base : Option Str}
    {kvs : List (Str × Node)} {ids : List (Str × Nat)} {k : Str} (hc : s.mem[lo]? = some ⟨.obj ids, some j, k⟩) (hkeys : ids.map Prod.fst = kvs.map Prod.fst)
    (text : ∀ key a, dictGet key kvs = some (.str a) → ∃ y q p, dictGet key ids = some y ∧ s.mem[y]? = some ⟨.str a, q, p⟩)
    (hup : Up s.mem lo pre top) (hlt : top < lo) (hb : BaseAt s.mem top base) (hn : NamedObject E.ip base pre kvs) :
    ∃ r s' K, Runs (fun f => applyAll E (ops E f) A.length [.ref, .anchor, .id] lo) s (.ok r) s' ∧ Adds A B x K s s' ∧
      All2 (Kin x.vocabulary) (match ownKey E.ip base kvs pre with | some k => [(⟨k, pre, kvs⟩, lo)] | none => []) K := by
  by_cases hR : c!"$ref" ∈ kvs.map Prod.fst
  · have hnl : Nameless kvs := hn.name.resolve_right fun h => h.1 hR
    obtain ⟨r, s', h1, h2⟩ := core_reference hd hr hc hkeys text hn.core hnl hR
    rw [ownKey_nameless hnl]
    exact ⟨r, s', [], h1, h2, .nil⟩
  · obtain ⟨s4, x4, r4, m4, d4, e4, v4, g4⟩ := core_anchor hd hr hc hkeys text hn.core hR
    have hll := (List.getElem?_eq_some_iff.1 hc).1
    have hc4 : s4.mem[lo]? = some ⟨.obj (dictDel c!"$anchor" ids), some j, k⟩ := by rw [m4]; exact List.getElem?_set_self hll
    have hm4 := members_runs E hc4 rfl
    have texts4 : ∀ (i : Nat) (c : Cell) (t : Str), s.mem[i]? = some c → c.shape = .str t → s4.mem[i]? = some c := by rw [m4]; exact set_texts hc _
    rcases hn.name with hnl | ⟨-, t, htx, hok⟩
    · rw [ownKey_nameless hnl]
      exact ⟨lo, s4, [], r4 _ _ (applyAll_step E hm4 (nameless_left hkeys hnl) (applyAll_nil E)), ⟨⟨x4, by simp [d4], e4, v4⟩, g4, texts4⟩, .nil⟩
    · obtain ⟨hany, y, q, p, hy4, hyc⟩ := name_left hkeys text htx
      have hyc4 := texts4 _ _ _ hyc rfl
      have hup4 : Up s4.mem lo pre top := by
        rw [m4]; exact hup.keep (SameSlots.setShape (c := ⟨.obj ids, some j, k⟩) hc (.obj (dictDel c!"$anchor" ids)))
      have hb4 : BaseAt s4.mem top base := by
        obtain ⟨ct, kt, a1, a2, a3⟩ := hb
        refine ⟨ct, kt, by rw [m4, List.getElem?_set_ne (by omega)]; exact a1, a2, fun b hb => ?_⟩
        obtain ⟨z, q, p, b1, b2⟩ := a3 b hb
        exact ⟨z, q, p, b1, texts4 _ _ _ b2 rfl⟩
      have hself4 : s4.docs[A.length]? = some x4 := by rw [d4]; simp
      have hnt : nameText kvs = some t := by simp [nameText, htx]
      unfold NameOk at hok
      by_cases hen : c!"enum" ∈ pre
      · rw [if_pos hen] at hok
        obtain ⟨u, hu, hf⟩ := hok
        have hown : ownKey E.ip base kvs pre = none := by unfold ownKey; rw [if_pos hen]
        rw [hown]
        exact ⟨lo, s4, [], r4 _ _ (applyAll_apply E hm4 hany (applyId_enum hc4 hup4 hy4 hyc4 hen hu hf) (applyAll_nil E)), ⟨⟨x4, by simp [d4], e4, v4⟩, g4, texts4⟩, .nil⟩
      · rw [if_neg hen] at hok
        obtain ⟨key, hkey⟩ := hok
        have hown : ownKey E.ip base kvs pre = some key := by unfold ownKey; rw [if_neg hen, hnt]; exact hkey
        rw [hown]
        obtain ⟨v, hv⟩ := applyId_child (d := A.length) hc4 hup4 hb4 hself4 hy4 hyc4 hen hkey
        refine ⟨lo, _, [(key, kid lo x.vocabulary v)], r4 _ _ (applyAll_apply E hm4 hany hv (applyAll_nil E)), ⟨⟨x4, ?_, e4, v4⟩, ?_, texts4⟩, .cons ⟨rfl, v, rfl⟩ .nil⟩
        · simp [d4, v4]
        · simp only [d4, g4, numbered, register, List.foldl_cons, List.foldl_nil, List.length_append, List.length_cons]
          rw [show A.length + 1 + B.length = A.length + (B.length + 1) by omega]

theorem BaseAt.keep {m m' : Mem} {top : Nat} {base : Option Str} (h : BaseAt m top base) (e : m'[top]? = m[top]?)
    (texts : ∀ (j : Nat) (c : Cell) (t : Str), m[j]? = some c → c.shape = .str t → m'[j]? = some c) : BaseAt m' top base := by
  obtain ⟨ct, kt, a1, a2, a3⟩ := h
  refine ⟨ct, kt, e.trans a1, a2, fun b hb => ?_⟩
  obtain ⟨z, q, p, b1, b2⟩ := a3 b hb
  exact ⟨z, q, p, b1, texts _ _ _ b2 rfl⟩

theorem named_leaf {A B : List Schema} {x : Schema} {s : St} (hd : s.docs = A ++ x :: B) (hr : x.ready = false) {n : Node} (hn : ∀ kvs, n ≠ .obj kvs)
    {p : Option Nat} {k : Str} {pre : List Str} {lo hi : Nat} {base : Option Str} (ht : Tree s.mem n p k lo hi) :
    ∃ r s' K, Runs (fun f => (ops E f).process A.length [.ref, .anchor, .id] lo) s (.ok r) s' ∧ Adds A B x K s s' ∧
      All2 (Kin x.vocabulary) (embedsAt E.ip base n pre lo) K := by
  have hr' : Runs (fun f => (ops E f).process A.length [.ref, .anchor, .id] lo) s (.ok lo) s := by
    cases n with
    | obj kvs => exact absurd rfl (hn kvs)
    | arr xs => rw [Tree] at ht; obtain ⟨ids, ht, -⟩ := ht; exact process_leaf E _ _ ht rfl (by simp [Shape.kind])
    | ref own d p => rw [Tree] at ht; exact ht.elim
    | _ => rw [Tree] at ht; exact process_leaf E _ _ ht.1 rfl (by simp [Shape.kind])
  have h1 : embedsAt E.ip base n pre lo = [] := by
    cases n with
    | obj kvs => exact absurd rfl (hn kvs)
    | _ => rw [embedsAt]; exact hn
  rw [h1]
  exact ⟨lo, s, [], hr', ⟨⟨x, by simp [hd], hr, rfl⟩, rfl, fun _ _ _ h _ => h⟩, .nil⟩

variable {bs : Nat} {tk : List Str}

/-- An object, after its members. -/
theorem process_object {A : List Schema} {s s3 : St} {lo : Nat} {ids ids' : List (Str × Nat)} {p : Option Nat} {k : Str} (h1 : s.mem[lo]? = some ⟨.obj ids, p, k⟩)
    (h5 : Runs (fun f => eachD ((ops E f).process A.length [.ref, .anchor, .id]) ids) s (.ok ids') s3) (h1' : s3.mem[lo]? = some ⟨.obj ids, p, k⟩)
    {r : Nat} {s' : St} (h : Runs (fun f => applyAll E (ops E f) A.length [.ref, .anchor, .id] lo) { s3 with mem := s3.mem.set lo ⟨.obj ids', p, k⟩ } (.ok r) s') :
    Runs (fun f => (ops E f).process A.length [.ref, .anchor, .id] lo) s (.ok r) s' := by
  refine Runs.shift (g := fun f => processS E (ops E f) A.length _ lo) ?_ (fun f => rfl)
  unfold processS
  refine Runs.bind (.next fun f => kind_plain E h1 rfl) ?_
  simp only [Shape.kind, ne_eq, not_true_eq_false, if_false]
  exact Runs.bind (members_runs E h1 rfl) (Runs.bind h5 (Runs.bind (.const (setMembers_obj h1' rfl)) h))

mutual
theorem process_named {A : List Schema} {base : Option Str} {top : Nat} : ∀ (n : Node) {B : List Schema} {x : Schema} {j : Nat} {k : Str} {pre : List Str} {lo hi : Nat} {s : St},
    Tree s.mem n (some j) k lo hi → Up s.mem lo pre top → RootAt s top tk → BaseAt s.mem top base → top < lo → hi ≤ bs → bs ≤ s.mem.length → Fresh A.length s →
    s.docs = A ++ x :: B → x.ready = false → NamedDoc E.ip base n pre →
    ∃ r s' K, Runs (fun f => (ops E f).process A.length [.ref, .anchor, .id] lo) s (.ok r) s' ∧ Adds A B x K s s' ∧
      All2 (Kin x.vocabulary) (embedsAt E.ip base n pre lo) K
  | .obj kvs, B, x, j, k, pre, lo, hi, s, ht, hup, hroot, hbase, htl, hb, hbs, hf, hd, hr, hl => by
    have hlt := ht.lt
    rw [NamedDoc] at hl
    rw [Tree] at ht; obtain ⟨ids, h1, h2⟩ := ht
    obtain ⟨ids', s3, K1, h5, ad, al⟩ := kids_named kvs h2 hup hroot hbase (by omega) (by omega) hb hbs hf hd hr hl.2
    obtain ⟨f5, e5⟩ := h5.elim
    obtain ⟨fr, L1, hdn, ha⟩ := processKids_done (tk := tk) kvs h2 hup hroot (by omega) (by omega) hb hbs hf e5
    have hll := (List.getElem?_eq_some_iff.1 h1).1
    have h1' : s3.mem[lo]? = some ⟨.obj ids, some j, k⟩ := by rw [fr.mem lo (by omega) (by omega)]; exact h1
    obtain ⟨x3, hx3, hr3, hv3⟩ := ad.docs
    have hset : ∀ i, i ≠ lo → (s3.mem.set lo ⟨.obj ids', some j, k⟩)[i]? = s3.mem[i]? := fun i hi => List.getElem?_set_ne (Ne.symm hi)
    have hkey := hdn.keys
    have htx := set_texts h1' ⟨.obj ids', some j, k⟩
    have text : ∀ key a, dictGet key kvs = some (.str a) → ∃ y q p', dictGet key ids' = some y ∧
        (s3.mem.set lo ⟨.obj ids', some j, k⟩)[y]? = some ⟨.str a, q, p'⟩ := by
      intro key a h
      obtain ⟨i, mid, r, L', g1, g2, g3, g4⟩ := hdn.get h
      obtain ⟨g5, rfl⟩ := g4.str
      exact ⟨_, _, _, g1, by rw [hset _ (by omega)]; exact g5⟩
    have hbase3 : BaseAt s3.mem top base := hbase.keep (fr.mem top (by omega) (by omega)) ad.texts
    obtain ⟨r, s', K2, hap, ad2, al2⟩ := core_named (E := E) (A := A) (B := B ++ K1.map Prod.snd) (s := { s3 with mem := s3.mem.set lo ⟨.obj ids', some j, k⟩ })
      hx3 hr3 (pre := pre) (top := top) (base := base) (List.getElem?_set_self (List.getElem?_eq_some_iff.1 h1').1) hkey text
      ((hup.keep fr.slots).keep (SameSlots.setShape (c := ⟨.obj ids, some j, k⟩) h1' (.obj ids'))) htl (hbase3.keep (hset top (by omega)) htx) hl.1
    refine ⟨r, s', K1 ++ K2, process_object h1 h5 h1' hap, ad.trans hx3 ⟨ad2.docs, ad2.storage, fun i c t hi ht => ad2.texts i c t (htx i c t hi ht) ht⟩, ?_⟩
    rw [embedsAt]
    rw [hv3] at al2
    exact al.append al2
  | .null, _, _, _, _, _, _, _, s, ht, _, _, _, _, _, _, _, hd, hr, _ => named_leaf hd hr (by simp) ht
  | .bool _, _, _, _, _, _, _, _, s, ht, _, _, _, _, _, _, _, hd, hr, _ => named_leaf hd hr (by simp) ht
  | .num _, _, _, _, _, _, _, _, s, ht, _, _, _, _, _, _, _, hd, hr, _ => named_leaf hd hr (by simp) ht
  | .str _, _, _, _, _, _, _, _, s, ht, _, _, _, _, _, _, _, hd, hr, _ => named_leaf hd hr (by simp) ht
  | .arr _, _, _, _, _, _, _, _, s, ht, _, _, _, _, _, _, _, hd, hr, _ => named_leaf hd hr (by simp) ht
  | .ref .., _, _, _, _, _, _, _, s, ht, _, _, _, _, _, _, _, hd, hr, _ => named_leaf hd hr (by simp) ht
theorem kids_named {A : List Schema} {base : Option Str} {top : Nat} : ∀ (xs : List (Str × Node)) {B : List Schema} {x : Schema} {self : Nat} {pre : List Str}
    {ids : List (Str × Nat)} {lo hi : Nat} {s : St},
    TreeD s.mem xs self ids lo hi → Up s.mem self pre top → RootAt s top tk → BaseAt s.mem top base → top ≤ self → self < lo → hi ≤ bs → bs ≤ s.mem.length →
    Fresh A.length s → s.docs = A ++ x :: B → x.ready = false → NamedDocD E.ip base xs pre →
    ∃ ids' s' K, Runs (fun f => eachD ((ops E f).process A.length [.ref, .anchor, .id]) ids) s (.ok ids') s' ∧ Adds A B x K s s' ∧
      All2 (Kin x.vocabulary) (embedsAtD E.ip base xs pre lo) K
  | [], B, x, self, pre, ids, lo, hi, s, ht, _, _, _, _, _, _, _, _, hd, hr, _ => by
    rw [TreeD] at ht
    obtain ⟨rfl, rfl⟩ := ht
    exact ⟨[], s, [], .pure, ⟨⟨x, by simp [hd], hr, rfl⟩, rfl, fun _ _ _ h _ => h⟩, by rw [embedsAtD]; exact .nil⟩
  | (k, n) :: xs, B, x, self, pre, ids, lo, hi, s, ht, hup, hroot, hbase, htl, hsl, hb, hbs, hf, hd, hr, hl => by
    rw [TreeD] at ht; obtain ⟨mid, rest, rfl, h1, h2⟩ := ht
    rw [NamedDocD] at hl
    have hlt := h1.lt; have hle := h2.le
    have hupx : Up s.mem lo (pre ++ [k]) top := by
      obtain ⟨c', a, b, c⟩ := h1.slots
      have := Up.step a b hsl hup
      rwa [c] at this
    obtain ⟨r, s1, K1, h3, ad1, al1⟩ := process_named n h1 hupx hroot hbase (by omega) (by omega) hbs hf hd hr hl.1
    obtain ⟨f3, e3⟩ := h3.elim
    obtain ⟨f1, L1, hd1, ha1⟩ := process_done (base := bs) n h1 hupx hroot (by omega) (by omega) hbs hf e3
    have htop : top < s.mem.length := by obtain ⟨ct, kt, a, -⟩ := hroot; exact (List.getElem?_eq_some_iff.1 a).1
    have hroot1 : RootAt s1 top tk := hroot.keep (f1.mem top htop (by omega))
    have h2' : TreeD s1.mem xs self rest mid hi := h2.keep fun i a b => f1.mem i (by omega) (by omega)
    have hl1 := f1.len
    obtain ⟨x1, hx1, hr1, hv1⟩ := ad1.docs
    obtain ⟨ys, s2, K2, h4, ad2, al2⟩ := kids_named xs h2' (hup.keep f1.slots) hroot1 (hbase.keep (f1.mem top htop (by omega)) ad1.texts) htl (by omega) hb (by omega)
      f1.fresh hx1 hr1 hl.2
    refine ⟨(k, r) :: ys, s2, K1 ++ K2, ?_, ad1.trans hx1 ad2, ?_⟩
    · unfold eachD
      exact Runs.bind h3 (Runs.bind h4 .pure)
    · rw [embedsAtD]
      rw [hv1] at al2
      rw [← h1.size]
      exact al1.append al2
end

end Verif.Obj
