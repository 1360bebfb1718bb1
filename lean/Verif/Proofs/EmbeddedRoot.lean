import Verif.Proofs.EmbeddedLoad
/-! # Loading a document with named objects inside: the root -/

namespace Verif.Obj
open Verif Verif.Spec

variable {E : Env}

theorem nameOf_nameless {ip : Rfc3986.IpRe} {kvs : List (Str × Node)} (h : Nameless kvs) : nameOf ip kvs = none := by
  have h0 : dictGet (nameKey kvs) kvs = none := by
    refine dictGet_none ?_
    unfold nameKey; split
    · exact h.1
    · exact h.2
  simp [nameOf, h0]

/-- The core keywords on the root. -/
theorem core_root {A B : List Schema} {x : Schema} {s : St} (hd : s.docs = A ++ x :: B) (hr : x.ready = false) {lo : Nat}
    {kvs : List (Str × Node)} {ids : List (Str × Nat)} {k : Str} (hc : s.mem[lo]? = some ⟨.obj ids, none, k⟩) (hkeys : ids.map Prod.fst = kvs.map Prod.fst)
    (text : ∀ key a, dictGet key kvs = some (.str a) → ∃ y q p, dictGet key ids = some y ∧ s.mem[y]? = some ⟨.str a, q, p⟩)
    (hco : CoreObject (LocalRef E.ip) kvs)
    (hname : Nameless kvs ∨ (c!"$ref" ∉ kvs.map Prod.fst ∧ ∃ t, dictGet (nameKey kvs) kvs = some (.str t) ∧ GoodName E.ip t)) :
    ∃ r s' x', Runs (fun f => applyAll E (ops E f) A.length [.ref, .anchor, .id] lo) s (.ok r) s' ∧ s'.docs = A ++ x' :: B ∧ x'.ready = false ∧
      x'.vocabulary = x.vocabulary ∧ s'.storage = named E.ip s.storage A.length kvs := by
  by_cases hR : c!"$ref" ∈ kvs.map Prod.fst
  · have hnl : Nameless kvs := hname.resolve_right fun h => h.1 hR
    obtain ⟨r, s', h1, h2⟩ := core_reference hd hr hc hkeys text hco hnl hR
    obtain ⟨x', a1, a2, a3⟩ := h2.docs
    refine ⟨r, s', x', h1, by simpa using a1, a2, a3, ?_⟩
    rw [h2.storage, named, nameOf_nameless hnl]; rfl
  · obtain ⟨s4, x4, r4, m4, d4, e4, v4, g4⟩ := core_anchor hd hr hc hkeys text hco hR
    have hll := (List.getElem?_eq_some_iff.1 hc).1
    have hc4 : s4.mem[lo]? = some ⟨.obj (dictDel c!"$anchor" ids), none, k⟩ := by rw [m4]; exact List.getElem?_set_self hll
    have hm4 := members_runs E hc4 rfl
    rcases hname with hnl | ⟨hno, t, htx, u, hu, hf, ha⟩
    · exact ⟨lo, s4, x4, r4 _ _ (applyAll_step E hm4 (nameless_left hkeys hnl) (applyAll_nil E)), d4, e4, v4, by rw [g4, named, nameOf_nameless hnl]⟩
    · obtain ⟨hany, y, q, p, hy4, hyc⟩ := name_left hkeys text htx
      have hyc4 : s4.mem[y]? = some ⟨.str t, q, p⟩ := by rw [m4]; exact set_texts hc _ _ _ _ hyc rfl
      obtain ⟨b, hb⟩ : ∃ b, Uri.baseUri E.ip u = .ok b := ⟨_, Uri.baseUri_eq _ _⟩
      have hbt : Store.baseText E.ip u = .ok (Uri.text b) := by unfold Store.baseText; rw [hb]; rfl
      have hself4 : s4.docs[A.length]? = some x4 := by rw [d4]; simp
      have rr := r4 _ _ (applyAll_apply E hm4 hany (applyId_root hc4 hself4 hy4 hyc4 hu hf ha hbt) (applyAll_nil E))
      refine ⟨lo, _, { x4 with ident := some u }, rr, ?_, e4, v4, ?_⟩
      · simp [d4]
      · simp only [named, nameOf, htx, hu, hbt, g4]

/-- A document with named objects inside loads, and what that leaves behind. -/
theorem load_named {s s1 : St} {kvs : List (Str × Val)} {voc : List Kw}
    (hvoc : (voc.filter fun k => !k.isAssertion) = [.ref, .anchor, .id])
    (hst : ∀ (t : Str) (e : Nat), dictGet t s.storage = some e → ∃ x, s.docs[e]? = some x ∧ x.ready = false)
    {d : Nat} (h1 : newDocument (.dict kvs) voc s = (.ok d, s1)) (hl : NamedRoot E.ip (wrapDict kvs)) :
    ∃ hi r L s2 x K, Runs (fun f => (ops E f).load d) s1 (.ok ()) s2 ∧ d = s.docs.length ∧
      s2.docs = s.docs ++ x :: K.map Prod.snd ∧ x.value = r ∧ x.ready = true ∧ x.vocabulary = voc ∧ x.anchors = register L [] ∧
      s2.storage = named E.ip (register (numbered (s.docs.length + 1) K) s.storage) s.docs.length (wrapDict kvs) ∧
      (∀ j, j < s.mem.length → s2.mem[j]? = s.mem[j]?) ∧
      All2 (Kin voc) (embedsAtD E.ip (nameText (wrapDict kvs)) (wrapDict kvs) [] (s.mem.length + 1)) K ∧
      Done E hi d (kvs.map Prod.fst) s2.mem (wrap (.dict kvs)) none [] [] s.mem.length hi r L := by
  obtain ⟨ext, ht, e⟩ := newDocument_spec (.inr ⟨kvs, rfl⟩) voc s
  rw [e] at h1
  cases h1
  generalize hs1 : ({ s with mem := s.mem ++ ext, docs := s.docs ++ [⟨s.mem.length, false, voc, [], none⟩] } : St) = s1
  have hm : s1.mem = s.mem ++ ext := by rw [← hs1]
  have hdocs : s1.docs = s.docs ++ (⟨s.mem.length, false, voc, [], none⟩ : Schema) :: [] := by rw [← hs1]
  have hd : s1.docs[s.docs.length]? = some ⟨s.mem.length, false, voc, [], none⟩ := by rw [← hs1]; simp
  have hf : Fresh s.docs.length s1 := by
    refine ⟨⟨_, hd, rfl⟩, fun t e he => ?_⟩
    rw [← hs1] at he ⊢
    obtain ⟨x, hx, hr⟩ := hst t e he
    exact ⟨x, docs_append hx, hr⟩
  rw [← hm] at ht
  obtain ⟨c, hc, hpar, hkey⟩ := ht.slots
  have ht0 := ht
  rw [wrap, Tree] at ht0
  obtain ⟨ids, t1, t2⟩ := ht0
  have hkeys : ids.map Prod.fst = (wrapDict kvs).map Prod.fst := t2.keys
  have hroot : RootAt s1 s.mem.length (kvs.map Prod.fst) := by
    refine ⟨_, ids, t1, rfl, ?_⟩
    rw [hkeys, wrapDict_eq_map, List.map_map]; rfl
  have hbase : BaseAt s1.mem s.mem.length (nameText (wrapDict kvs)) := by
    refine ⟨_, ids, t1, rfl, fun b hb => ?_⟩
    have hg : dictGet (nameKey (wrapDict kvs)) (wrapDict kvs) = some (.str b) := by
      unfold nameText at hb
      split at hb
      · next h => cases hb; exact h
      · cases hb
    have hsh := ht.shows
    rw [wrap, Shows] at hsh
    obtain ⟨c', ids2, h2, h3, h4⟩ := hsh
    rw [t1] at h2; cases h2; cases h3
    have hnk : nameKey ids = nameKey (wrapDict kvs) := by
      have : dictHas c!"$id" ids = dictHas c!"$id" (wrapDict kvs) := by rw [Bool.eq_iff_iff, dictHas_iff, dictHas_iff, hkeys]
      unfold nameKey; rw [this]
    rw [hnk]
    rcases h4.get (nameKey (wrapDict kvs)) with ⟨e, -⟩ | ⟨z, i, e1, e2, hs⟩
    · rw [hg] at e; cases e
    · rw [hg] at e1; cases e1
      rw [Shows] at hs
      obtain ⟨⟨sh, q, p⟩, h5, rfl⟩ := hs
      exact ⟨i, q, p, e2, h5⟩
  have hlen : s1.mem.length = s.mem.length + ext.length := by rw [hm]; simp
  have hup : Up s1.mem s.mem.length [] s.mem.length := Up.top hc hpar
  have hlt := ht.lt
  obtain ⟨ids', s3, K, h5, ad, al⟩ := kids_named (E := E) (A := s.docs) (bs := s.mem.length + ext.length) (wrapDict kvs) t2 hup hroot hbase (Nat.le_refl _) (by omega) (Nat.le_refl _)
    (by omega) hf hdocs rfl hl.kids
  obtain ⟨f5, e5⟩ := h5.elim
  obtain ⟨fr, L1, hdn, ha⟩ := processKids_done (base := s.mem.length + ext.length) (tk := kvs.map Prod.fst) (wrapDict kvs) t2 hup hroot (Nat.le_refl _) (by omega) (Nat.le_refl _) (by omega) hf e5
  have t1' : s3.mem[s.mem.length]? = some ⟨.obj ids, none, []⟩ := by rw [fr.mem _ (by omega) (by omega)]; exact t1
  obtain ⟨x3, hx3, hr3, hv3⟩ := ad.docs
  have text : ∀ key a, dictGet key (wrapDict kvs) = some (.str a) → ∃ y q p', dictGet key ids' = some y ∧
      (s3.mem.set s.mem.length ⟨.obj ids', none, []⟩)[y]? = some ⟨.str a, q, p'⟩ := by
    intro key a h
    obtain ⟨i, mid, r, L', g1, g2, g3, g4⟩ := hdn.get h
    obtain ⟨g5, rfl⟩ := g4.str
    exact ⟨_, _, _, g1, by rw [List.getElem?_set_ne (by omega)]; exact g5⟩
  obtain ⟨r, s4, x4, h4, d4, r4, v4, g4⟩ := core_root (E := E) (A := s.docs) (B := K.map Prod.snd) (s := { s3 with mem := s3.mem.set s.mem.length ⟨.obj ids', none, []⟩ })
    hx3 hr3 (List.getElem?_set_self (List.getElem?_eq_some_iff.1 t1').1) hdn.keys text hl.core hl.name
  have h3 := process_object (E := E) (A := s.docs) t1 h5 t1' h4
  obtain ⟨f3, e3⟩ := h3.elim
  obtain ⟨fr', L, hdone, ha'⟩ := process_done (base := s.mem.length + ext.length) (wrap (.dict kvs)) ht hup hroot (Nat.le_refl _) (Nat.le_refl _) (by omega) hf e3
  have hy : s4.docs[s.docs.length]? = some x4 := by rw [d4]; simp
  refine ⟨s.mem.length + ext.length, r, L, { s4 with docs := s4.docs.set s.docs.length { x4 with value := r, ready := true } }, { x4 with value := r, ready := true }, K,
    Runs.shift (g := fun f => loadS (ops E f) s.docs.length) ?_ (fun f => rfl), rfl, ?_, rfl, rfl, v4.trans hv3, ?_, ?_, ?_, al, hdone⟩
  · unfold loadS
    refine Runs.bind (.const (schema_apply hd)) ?_
    simp only [Bool.false_eq_true, if_false, hvoc]
    exact Runs.bind h3 (Runs.bind (.const (schema_apply hy)) (.const rfl))
  · simp [d4]
  · have e1 : anch s.docs.length s4 = x4.anchors := by unfold anch; rw [hy]
    have e2 : anch s.docs.length s1 = [] := by unfold anch; rw [hd]
    change x4.anchors = _
    rw [← e1, ha', e2]
  · change s4.storage = _
    rw [g4, ad.storage, ← hs1]; rfl
  · intro j hj
    change s4.mem[j]? = _
    rw [fr'.mem j (by omega) (.inl hj), hm, List.getElem?_append_left hj]

end Verif.Obj
