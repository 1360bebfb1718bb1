import Verif.Proofs.LoadAt
/-! # Documents that refer only to themselves can be loaded -/

namespace Verif.Obj
open Verif Verif.Spec

variable (E : Env)

theorem canApply_runs {n : Nat} {s : St} {kvs : List (Str × Nat)} (k : Kw) (h : Runs (fun f => (ops E f).members n) s (.ok kvs) s) :
    Runs (fun f => canApply (ops E f) k n) s (.ok (k.keys.any fun x => dictHas x kvs)) s := by
  unfold canApply
  exact Runs.bind h .pure

theorem members_runs {i : Nat} {s : St} {c : Cell} {kvs : List (Str × Nat)} (h : s.mem[i]? = some c) (hs : c.shape = .obj kvs) :
    Runs (fun f => (ops E f).members i) s (.ok kvs) s := .next fun _ => members_obj E h hs

theorem membersRef_runs {i n e : Nat} {ptr : List Str} {s : St} {c : Cell} {x : Schema} {kvs : List (Str × Nat)} (h : s.mem[i]? = some c)
    (hs : c.shape = .ref n e ptr) (hd : s.docs[e]? = some x) (hr : x.ready = false) (hn : Runs (fun f => (ops E f).members n) s (.ok kvs) s) :
    Runs (fun f => (ops E f).members i) s (.ok kvs) s := by
  refine Runs.shift (g := fun f => membersS (ops E f) i) ?_ (fun f => rfl)
  unfold membersS
  refine Runs.bind (.const (cell_apply h)) ?_
  simp only [hs]
  refine Runs.bind (.const (schema_apply hd)) ?_
  simp only [hr, Bool.not_false, if_true]
  exact hn

theorem itemText_runs {n x : Nat} {s : St} {k t p : Str} {q : Option Nat} {kvs : List (Str × Nat)} (h : Runs (fun f => (ops E f).members n) s (.ok kvs) s)
    (hk : dictGet k kvs = some x) (hx : s.mem[x]? = some ⟨.str t, q, p⟩) : Runs (fun f => itemText E (ops E f) n k) s (.ok t) s := by
  unfold itemText item
  have h1 : Runs (fun f => (ops E f).node x) s (.ok (.str t)) s := by
    refine .next fun f => ?_
    change nodeS (ops E f) x s = _
    unfold nodeS
    rw [M.bind_ok (cell_apply hx)]
    rfl
  have h0 : Runs (fun f => (ops E f).members n >>= fun a => match dictGet k a with | some x => (Pure.pure x : M Nat) | none => raise .keyError) s (.ok x) s := by
    refine Runs.bind h ?_
    simp only [hk]
    exact .pure
  exact Runs.bind h0 (Runs.bind h1 .pure)

theorem applyAll_step {d n : Nat} {k : Kw} {ks : List Kw} {s : St} {kvs : List (Str × Nat)} {x : Res Nat} {s' : St}
    (h : Runs (fun f => (ops E f).members n) s (.ok kvs) s) (hk : (k.keys.any fun x => dictHas x kvs) = false)
    (h' : Runs (fun f => applyAll E (ops E f) d ks n) s x s') : Runs (fun f => applyAll E (ops E f) d (k :: ks) n) s x s' := by
  unfold applyAll
  refine Runs.bind (canApply_runs E k h) ?_
  simp only [hk, Bool.false_eq_true, if_false]
  exact h'

theorem applyAll_apply {d n n1 : Nat} {k : Kw} {ks : List Kw} {s s1 : St} {kvs : List (Str × Nat)} {x : Res Nat} {s' : St}
    (h : Runs (fun f => (ops E f).members n) s (.ok kvs) s) (hk : (k.keys.any fun x => dictHas x kvs) = true)
    (h1 : Runs (fun f => applyCore E (ops E f) d n k) s (.ok n1) s1)
    (h' : Runs (fun f => applyAll E (ops E f) d ks n1) s1 x s') : Runs (fun f => applyAll E (ops E f) d (k :: ks) n) s x s' := by
  unfold applyAll
  refine Runs.bind (canApply_runs E k h) ?_
  simp only [hk, if_true]
  exact Runs.bind h1 h'

theorem applyAll_nil {d n : Nat} {s : St} : Runs (fun f => applyAll E (ops E f) d [] n) s (.ok n) s := .const rfl

/-- No document and no identifier is added. -/
def Quiet (s s' : St) : Prop := s'.storage = s.storage ∧ s'.docs.length = s.docs.length

/-- The core keywords on a local object. -/
theorem applyAll_runs {d lo : Nat} {s : St} {c : Cell} {xs : Schema} {ids : List (Str × Nat)} (hc : s.mem[lo]? = some c) (hs : c.shape = .obj ids)
    (hd : s.docs[d]? = some xs) (hr : xs.ready = false) (hid : c!"$id" ∉ ids.map Prod.fst ∧ c!"id" ∉ ids.map Prod.fst)
    (href : c!"$ref" ∈ ids.map Prod.fst → c!"$anchor" ∉ ids.map Prod.fst ∧
      ∃ t x q p, dictGet c!"$ref" ids = some x ∧ s.mem[x]? = some ⟨.str t, q, p⟩ ∧ LocalRef E.ip t)
    (hanc : c!"$anchor" ∈ ids.map Prod.fst → ∃ t x q p, dictGet c!"$anchor" ids = some x ∧ s.mem[x]? = some ⟨.str t, q, p⟩) :
    ∃ r s', Runs (fun f => applyAll E (ops E f) d [.ref, .anchor, .id] lo) s (.ok r) s' ∧ Quiet s s' := by
  have hidf : ∀ {α : Type} (ds : List (Str × α)), c!"$id" ∉ ds.map Prod.fst ∧ c!"id" ∉ ds.map Prod.fst → (Kw.id.keys.any fun x => dictHas x ds) = false := by
    intro α ds h
    rw [Bool.eq_false_iff]; intro e
    rcases (any_id ds).1 e with e | e
    · exact h.1 e
    · exact h.2 e
  have hm := members_runs E hc hs
  by_cases hR : c!"$ref" ∈ ids.map Prod.fst
  · obtain ⟨hA, t, x, q, p, hx, hxc, u, b, ptr, hu, hp, hb, hbt⟩ := href hR
    have h1 : Runs (fun f => applyCore E (ops E f) d lo .ref) s (.ok s.mem.length) { s with mem := s.mem ++ [⟨.ref lo d ptr, c.parent, c.key⟩] } := by
      change Runs (fun f => applyRef E (ops E f) d lo) _ _ _
      unfold applyRef
      refine Runs.bind (itemText_runs E hm hx hxc) ?_
      refine Runs.bind (a := u) (s1 := s) (.const (by rw [hu]; rfl)) ?_
      refine Runs.bind (a := ptr) (s1 := s) (.const (by rw [hp]; rfl)) ?_
      refine Runs.bind (a := b) (s1 := s) (.const (by rw [hb]; rfl)) ?_
      refine Runs.bind (.const (cell_apply hc)) ?_
      simp only [hbt, Bool.not_false, if_true]
      exact .const rfl
    have hlt := (List.getElem?_eq_some_iff.1 hc).1
    have hc' : (s.mem ++ [⟨.ref lo d ptr, c.parent, c.key⟩])[lo]? = some c := by rw [List.getElem?_append_left hlt]; exact hc
    have hm' : Runs (fun f => (ops E f).members s.mem.length) { s with mem := s.mem ++ [⟨.ref lo d ptr, c.parent, c.key⟩] } (.ok ids)
        { s with mem := s.mem ++ [⟨.ref lo d ptr, c.parent, c.key⟩] } :=
      membersRef_runs E (c := ⟨.ref lo d ptr, c.parent, c.key⟩) (by simp) rfl hd hr (members_runs E hc' hs)
    refine ⟨_, _, applyAll_apply E hm ((any_ref ids).2 hR) h1 (applyAll_step E hm' ?_ (applyAll_step E hm' (hidf ids hid) (applyAll_nil E))), ⟨rfl, rfl⟩⟩
    · rw [Bool.eq_false_iff]; intro e; exact hA ((any_anchor ids).1 e)
  · have hRf : (Kw.ref.keys.any fun x => dictHas x ids) = false := by rw [Bool.eq_false_iff]; intro e; exact hR ((any_ref ids).1 e)
    by_cases hA : c!"$anchor" ∈ ids.map Prod.fst
    · obtain ⟨t, x, q, p, hx, hxc⟩ := hanc hA
      have h1 : Runs (fun f => applyCore E (ops E f) d lo .anchor) s (.ok lo)
          { s with mem := s.mem.set lo { c with shape := .obj (dictDel c!"$anchor" ids) }, docs := s.docs.set d { xs with anchors := dictSet t lo xs.anchors } } := by
        change Runs (fun f => applyAnchor E (ops E f) d lo) _ _ _
        unfold applyAnchor
        refine Runs.bind (itemText_runs E hm hx hxc) ?_
        refine Runs.bind (.const (schema_apply hd)) ?_
        refine Runs.bind (a := ()) (s1 := { s with docs := s.docs.set d { xs with anchors := dictSet t lo xs.anchors } }) (.const rfl) ?_
        refine Runs.bind (.const (cell_apply (s := { s with docs := s.docs.set d { xs with anchors := dictSet t lo xs.anchors } }) hc)) ?_
        simp only [hs, dictHas_iff.2 hA, if_true]
        exact Runs.bind (.const (setShape_apply (s := { s with docs := s.docs.set d { xs with anchors := dictSet t lo xs.anchors } }) hc _)) .pure
      have hlt := (List.getElem?_eq_some_iff.1 hc).1
      have hm' := members_runs E (i := lo) (s := { s with mem := s.mem.set lo { c with shape := .obj (dictDel c!"$anchor" ids) }, docs := s.docs.set d { xs with anchors := dictSet t lo xs.anchors } })
        (c := { c with shape := .obj (dictDel c!"$anchor" ids) }) (List.getElem?_set_self hlt) rfl
      refine ⟨_, _, applyAll_step E hm hRf (applyAll_apply E hm ((any_anchor ids).2 hA) h1 (applyAll_step E hm' (hidf _ ?_) (applyAll_nil E))), ⟨rfl, by simp⟩⟩
      · rw [mem_del (by decide), mem_del (by decide)]; exact hid
    · refine ⟨_, _, applyAll_step E hm hRf (applyAll_step E hm ?_ (applyAll_step E hm (hidf ids hid) (applyAll_nil E))), ⟨rfl, rfl⟩⟩
      rw [Bool.eq_false_iff]; intro e; exact hA ((any_anchor ids).1 e)

theorem Runs.elim {α : Type} {g : Nat → M α} {s s' : St} {x : Res α} (h : Runs g s x s') : ∃ f, g f s = (x, s') := by
  obtain ⟨f0, h⟩ := h
  exact ⟨f0, h f0 (Nat.le_refl _)⟩

variable {base d : Nat} {tk : List Str}

mutual
theorem process_runs {top : Nat} : ∀ (n : Node) {p : Option Nat} {k : Str} {pre : List Str} {lo hi : Nat} {s : St},
    Tree s.mem n p k lo hi → Up s.mem lo pre top → RootAt s top tk → top ≤ lo → hi ≤ base → base ≤ s.mem.length → Fresh d s → LocalDoc E.ip n →
    ∃ r s', Runs (fun f => (ops E f).process d [.ref, .anchor, .id] lo) s (.ok r) s' ∧ Quiet s s'
  | .obj kvs, p, k, pre, lo, hi, s, ht, hup, hroot, htl, hb, hbs, hf, hl => by
    have hlt := ht.lt
    rw [LocalDoc] at hl
    rw [Tree] at ht; obtain ⟨ids, h1, h2⟩ := ht
    obtain ⟨ids', s3, h5, q5⟩ := processKids_runs kvs h2 hup hroot htl (by omega) hb hbs hf hl.2
    obtain ⟨f5, e5⟩ := h5.elim
    obtain ⟨fr, L1, hd, ha⟩ := processKids_done (tk := tk) kvs h2 hup hroot htl (by omega) hb hbs hf e5
    have h1' : s3.mem[lo]? = some ⟨.obj ids, p, k⟩ := by rw [fr.mem lo (by omega) (by omega)]; exact h1
    obtain ⟨xs, hxs, hxr⟩ := fr.fresh.self
    have hset : ∀ j, lo + 1 ≤ j → (s3.mem.set lo ⟨.obj ids', p, k⟩)[j]? = s3.mem[j]? := fun j hj => List.getElem?_set_ne (by omega)
    have hkey := hd.keys
    have text : ∀ key a, dictGet key kvs = some (.str a) → ∃ x q p', dictGet key ids' = some x ∧
        (s3.mem.set lo ⟨.obj ids', p, k⟩)[x]? = some ⟨.str a, q, p'⟩ := by
      intro key a h
      obtain ⟨j, mid, r, L', g1, g2, g3, g4⟩ := hd.get h
      obtain ⟨g5, rfl⟩ := g4.str
      exact ⟨_, _, _, g1, by rw [hset _ g2]; exact g5⟩
    obtain ⟨r, s', hap, qa⟩ := applyAll_runs E (d := d) (lo := lo) (s := { s3 with mem := s3.mem.set lo ⟨.obj ids', p, k⟩ }) (c := ⟨.obj ids', p, k⟩)
      (xs := xs) (ids := ids') (List.getElem?_set_self (List.getElem?_eq_some_iff.1 h1').1) rfl hxs hxr (by rw [hkey]; exact hl.1.noId)
      (by
        rw [hkey]; intro h
        obtain ⟨h1, t, h2, h3⟩ := hl.1.ref h
        obtain ⟨x, q, p', g1, g2⟩ := text _ t h2
        exact ⟨h1, t, x, q, p', g1, g2, h3⟩)
      (by
        rw [hkey]; intro h
        obtain ⟨a, h2⟩ := hl.1.anchor h
        obtain ⟨x, q, p', g1, g2⟩ := text _ a h2
        exact ⟨a, x, q, p', g1, g2⟩)
    refine ⟨r, s', Runs.shift (g := fun f => processS E (ops E f) d _ lo) ?_ (fun f => rfl), qa.1.trans q5.1, qa.2.trans q5.2⟩
    unfold processS
    refine Runs.bind (.next fun f => kind_plain E h1 rfl) ?_
    simp only [Shape.kind, ne_eq, not_true_eq_false, if_false]
    refine Runs.bind (members_runs E h1 rfl) (Runs.bind h5 (Runs.bind (.const (setMembers_obj h1' rfl)) hap))
  | .null, p, k, pre, lo, hi, s, ht, _, _, _, _, _, _, _ => by rw [Tree] at ht; exact ⟨_, _, process_leaf E d _ ht.1 rfl (by simp [Shape.kind]), rfl, rfl⟩
  | .bool _, p, k, pre, lo, hi, s, ht, _, _, _, _, _, _, _ => by rw [Tree] at ht; exact ⟨_, _, process_leaf E d _ ht.1 rfl (by simp [Shape.kind]), rfl, rfl⟩
  | .num _, p, k, pre, lo, hi, s, ht, _, _, _, _, _, _, _ => by rw [Tree] at ht; exact ⟨_, _, process_leaf E d _ ht.1 rfl (by simp [Shape.kind]), rfl, rfl⟩
  | .str _, p, k, pre, lo, hi, s, ht, _, _, _, _, _, _, _ => by rw [Tree] at ht; exact ⟨_, _, process_leaf E d _ ht.1 rfl (by simp [Shape.kind]), rfl, rfl⟩
  | .arr _, p, k, pre, lo, hi, s, ht, _, _, _, _, _, _, _ => by
    rw [Tree] at ht; obtain ⟨ids, ht, -⟩ := ht; exact ⟨_, _, process_leaf E d _ ht rfl (by simp [Shape.kind]), rfl, rfl⟩
  | .ref .., p, k, pre, lo, hi, s, ht, _, _, _, _, _, _, _ => by rw [Tree] at ht; exact ht.elim
theorem processKids_runs {top : Nat} : ∀ (xs : List (Str × Node)) {self : Nat} {pre : List Str} {ids : List (Str × Nat)} {lo hi : Nat} {s : St},
    TreeD s.mem xs self ids lo hi → Up s.mem self pre top → RootAt s top tk → top ≤ self → self < lo → hi ≤ base → base ≤ s.mem.length → Fresh d s →
    LocalDocD E.ip xs → ∃ ids' s', Runs (fun f => eachD ((ops E f).process d [.ref, .anchor, .id]) ids) s (.ok ids') s' ∧ Quiet s s'
  | [], self, pre, ids, lo, hi, s, ht, _, _, _, _, _, _, _, _ => by
    rw [TreeD] at ht
    obtain ⟨rfl, rfl⟩ := ht
    exact ⟨[], s, .pure, rfl, rfl⟩
  | (k, x) :: xs, self, pre, ids, lo, hi, s, ht, hup, hroot, htl, hsl, hb, hbs, hf, hl => by
    rw [TreeD] at ht; obtain ⟨mid, rest, rfl, h1, h2⟩ := ht
    rw [LocalDocD] at hl
    have hlt := h1.lt; have hle := h2.le
    have hupx : Up s.mem lo (pre ++ [k]) top := by
      obtain ⟨c', a, b, c⟩ := h1.slots
      have := Up.step a b hsl hup
      rwa [c] at this
    obtain ⟨r, s1, h3, q3⟩ := process_runs x h1 hupx hroot (by omega) (by omega) hbs hf hl.1
    obtain ⟨f3, e3⟩ := h3.elim
    obtain ⟨f1, L1, hd1, ha1⟩ := process_done (base := base) x h1 hupx hroot (by omega) (by omega) hbs hf e3
    have hroot1 : RootAt s1 top tk := by
      refine hroot.keep (f1.mem top ?_ (by omega))
      obtain ⟨ct, kt, a, -⟩ := hroot; exact (List.getElem?_eq_some_iff.1 a).1
    have h2' : TreeD s1.mem xs self rest mid hi := h2.keep fun j a b => f1.mem j (by omega) (by omega)
    have hl1 := f1.len
    obtain ⟨ys, s2, h4, q4⟩ := processKids_runs xs h2' (hup.keep f1.slots) hroot1 htl (by omega) hb (by omega) f1.fresh hl.2
    refine ⟨(k, r) :: ys, s2, ?_, q4.1.trans q3.1, q4.2.trans q3.2⟩
    unfold eachD
    exact Runs.bind h3 (Runs.bind h4 .pure)
end

/-- A document that refers only to itself loads, and what that leaves behind. -/
theorem load_full {s s1 : St} {kvs : List (Str × Val)} {voc : List Kw}
    (hvoc : (voc.filter fun k => !k.isAssertion) = [.ref, .anchor, .id])
    (hst : ∀ (t : Str) (e : Nat), dictGet t s.storage = some e → ∃ x, s.docs[e]? = some x ∧ x.ready = false)
    {d : Nat} (h1 : newDocument (.dict kvs) voc s = (.ok d, s1)) (hl : LocalDoc E.ip (wrap (.dict kvs))) :
    ∃ hi r L s2 x, Runs (fun f => (ops E f).load d) s1 (.ok ()) s2 ∧ d = s.docs.length ∧ s2.storage = s.storage ∧
      s2.docs.length = s.docs.length + 1 ∧ (∀ j, j < s.mem.length → s2.mem[j]? = s.mem[j]?) ∧
      (∀ (e : Nat) y, s.docs[e]? = some y → s2.docs[e]? = some y) ∧ s2.docs[d]? = some x ∧ x.value = r ∧ x.ready = true ∧
      x.anchors = register L [] ∧ Done E hi d (kvs.map Prod.fst) s2.mem (wrap (.dict kvs)) none [] [] s.mem.length hi r L := by
  obtain ⟨ext, ht, e⟩ := newDocument_spec (.inr ⟨kvs, rfl⟩) voc s
  rw [e] at h1
  cases h1
  generalize hs1 : ({ s with mem := s.mem ++ ext, docs := s.docs ++ [⟨s.mem.length, false, voc, [], none⟩] } : St) = s1
  have hm : s1.mem = s.mem ++ ext := by rw [← hs1]
  have hd : s1.docs[s.docs.length]? = some ⟨s.mem.length, false, voc, [], none⟩ := by rw [← hs1]; simp
  have hf : Fresh s.docs.length s1 := by
    refine ⟨⟨_, hd, rfl⟩, fun t e he => ?_⟩
    rw [← hs1] at he ⊢
    obtain ⟨x, hx, hr⟩ := hst t e he
    exact ⟨x, docs_append hx, hr⟩
  rw [← hm] at ht
  obtain ⟨c, hc, hpar, hkey⟩ := ht.slots
  have hroot : RootAt s1 s.mem.length (kvs.map Prod.fst) := by
    have ht' := ht
    rw [wrap, Tree] at ht'
    obtain ⟨ids, h1, h2⟩ := ht'
    refine ⟨_, ids, h1, rfl, ?_⟩
    rw [h2.keys, wrapDict_eq_map, List.map_map]; rfl
  have hlen : s1.mem.length = s.mem.length + ext.length := by rw [hm]; simp
  obtain ⟨r, s3, h3, q3⟩ := process_runs E (base := s.mem.length + ext.length) (wrap (.dict kvs)) ht (Up.top hc hpar) hroot (Nat.le_refl _) (Nat.le_refl _) (by omega) hf hl
  obtain ⟨f3, e3⟩ := h3.elim
  obtain ⟨fr, L, hdone, ha⟩ := process_done (base := s.mem.length + ext.length) (wrap (.dict kvs)) ht (Up.top hc hpar) hroot (Nat.le_refl _) (Nat.le_refl _) (by omega) hf e3
  obtain ⟨y, hy, -⟩ := fr.docs _ _ hd
  refine ⟨s.mem.length + ext.length, r, L, { s3 with docs := s3.docs.set s.docs.length { y with value := r, ready := true } }, { y with value := r, ready := true },
    Runs.shift (g := fun f => loadS (ops E f) s.docs.length) ?_ (fun f => rfl), rfl, ?_, ?_, ?_, ?_, ?_, rfl, rfl, ?_, hdone⟩
  · unfold loadS
    refine Runs.bind (.const (schema_apply hd)) ?_
    simp only [Bool.false_eq_true, if_false, hvoc]
    exact Runs.bind h3 (Runs.bind (.const (schema_apply hy)) (.const rfl))
  · change s3.storage = _; rw [q3.1, ← hs1]
  · simp only [List.length_set]; rw [q3.2, ← hs1]; simp
  · intro j hj
    change s3.mem[j]? = _
    rw [fr.mem j (by omega) (.inl hj), hm, List.getElem?_append_left hj]
  · intro e z hz
    have hlt := (List.getElem?_eq_some_iff.1 hz).1
    obtain ⟨z', h1, -, -, -, h2⟩ := fr.docs e z (by rw [← hs1]; exact docs_append hz)
    rw [h2 (by omega)] at h1
    change (s3.docs.set _ _)[e]? = _
    rw [List.getElem?_set_ne (by omega)]; exact h1
  · exact List.getElem?_set_self (List.getElem?_eq_some_iff.1 hy).1
  · have e1 : anch s.docs.length s3 = y.anchors := by unfold anch; rw [hy]
    have e2 : anch s.docs.length s1 = [] := by unfold anch; rw [hd]
    change y.anchors = _
    rw [← e1, ha, e2]

/-- A document that refers only to itself loads. -/
theorem load_runs {s s1 : St} {kvs : List (Str × Val)} {voc : List Kw}
    (hvoc : (voc.filter fun k => !k.isAssertion) = [.ref, .anchor, .id])
    (hst : ∀ (t : Str) (e : Nat), dictGet t s.storage = some e → ∃ x, s.docs[e]? = some x ∧ x.ready = false)
    {d : Nat} (h1 : newDocument (.dict kvs) voc s = (.ok d, s1)) (hl : LocalDoc E.ip (wrap (.dict kvs))) :
    ∃ s2, Runs (fun f => (ops E f).load d) s1 (.ok ()) s2 := by
  obtain ⟨_, _, _, s2, _, h, -⟩ := load_full E hvoc hst h1 hl
  exact ⟨s2, h⟩

end Verif.Obj
