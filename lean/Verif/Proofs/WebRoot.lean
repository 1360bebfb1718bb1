import Verif.Proofs.WebLoad
/-! # Loading documents in any order -/

namespace Verif.Obj
open Verif Verif.Spec

variable {E : Env} {d : Nat} {data data' data'' : List (List (Str × Val))} {A A' A'' : Nat → Nat → Prop} {lib : Str → List (Str × Val) → Prop}

/-- The root, which may have a name. -/
theorem root_next {kvs : List (Str × Node)} {k : Str} {lo hi : Nat} {x : Schema} {s : St}
    (ht : Tree s.mem (.obj kvs) none k lo hi) (hA : ∀ j, lo ≤ j → j < hi → A d j) (hhi : hi ≤ s.mem.length) (hs : Doing E.ip d data A x s)
    (hl : LinkedRoot E.ip (NextRef E lib data s) kvs) :
    ∃ r data' A' s4 L i, Gone E lib d lo hi x data A s data' A' s4 L ∧
      Runs (fun f => (ops E f).process d [.ref, .anchor, .id] lo) s (.ok r)
        { s4 with docs := s4.docs.set d { x with anchors := register L x.anchors, ident := i }, storage := named E.ip s4.storage d kvs } ∧
      CoreObject (Known E.ip s4.storage) kvs ∧ LinkedD (Known E.ip s4.storage) kvs ∧
      ShowsOn (A' d) s4.mem (resolveIn E.ip (refDoc E.ip s4.storage d) (.obj kvs)) r ∧
      ShowsDOn (A' d) s4.mem (anchoredIn E.ip (refDoc E.ip s4.storage d) (.obj kvs)) L := by
  rcases hl.name with hn | ⟨hR, t, htx, u, hu, hfr, habs⟩
  · have hnone : ∀ store, named E.ip store d kvs = store := by
      intro store
      have : dictHas c!"$id" kvs = false := by rw [Bool.eq_false_iff]; intro e; exact hn.1 (dictHas_iff.1 e)
      simp only [named, nameOf, nameKey, this, Bool.false_eq_true, if_false, dictGet_none hn.2]
    obtain ⟨r, data', A', s', L, a⟩ := process_next (.obj kvs) ht hA hhi hs (by rw [Linked]; exact ⟨hn, hl.core, hl.kids⟩)
    have hkn := a.known
    rw [Linked] at hkn
    refine ⟨r, data', A', s', L, x.ident, a.toGone, ?_, hkn.2.1, hkn.2.2, a.shows.keep (fun j hj => hj.1) fun _ _ => rfl, a.anchors.keep (fun j hj => hj.1) fun _ _ => rfl⟩
    have he : s'.docs.set d { x with anchors := register L x.anchors, ident := x.ident } = s'.docs := set_self a.doing.self
    rw [he, hnone]; exact a.runs
  · have hlt := ht.lt
    rw [Tree] at ht; obtain ⟨ids, h1, h2⟩ := ht
    obtain ⟨ids', data', A', s3, L, hk⟩ := kids_next kvs h2 (fun j a b => hA j (by omega) b) hhi hs hl.kids
    obtain ⟨-, hB⟩ := object_next hs h1 hA hlt hhi hk hl.core
    obtain ⟨s4, a1, a2, a3, a3', a4, a5, a6, a7⟩ := hB hR
    have hkeys : ids'.map Prod.fst = kvs.map Prod.fst := by rw [a5.keys, resolveInD_keys]
    obtain ⟨b, hb⟩ : ∃ b, Uri.baseUri E.ip u = .ok b := ⟨_, Uri.baseUri_eq _ _⟩
    have hbt : Store.baseText E.ip u = .ok (Uri.text b) := by unfold Store.baseText; rw [hb]; rfl
    have hname : nameOf E.ip kvs = some (Uri.text b) := by simp only [nameOf, htx, hu, hbt]
    have hself4 := a2.doing.self
    have hmem := members_runs E a4 rfl
    have hhas : ∀ key, key ≠ c!"$anchor" → dictHas key (dictDel c!"$anchor" ids') = dictHas key kvs := by
      intro key hne
      rw [Bool.eq_iff_iff, dictHas_iff, dictHas_iff, mem_del hne, hkeys]
    have hidt : Runs (fun f => idText E (ops E f) lo) s4 (.ok t) s4 := by
      obtain ⟨y, q, p, hy, hyc⟩ := a5.text htx
      unfold idText
      refine Runs.bind hmem ?_
      rw [hhas _ (by decide)]
      have hget : ∀ key, key ≠ c!"$anchor" → dictGet key (dictDel c!"$anchor" ids') = dictGet key ids' := by
        intro key hne
        exact get_del hne ids'
      cases hI : dictHas c!"$id" kvs with
      | true =>
        simp only [nameKey, hI, if_true] at hy ⊢
        exact itemText_runs E hmem (by rw [hget _ (by decide)]; exact hy) hyc
      | false =>
        simp only [nameKey, hI, Bool.false_eq_true, if_false] at hy ⊢
        exact itemText_runs E hmem (by rw [hget _ (by decide)]; exact hy) hyc
    have hany : (Kw.id.keys.any fun x => dictHas x (dictDel c!"$anchor" ids')) = true := by
      have : dictHas (nameKey kvs) kvs = true := by rw [dictHas_iff]; exact List.mem_map.2 ⟨_, dictGet_mem htx, rfl⟩
      rw [any_id, mem_del (by decide), mem_del (by decide), hkeys]
      unfold nameKey at this
      split at this
      · exact .inl (dictHas_iff.1 this)
      · exact .inr (dictHas_iff.1 this)
    generalize hs5 : ({ s4 with docs := s4.docs.set d { x with anchors := register (L ++ anchorAt kvs lo) x.anchors, ident := some u } } : St) = s5
    have hst5 : s5.storage = s4.storage := by rw [← hs5]
    have hrun : Runs (fun f => applyCore E (ops E f) d lo .id) s4 (.ok lo) { s5 with storage := named E.ip s4.storage d kvs } := by
      change Runs (fun f => applyId E (ops E f) d lo) _ _ _
      unfold applyId
      refine Runs.bind hidt ?_
      refine Runs.bind (a := u) (s1 := s4) (.const (by rw [hu]; rfl)) ?_
      simp only [hfr, ne_eq, not_true_eq_false, if_false]
      refine Runs.bind (.const (cell_apply a4)) ?_
      simp only
      refine Runs.bind (.const (schema_apply hself4)) ?_
      refine Runs.bind (a := ()) (s1 := s5) (.const (by rw [← hs5]; rfl)) ?_
      refine Runs.bind (a := Uri.text b) (s1 := s5) (.const (by rw [hbt]; rfl)) ?_
      refine Runs.bind (.const (state_apply s5)) ?_
      rw [hst5]
      cases hh : dictHas (Uri.text b) s4.storage with
      | true =>
        simp only [if_true, named, hname, hh]
        refine .const ?_
        rw [← hst5]; rfl
      | false =>
        simp only [named, hname, hh, Bool.false_eq_true, if_false]
        refine Runs.bind (a := ()) (.const ?_) .pure
        unfold storeAdd
        rw [M.bind_ok (show (lift (Uri.isAbsolute E.ip u) : M Bool) s5 = (.ok true, s5) by rw [habs]; rfl)]
        rw [if_pos rfl, M.bind_ok (show (lift (Store.baseText E.ip u) : M Str) s5 = (.ok (Uri.text b), s5) by rw [hbt]; rfl), M.bind_ok (state_apply s5), hst5]
        rfl
    refine ⟨lo, data', A', s4, L ++ anchorAt kvs lo, some u, a2, ?_, a3, a3', a6.keep (fun j hj => hj.1) fun _ _ => rfl, a7.keep (fun j hj => hj.1) fun _ _ => rfl⟩
    have := a1 _ _ (applyAll_apply E hmem hany hrun (applyAll_nil E))
    rw [← hs5] at this
    exact this

/-- What loading the document `d` does to the rest. -/
structure Step (E : Env) (lib : Str → List (Str × Val) → Prop) (d : Nat) (data : List (List (Str × Val))) (s : St) (data' : List (List (Str × Val))) (s' : St) : Prop where
  keyed : ∀ e kvs, data'[e]? = some kvs → data[e]? = some kvs ∨ ∃ k, dictGet k s'.storage = some e ∧ lib k kvs
  data : ∃ more, data' = data ++ more
  ready : ∃ x : Schema, s'.docs[d]? = some x ∧ x.ready = true
  docs : ∀ (e : Nat) (x : Schema), e ≠ d → s.docs[e]? = some x → s'.docs[e]? = some x
  fresh : ∀ (e : Nat) (x : Schema), s.docs.length ≤ e → s'.docs[e]? = some x → x.ready = false
  store : ∀ k e, dictGet k s.storage = some e → dictGet k s'.storage = some e
  new : ∀ k e, dictGet k s'.storage = some e → dictGet k s.storage = some e ∨ (s.docs.length ≤ e ∧ ∃ kvs, data'[e]? = some kvs ∧ lib k kvs) ∨
    (e = d ∧ ∃ kvs, data'[e]? = some kvs ∧ nameOf E.ip (wrapDict kvs) = some k)
  room : s'.docs.length + s.storage.length ≤ s.docs.length + s'.storage.length
  nodup : (s.storage.map Prod.fst).Nodup → (s'.storage.map Prod.fst).Nodup
  voc : ∀ v, (∀ y ∈ s.docs, y.vocabulary = v) → ∀ y ∈ s'.docs, y.vocabulary = v

/-- Loading a document all references of which can be loaded. -/
theorem load_next {s : St} (hw : Web E.ip none data A s) {x : Schema} (hx : s.docs[d]? = some x) (hr : x.ready = false) {kvs : List (Str × Val)} (hd : data[d]? = some kvs)
    (hl : LinkedRoot E.ip (NextRef E lib data s) (wrapDict kvs)) :
    ∃ data' A' s', Runs (fun f => (ops E f).load d) s (.ok ()) s' ∧ Web E.ip none data' A' s' ∧ Step E lib d data s data' s' ∧
      ∀ e j, e ≠ d → A e j → s'.mem[j]? = s.mem[j]? := by
  obtain ⟨hcore, ⟨h0, -⟩ | ⟨-, hanch, hi, ht, hB⟩⟩ := hw.doc d x kvs hx hd (by simp)
  · rw [hr] at h0; cases h0
  have hs : Doing E.ip d data A x s := ⟨⟨hw.length, fun e y v h1 h2 _ => hw.doc e y v h1 h2 (by simp), hw.apart, hw.room, hw.store⟩, hx, hr, hcore⟩
  have hlt := hs.lt
  have hhi : hi ≤ s.mem.length := by
    have := ht.lt
    have := (hw.room d (hi - 1) (hB _ (by omega) (by omega))).1
    omega
  obtain ⟨r, data', A', s4, L, i, hg, h1, h2, h3, h4, h5⟩ := root_next ht hB hhi hs hl
  have hlt4 := hg.doing.lt
  have hlen4 := hg.doing.web.length
  have hnamed : ∀ k e, dictGet k s4.storage = some e → dictGet k (named E.ip s4.storage d (wrapDict kvs)) = some e := by
    intro k e he
    unfold named
    split
    · split
      · exact he
      · rename_i k' _ hh
        rw [dictGet_set, if_neg ?_]; exact he
        rintro rfl
        exact hh (dictHas_iff.2 (List.mem_map.2 ⟨_, dictGet_mem he, rfl⟩))
    · exact he
  have hback : ∀ k e, dictGet k (named E.ip s4.storage d (wrapDict kvs)) = some e → dictGet k s4.storage = some e ∨ (e = d ∧ nameOf E.ip (wrapDict kvs) = some k) := by
    intro k e he
    unfold named at he
    split at he
    · split at he
      · exact .inl he
      · rename_i k' hk' hh
        rw [dictGet_set] at he
        split at he
        · rename_i hkk
          cases he; exact .inr ⟨rfl, by rw [hk', hkk]⟩
        · exact .inl he
    · exact .inl he
  have hnod : (s4.storage.map Prod.fst).Nodup → ((named E.ip s4.storage d (wrapDict kvs)).map Prod.fst).Nodup := by
    intro h
    unfold named
    split
    · split
      · exact h
      · exact keys_nodup h
    · exact h
  have hnlen : s4.storage.length ≤ (named E.ip s4.storage d (wrapDict kvs)).length := by
    unfold named
    split
    · split
      · exact Nat.le_refl _
      · rename_i k' _ _
        have h : (s4.storage.map Prod.fst).length ≤ ((dictSet k' d s4.storage).map Prod.fst).length := by
          rw [keys_set]; split <;> simp
        simpa using h
    · exact Nat.le_refl _
  have hsch2 : (s4.docs.set d { x with anchors := register L x.anchors, ident := i })[d]? = some { x with anchors := register L x.anchors, ident := i } :=
    List.getElem?_set_self hlt4
  obtain ⟨more, hmore⟩ := hg.grow.data
  have hd' : data'[d]? = some kvs := by
    rw [hmore, List.getElem?_append_left (List.getElem?_eq_some_iff.1 hd).1]; exact hd
  refine ⟨data', A', { s4 with docs := s4.docs.set d ⟨r, true, x.vocabulary, register L x.anchors, i⟩, storage := named E.ip s4.storage d (wrapDict kvs) },
    Runs.shift (g := fun f => loadS (ops E f) d) ?_ (fun f => rfl), ⟨by simpa using hlen4, fun e y v hy hv _ => ?_, hg.doing.web.apart, hg.doing.web.room, fun k e he => ?_⟩,
    ⟨fun e v hv => ?_, hg.grow.data, ⟨_, List.getElem?_set_self hlt4, rfl⟩, fun e y he hy => ?_, fun e y he hy => ?_, fun k e he => hnamed k e (hg.grow.store k e he), fun k e he => ?_, ?_,
      fun h => hnod (hg.grow.nodup h), fun v h y hy => ?_⟩, fun e j he hj => ?_⟩
  · unfold loadS
    refine Runs.bind (.const (schema_apply hx)) ?_
    simp only [hr, Bool.false_eq_true, if_false, hcore]
    refine Runs.bind h1 (Runs.bind (.const (schema_apply hsch2)) (.const ?_))
    simp only [setSchema, List.set_set]
  · by_cases hed : e = d
    · subst hed
      change (s4.docs.set _ _)[_]? = _ at hy
      rw [List.getElem?_set_self hlt4] at hy
      rw [hd'] at hv
      cases hy; cases hv
      refine ⟨hcore, .inl ⟨rfl, h2.mono fun t ht => ht.mono hnamed, LinkedD.mono (fun t ht => ht.mono hnamed) _ h3, ?_, ?_⟩⟩
      · rw [wrap, ← docIn_congr (fun t ht => refDoc_known hnamed e ht) h2 h3]
        exact h4
      · rw [wrap, ← docIn_congr (fun t ht => refDoc_known hnamed e ht) h2 h3]
        intro m' e'
        rw [hanch]
        exact (h5 m' e').fold (by rw [ShowsD])
    · change (s4.docs.set _ _)[_]? = _ at hy
      rw [List.getElem?_set_ne (Ne.symm hed)] at hy
      exact (hg.doing.web.doc e y v hy hv (by simpa using Ne.symm hed)).keep hnamed (fun j h => h) fun j _ => rfl
  · rcases hback k e he with h | ⟨rfl, -⟩
    · exact hg.doing.web.store k e h
    · exact (List.getElem?_eq_some_iff.1 hd').1
  · rcases hg.grow.keyed e v hv with h | ⟨k, h, hl⟩
    · exact .inl h
    · exact .inr ⟨k, hnamed k e h, hl⟩
  · change (s4.docs.set _ _)[_]? = _
    rw [List.getElem?_set_ne (Ne.symm he)]
    exact hg.grow.docs e y he hy
  · change (s4.docs.set _ _)[_]? = _ at hy
    rw [List.getElem?_set_ne (by omega)] at hy
    exact hg.grow.fresh e y he hy
  · rcases hback k e he with h | ⟨rfl, h⟩
    · rcases hg.grow.new k e h with h | h
      · exact .inl h
      · exact .inr (.inl h)
    · exact .inr (.inr ⟨rfl, kvs, hd', h⟩)
  · have := hg.grow.room
    simp only [List.length_set]; omega
  · rcases List.mem_or_eq_of_mem_set hy with hy | rfl
    · exact hg.grow.voc v h y hy
    · exact h x (List.mem_of_getElem? hx)
  · refine hg.within.mem j (hw.room e j hj).1 ?_
    by_cases hin : x.value ≤ j ∧ j < hi
    · exact absurd (hw.apart e d j hj (hB j hin.1 hin.2)) he
    · omega

/-- All documents are loaded. -/
theorem Web.mirrors {ip : Rfc3986.IpRe} {s : St} (hw : Web ip none data A s) (hr : ∀ x ∈ s.docs, x.ready = true) : Mirrors s (docsIn ip s.storage data) := by
  refine ⟨by simp [docsIn, hw.length], fun d x D hx hD => ?_⟩
  unfold docsIn at hD
  rw [List.getElem?_mapIdx] at hD
  cases hk : data[d]? with
  | none => rw [hk] at hD; cases hD
  | some kvs =>
    rw [hk] at hD
    cases hD
    have hrx := hr x (List.mem_of_getElem? hx)
    obtain ⟨-, ⟨-, -, -, h4, h5⟩ | ⟨h0, -⟩⟩ := hw.doc d x kvs hx hk (by simp)
    · exact ⟨hrx, h4.shows, h5.shows⟩
    · rw [hrx] at h0; cases h0

/-- One more document, not loaded, and perhaps an identifier for it. -/
theorem Web.new {ip : Rfc3986.IpRe} {s : St} (hw : Web ip none data A s) {voc : List Kw} (hvoc : (voc.filter fun k => !k.isAssertion) = [.ref, .anchor, .id])
    {kvs : List (Str × Val)} {ext : Mem} (ht : Tree (s.mem ++ ext) (.obj (wrapDict kvs)) none [] s.mem.length (s.mem.length + ext.length)) {store : List (Str × Nat)}
    (hstore : ∀ k e, dictGet k s.storage = some e → dictGet k store = some e) (hnew : ∀ k e, dictGet k store = some e → dictGet k s.storage = some e ∨ e = s.docs.length) :
    ∃ A', Web ip none (data ++ [kvs]) A' ⟨s.mem ++ ext, s.docs ++ [⟨s.mem.length, false, voc, [], none⟩], store⟩ := by
  have hlen := hw.length
  refine ⟨fun e j => A e j ∨ (e = s.docs.length ∧ s.mem.length ≤ j ∧ j < s.mem.length + ext.length),
    by simp [hlen], fun e y v hy hv hc => ?_, fun e f j h1 h2 => ?_, fun e j h => ?_, fun k' e he => ?_⟩
  · by_cases he : e < s.docs.length
    · change (s.docs ++ _)[e]? = _ at hy
      rw [List.getElem?_append_left he] at hy
      rw [List.getElem?_append_left (by omega)] at hv
      refine (hw.doc e y v hy hv hc).keep hstore (fun j h => .inl h) fun j h => ?_
      exact List.getElem?_append_left (hw.room e j h).1
    · change (s.docs ++ _)[e]? = _ at hy
      have := (List.getElem?_eq_some_iff.1 hy).1
      simp only [List.length_append, List.length_singleton] at this
      obtain rfl : e = s.docs.length := by omega
      simp only [List.getElem?_concat_length, Option.some.injEq] at hy
      rw [← hlen] at hv
      simp only [List.getElem?_concat_length, Option.some.injEq] at hv
      subst hy hv
      exact ⟨hvoc, .inr ⟨rfl, rfl, s.mem.length + ext.length, ht, fun j a b => .inr ⟨rfl, a, b⟩⟩⟩
  · rcases h1 with h1 | ⟨rfl, h1, h1'⟩ <;> rcases h2 with h2 | ⟨rfl, h2, h2'⟩
    · exact hw.apart e f j h1 h2
    · have := (hw.room e j h1).1; omega
    · have := (hw.room f j h2).1; omega
    · rfl
  · change j < (s.mem ++ ext).length ∧ _
    simp only [List.length_append, List.length_singleton]
    rcases h with h | ⟨rfl, h, h'⟩
    · have := hw.room e j h; omega
    · omega
  · simp only [List.length_append, List.length_singleton]
    rcases hnew k' e he with h | h
    · have := hw.store k' e h; omega
    · omega

/-- What holds in every state reached. -/
structure WebHolds (E : Env) (voc : List Kw) (lib : Str → List (Str × Val) → Prop) (made : List (Nat × List (Str × Val))) (data : List (List (Str × Val)))
    (A : Nat → Nat → Prop) (s : St) : Prop where
  web : Web E.ip none data A s
  stored : ∀ k e, dictGet k s.storage = some e → ∃ kvs, data[e]? = some kvs ∧ lib k kvs
  created : ∀ d kvs, (d, kvs) ∈ made → data[d]? = some kvs ∧ WebDoc E.ip E.file lib kvs
  origin : ∀ (d : Nat) kvs, data[d]? = some kvs → (d, kvs) ∈ made ∨ ∃ k, dictGet k s.storage = some d ∧ lib k kvs
  room : s.docs.length ≤ made.length + s.storage.length
  nodup : (s.storage.map Prod.fst).Nodup
  words : ∀ y ∈ s.docs, y.vocabulary = voc

variable {voc : List Kw} {made : List (Nat × List (Str × Val))}

theorem WebHolds.doc (hlib : ∀ k kvs, lib k kvs → WebDoc E.ip E.file lib kvs) {s : St} (h : WebHolds E voc lib made data A s) {d : Nat} {kvs : List (Str × Val)}
    (hd : data[d]? = some kvs) : WebDoc E.ip E.file lib kvs := by
  rcases h.origin d kvs hd with h' | ⟨k, -, h'⟩
  · exact (h.created d kvs h').2
  · exact hlib k kvs h'

/-- Every reference can be loaded. -/
theorem WebHolds.next {s : St} (h : WebHolds E voc lib made data A s) {t : Str} (ht : WebRef E.ip E.file lib t) : NextRef E lib data s t := by
  rcases ht with ht | ⟨u, k, ptr, kvs, h1, h2, h3, h4, h5, h6, h7⟩
  · exact .inl ht
  refine .inr ⟨u, k, ptr, h1, h2, h3, h4, ?_⟩
  cases hs : dictGet k s.storage with
  | none => exact .inr ⟨rfl, kvs, h5, h6⟩
  | some e =>
    refine .inl ⟨e, rfl, fun x kvs' _ _ hk link => ?_⟩
    obtain ⟨v, hv, hl⟩ := h.stored k e hs
    rw [hk] at hv; cases hv
    exact h7 _ hl link

theorem WebHolds.load (hlib : ∀ k kvs, lib k kvs → WebDoc E.ip E.file lib kvs) {s : St} (h : WebHolds E voc lib made data A s) {d : Nat} (hd : d < s.docs.length) :
    ∃ data' A' s', Runs (fun f => (ops E f).load d) s (.ok ()) s' ∧ WebHolds E voc lib made data' A' s' ∧ (∃ x : Schema, s'.docs[d]? = some x ∧ x.ready = true) ∧
      (∀ (e : Nat) (x : Schema), s.docs[e]? = some x → x.ready = true → s'.docs[e]? = some x) ∧ (∀ k e, dictGet k s.storage = some e → dictGet k s'.storage = some e) ∧
      (∀ (e j : Nat) (x : Schema), s.docs[e]? = some x → x.ready = true → A e j → s'.mem[j]? = s.mem[j]?) ∧ s.docs.length ≤ s'.docs.length := by
  have hlen := h.web.length
  obtain ⟨x, hx⟩ : ∃ x, s.docs[d]? = some x := ⟨_, List.getElem?_eq_getElem hd⟩
  obtain ⟨kvs, hk⟩ : ∃ kvs, data[d]? = some kvs := ⟨_, List.getElem?_eq_getElem (by omega)⟩
  cases hr : x.ready with
  | true => exact ⟨data, A, s, .next fun f => load_again hx hr, h, ⟨x, hx, hr⟩, fun _ _ h _ => h, fun _ _ h => h, fun _ _ _ _ _ _ => rfl, Nat.le_refl _⟩
  | false =>
    obtain ⟨data', A', s', h1, h2, h3, h4⟩ := load_next (lib := lib) h.web hx hr hk ((h.doc hlib hk).root.mono fun t ht => h.next ht)
    obtain ⟨more, hmore⟩ := h3.data
    have hold : ∀ (e : Nat) kvs, data[e]? = some kvs → data'[e]? = some kvs := fun e v hv => by
      rw [hmore, List.getElem?_append_left (List.getElem?_eq_some_iff.1 hv).1]; exact hv
    refine ⟨data', A', s', h1, ⟨h2, fun k e he => ?_, fun d v hv => ⟨hold d v (h.created d v hv).1, (h.created d v hv).2⟩, fun e v hv => ?_, ?_, h3.nodup h.nodup, h3.voc _ h.words⟩,
      h3.ready, fun e y hy hry => h3.docs e y (by rintro rfl; rw [hx] at hy; cases hy; rw [hr] at hry; cases hry) hy, h3.store,
      fun e j y hy hry hj => h4 e j (by rintro rfl; rw [hx] at hy; cases hy; rw [hr] at hry; cases hry) hj,
      by rw [← h.web.length, ← h2.length, hmore]; simp⟩
    · rcases h3.new k e he with h' | ⟨-, h'⟩ | ⟨rfl, v, hv, hn⟩
      · obtain ⟨v, hv, hl⟩ := h.stored k e h'
        exact ⟨v, hold e v hv, hl⟩
      · exact h'
      · refine ⟨v, hv, ?_⟩
        rw [hold _ _ hk] at hv; cases hv
        exact (h.doc hlib hk).name k hn
    · rcases h3.keyed e v hv with h' | h'
      · rcases h.origin e v h' with h' | ⟨k, h', hl⟩
        · exact .inl h'
        · exact .inr ⟨k, h3.store k e h', hl⟩
      · exact .inr h'
    · have := h3.room
      have := h.room
      omega

theorem WebHolds.create {s : St} (h : WebHolds E voc lib made data A s) (hvoc : (voc.filter fun k => !k.isAssertion) = [.ref, .anchor, .id]) {kvs : List (Str × Val)}
    (hk : WebDoc E.ip E.file lib kvs) : ∃ A' s', newDocument (.dict kvs) voc s = (.ok data.length, s') ∧ WebHolds E voc lib ((data.length, kvs) :: made) (data ++ [kvs]) A' s' := by
  obtain ⟨ext, ht, e⟩ := newDocument_spec (.inr ⟨kvs, rfl⟩) voc s
  have hlen := h.web.length
  rw [wrap] at ht
  obtain ⟨A', hw⟩ := h.web.new hvoc ht (fun _ _ h => h) (fun _ _ h => .inl h)
  refine ⟨A', _, by rw [hlen]; exact e, hw, fun k e he => ?_, fun d v hv => ?_, fun d v hv => ?_, ?_, h.nodup, fun y hy => ?_⟩
  · obtain ⟨v, hv, hl⟩ := h.stored k e he
    exact ⟨v, by rw [List.getElem?_append_left (List.getElem?_eq_some_iff.1 hv).1]; exact hv, hl⟩
  · rcases List.mem_cons.1 hv with hv | hv
    · cases hv; exact ⟨by simp, hk⟩
    · obtain ⟨a, b⟩ := h.created d v hv
      exact ⟨by rw [List.getElem?_append_left (List.getElem?_eq_some_iff.1 a).1]; exact a, b⟩
  · by_cases hd : d < data.length
    · rw [List.getElem?_append_left hd] at hv
      rcases h.origin d v hv with h' | h'
      · exact .inl (List.mem_cons_of_mem _ h')
      · exact .inr h'
    · have := (List.getElem?_eq_some_iff.1 hv).1
      simp only [List.length_append, List.length_singleton] at this
      obtain rfl : d = data.length := by omega
      simp only [List.getElem?_concat_length, Option.some.injEq] at hv
      subst hv
      exact .inl (by simp)
  · have := h.room
    simp only [List.length_append, List.length_cons, List.length_nil]; omega
  · simp only [List.mem_append, List.mem_singleton] at hy
    rcases hy with hy | rfl
    · exact h.words y hy
    · rfl

theorem WebHolds.find {s : St} (h : WebHolds E voc lib made data A s) (hvoc : (voc.filter fun k => !k.isAssertion) = [.ref, .anchor, .id]) {u : Uri} {k : Str}
    {kvs : List (Str × Val)} (hb : Store.baseText E.ip u = .ok k) (hf : E.file u = .ok (.dict kvs)) (hl : lib k kvs) :
    ∃ d data' A' s', storeLoad E u voc s = (.ok d, s') ∧ WebHolds E voc lib made data' A' s' ∧ dictGet k s'.storage = some d := by
  have hbt : (lift (Store.baseText E.ip u) : M Str) s = (.ok k, s) := by rw [hb]; rfl
  cases hs : dictGet k s.storage with
  | some e =>
    refine ⟨e, data, A, s, ?_, h, hs⟩
    unfold storeLoad
    rw [M.bind_ok hbt, M.bind_ok (state_apply s)]
    simp only [hs]; rfl
  | none =>
    obtain ⟨ext, ht, e⟩ := newDocument_spec (.inr ⟨kvs, rfl⟩) voc s
    have hlen := h.web.length
    rw [wrap] at ht
    have hstore : ∀ k' e, dictGet k' s.storage = some e → dictGet k' (dictSet k s.docs.length s.storage) = some e := by
      intro k' e he
      by_cases hkk : k = k'
      · subst hkk; rw [hs] at he; cases he
      · rw [dictGet_set, if_neg hkk]; exact he
    have hnew : ∀ k' e, dictGet k' (dictSet k s.docs.length s.storage) = some e → dictGet k' s.storage = some e ∨ (e = s.docs.length ∧ k = k') := by
      intro k' e he
      by_cases hkk : k = k'
      · subst hkk; rw [dictGet_set, if_pos rfl] at he; cases he; exact .inr ⟨rfl, rfl⟩
      · rw [dictGet_set, if_neg hkk] at he; exact .inl he
    obtain ⟨A', hw⟩ := h.web.new hvoc ht hstore (fun k' e he => (hnew k' e he).imp id And.left)
    have hget : dictGet k (dictSet k s.docs.length s.storage) = some s.docs.length := by rw [dictGet_set, if_pos rfl]
    refine ⟨s.docs.length, data ++ [kvs], A', _, ?_, ⟨hw, fun k' e he => ?_, fun d v hv => ?_, fun d v hv => ?_, ?_, keys_nodup h.nodup, fun y hy => ?_⟩, hget⟩
    · unfold storeLoad
      rw [M.bind_ok hbt, M.bind_ok (state_apply s)]
      simp only [hs, hf]
      rw [M.bind_ok e, M.bind_ok (state_apply _)]
      rfl
    · rcases hnew k' e he with h' | ⟨rfl, rfl⟩
      · obtain ⟨v, hv, hl⟩ := h.stored k' e h'
        exact ⟨v, by rw [List.getElem?_append_left (List.getElem?_eq_some_iff.1 hv).1]; exact hv, hl⟩
      · exact ⟨kvs, by rw [← hlen]; simp, hl⟩
    · obtain ⟨a, b⟩ := h.created d v hv
      exact ⟨by rw [List.getElem?_append_left (List.getElem?_eq_some_iff.1 a).1]; exact a, b⟩
    · by_cases hd : d < data.length
      · rw [List.getElem?_append_left hd] at hv
        rcases h.origin d v hv with h' | ⟨k', h', hl'⟩
        · exact .inl h'
        · exact .inr ⟨k', hstore k' d h', hl'⟩
      · have := (List.getElem?_eq_some_iff.1 hv).1
        simp only [List.length_append, List.length_singleton] at this
        obtain rfl : d = data.length := by omega
        simp only [List.getElem?_concat_length, Option.some.injEq] at hv
        subst hv
        exact .inr ⟨k, by rw [hlen]; exact hget, hl⟩
    · have := h.room
      have hl : (dictSet k s.docs.length s.storage).length = s.storage.length + 1 := by
        have h : ((dictSet k s.docs.length s.storage).map Prod.fst).length = (s.storage.map Prod.fst).length + 1 := by
          rw [keys_set, if_neg (Verif.dictGet_none.1 hs)]; simp
        simpa using h
      simp only [List.length_append, List.length_singleton, hl]; omega
    · simp only [List.mem_append, List.mem_singleton] at hy
      rcases hy with hy | rfl
      · exact h.words y hy
      · rfl

/-- All of it, in every state reached. -/
theorem reached_holds (hvoc : (voc.filter fun k => !k.isAssertion) = [.ref, .anchor, .id]) (hlib : ∀ k kvs, lib k kvs → WebDoc E.ip E.file lib kvs) {s : St}
    (h : Reached E voc lib made s) : ∃ data A, WebHolds E voc lib made data A s := by
  induction h with
  | empty =>
    refine ⟨[], fun _ _ => False, ⟨rfl, fun d x kvs h => by simp [St.empty] at h, fun _ _ _ h => h.elim, fun _ _ h => h.elim, fun k e h => by simp [St.empty, dictGet] at h⟩,
      fun k e h => by simp [St.empty, dictGet] at h, fun d kvs h => by simp at h, fun d kvs h => by simp at h, by simp [St.empty], by simp [St.empty], fun y hy => by simp [St.empty] at hy⟩
  | create _ fit call ih =>
    obtain ⟨data, A, h⟩ := ih
    obtain ⟨A', s', h1, h2⟩ := h.create hvoc fit
    rw [call] at h1; cases h1
    exact ⟨_, A', h2⟩
  | find _ name file fit call ih =>
    obtain ⟨data, A, h⟩ := ih
    obtain ⟨d, data', A', s', h1, h2, -⟩ := h.find hvoc name file fit
    rw [call] at h1; cases h1
    exact ⟨data', A', h2⟩
  | load _ there call ih =>
    obtain ⟨data, A, h⟩ := ih
    obtain ⟨data', A', s', h1, h2, -⟩ := h.load hlib there
    obtain ⟨-, rfl⟩ := Runs.det call h1
    exact ⟨data', A', h2⟩

end Verif.Obj
