import Verif.Proofs.WebRef
/-! # Loading a document whose references lead to documents which are not loaded -/

namespace Verif.Obj
open Verif Verif.Spec

variable {E : Env} {d : Nat} {data data' data'' : List (List (Str × Val))} {A A' A'' : Nat → Nat → Prop} {lib : Str → List (Str × Val) → Prop}

theorem known_local {ip : Rfc3986.IpRe} {t : Str} (h : LocalRef ip t) (store : List (Str × Nat)) : Known ip store t := by
  obtain ⟨u, b, ptr, h1, h2, h3, h4⟩ := h
  intro u' k hu hb hk
  rw [h1] at hu; cases hu
  unfold Store.baseText at hb
  rw [h3, Res.ok_bind, (Uri.truth_text b).1 h4] at hb
  cases hb; exact absurd rfl hk

theorem known_some {ip : Rfc3986.IpRe} {t : Str} {u : Uri} {k : Str} {store : List (Str × Nat)} {e : Nat} (h1 : Uri.parse ip t = .ok u) (h3 : Store.baseText ip u = .ok k)
    (he : dictGet k store = some e) : Known ip store t := by
  intro u' k' hu hb hk
  rw [h1] at hu; cases hu
  rw [h3] at hb; cases hb
  exact ⟨e, he⟩

/-- Where a reference leads: to a document that is not loaded, or to an object of one that is. -/
def Target (E : Env) (data : List (List (Str × Val))) (s : St) (e : Nat) (ptr : List Str) : Prop :=
  ∃ y : Schema, s.docs[e]? = some y ∧ (y.ready = false ∨ (y.ready = true ∧ ∃ kvs, data[e]? = some kvs ∧ ∀ link, PlainLeads (docIn E.ip link (wrap (.dict kvs))) ptr))

/-- `RefKeyword.apply`. -/
theorem applyRef_next {x : Schema} {s : St} (hs : Doing E.ip d data A x s) {lo : Nat} {c : Cell} {ids : List (Str × Nat)} (hc : s.mem[lo]? = some c)
    (hsh : c.shape = .obj ids) {t : Str} {y : Nat} {q : Option Nat} {p : Str} (hy : dictGet c!"$ref" ids = some y) (hyc : s.mem[y]? = some ⟨.str t, q, p⟩)
    (hk : NextRef E lib data s t) :
    ∃ data' A' s1, Runs (fun f => applyCore E (ops E f) d lo .ref) s (.ok s1.mem.length)
        { s1 with mem := s1.mem ++ [⟨.ref lo (refDoc E.ip s1.storage d t) (refPointer E.ip t), c.parent, c.key⟩] } ∧
      Doing E.ip d data' A' x s1 ∧ Grow lib d data A s data' A' s1 ∧ A' d = A d ∧ (∀ j, j < s.mem.length → s1.mem[j]? = s.mem[j]?) ∧
      Known E.ip s1.storage t ∧ Target E data' s1 (refDoc E.ip s1.storage d t) (refPointer E.ip t) := by
  have key : ∀ (s1 : St), Runs (fun f => (do
      let u ← lift (Uri.parse E.ip t)
      let p ← lift (Pointer.parse u.fragment)
      let b ← lift (Uri.baseUri E.ip u)
      let c ← cell lo
      if !Uri.truth b then newCell ⟨.ref lo d p, c.parent, c.key⟩
      else do
        let s ← schema d
        let target ← storeLoad E u s.vocabulary
        newCell ⟨.ref lo target p, c.parent, c.key⟩ : M Nat)) s (.ok s1.mem.length)
        { s1 with mem := s1.mem ++ [⟨.ref lo (refDoc E.ip s1.storage d t) (refPointer E.ip t), c.parent, c.key⟩] } →
      Runs (fun f => applyCore E (ops E f) d lo .ref) s (.ok s1.mem.length)
        { s1 with mem := s1.mem ++ [⟨.ref lo (refDoc E.ip s1.storage d t) (refPointer E.ip t), c.parent, c.key⟩] } := by
    intro s1 h
    change Runs (fun f => applyRef E (ops E f) d lo) _ _ _
    unfold applyRef
    exact Runs.bind (itemText_runs E (members_runs E hc hsh) hy hyc) h
  rcases hk with hk | ⟨u, k, ptr, h1, h2, h3, h4, h5⟩
  · refine ⟨data, A, s, key s ?_, hs, Grow.refl _ _ _ _ _, rfl, fun _ _ => rfl, known_local hk _, ?_⟩
    · rw [refDoc_local hk]
      obtain ⟨u, b, ptr, h1, h2, h3, h4⟩ := hk
      have hp : refPointer E.ip t = ptr := by simp only [refPointer, h1, h2]
      refine Runs.bind (a := u) (s1 := s) (.const (by rw [h1]; rfl)) ?_
      refine Runs.bind (a := ptr) (s1 := s) (.const (by rw [h2]; rfl)) ?_
      refine Runs.bind (a := b) (s1 := s) (.const (by rw [h3]; rfl)) ?_
      refine Runs.bind (.const (cell_apply hc)) ?_
      simp only [h4, Bool.not_false, if_true, hp]
      exact .const rfl
    · rw [refDoc_local hk]; exact ⟨x, hs.self, .inl hs.ready⟩
  · obtain ⟨b, hb⟩ : ∃ b, Uri.baseUri E.ip u = .ok b := ⟨_, Uri.baseUri_eq _ _⟩
    have hkb : k = Uri.text b := by
      unfold Store.baseText at h3; rw [hb] at h3; cases h3; rfl
    have ht : Uri.truth b = true := by
      cases h : Uri.truth b with
      | true => rfl
      | false => exact absurd (hkb.trans ((Uri.truth_text b).1 h)) h4
    have hp : refPointer E.ip t = ptr := by simp only [refPointer, h1, h2]
    have main : ∀ (s1 : St) (e : Nat), dictGet k s1.storage = some e → storeLoad E u x.vocabulary s = (.ok e, s1) →
        Runs (fun f => applyCore E (ops E f) d lo .ref) s (.ok s1.mem.length)
          { s1 with mem := s1.mem ++ [⟨.ref lo (refDoc E.ip s1.storage d t) (refPointer E.ip t), c.parent, c.key⟩] } ∧
          refDoc E.ip s1.storage d t = e ∧ Known E.ip s1.storage t := by
      intro s1 e he hl
      have hr : refDoc E.ip s1.storage d t = e := refDoc_linked h1 hb (by rw [← hkb]; exact h4) (by rw [← hkb]; exact he) d
      refine ⟨key s1 ?_, hr, known_some h1 h3 he⟩
      refine Runs.bind (a := u) (s1 := s) (.const (by rw [h1]; rfl)) ?_
      refine Runs.bind (a := ptr) (s1 := s) (.const (by rw [h2]; rfl)) ?_
      refine Runs.bind (a := b) (s1 := s) (.const (by rw [hb]; rfl)) ?_
      refine Runs.bind (.const (cell_apply hc)) ?_
      simp only [ht, Bool.not_true, Bool.false_eq_true, if_false, hp, hr]
      refine Runs.bind (.const (schema_apply hs.self)) (Runs.bind (.const hl) (.const rfl))
    have hbt : (lift (Store.baseText E.ip u) : M Str) s = (.ok k, s) := by rw [h3]; rfl
    rcases h5 with ⟨e, he, hpl⟩ | ⟨hn, kvs, hf, hlib⟩
    · obtain ⟨m1, m2, m3⟩ := main s e he (by
        unfold storeLoad
        rw [M.bind_ok hbt, M.bind_ok (state_apply s)]
        simp only [he]; rfl)
      refine ⟨data, A, s, m1, hs, Grow.refl _ _ _ _ _, rfl, fun _ _ => rfl, m3, ?_⟩
      rw [m2, hp]
      have hlt := hs.web.store k e he
      have hlen := hs.web.length
      obtain ⟨v, hv⟩ : ∃ v, data[e]? = some v := ⟨_, List.getElem?_eq_getElem hlt⟩
      obtain ⟨z, hz⟩ : ∃ z, s.docs[e]? = some z := ⟨_, List.getElem?_eq_getElem (by omega)⟩
      refine ⟨z, hz, ?_⟩
      cases hr : z.ready with
      | false => exact .inl rfl
      | true => exact .inr ⟨rfl, v, hv, fun link => hpl z v hz hr hv link⟩
    · obtain ⟨ext, A', g1, g2, g3, g4⟩ := doing_found (lib := lib) hs kvs k hn hlib
      obtain ⟨m1, m2, m3⟩ := main { s with mem := s.mem ++ ext, docs := s.docs ++ [⟨s.mem.length, false, x.vocabulary, [], none⟩], storage := dictSet k s.docs.length s.storage }
        s.docs.length (by simp only [dictGet_set, if_true]) (by
        unfold storeLoad
        rw [M.bind_ok hbt, M.bind_ok (state_apply s)]
        simp only [hn, hf]
        rw [M.bind_ok g1, M.bind_ok (state_apply _)]
        rfl)
      refine ⟨_, A', _, m1, g2, g3, g4, fun j hj => List.getElem?_append_left hj, m3, ?_⟩
      rw [m2, hp]
      exact ⟨⟨s.mem.length, false, x.vocabulary, [], none⟩, by simp, .inl rfl⟩

/-- The state with one more object of `d`. -/
theorem Doing.push {x : Schema} {s : St} (hs : Doing E.ip d data A x s) (ce : Cell) :
    Doing E.ip d data (fun e j => A e j ∨ (e = d ∧ j = s.mem.length)) x { s with mem := s.mem ++ [ce] } := by
  have hlt := hs.lt
  have hlen := hs.web.length
  refine ⟨hs.web.keep (s' := { s with mem := s.mem ++ [ce] }) rfl (fun _ _ _ h => h) rfl (fun e j _ h => ?_) (fun e he => ?_) (fun j hj => ?_) (by simp), hs.self, hs.ready, hs.core⟩
  · exact List.getElem?_append_left (hs.web.room e j h).1
  · funext j; simp [he]
  · simp only [List.length_append, List.length_singleton]
    rcases hj with hj | ⟨-, hj⟩
    · have := hs.web.room d j hj
      exact ⟨.inl hj, by omega, by omega⟩
    · exact ⟨.inr (by omega), by omega, by omega⟩

/-- The members of the new reference. -/
theorem target_members {x : Schema} {s : St} (hs : Doing E.ip d data A x s) {lo i e : Nat} {ptr : List Str} {c ce : Cell} {ids : List (Str × Nat)}
    (hc : s.mem[lo]? = some c) (hsh : c.shape = .obj ids) (hi : s.mem[i]? = some ce) (hce : ce.shape = .ref lo e ptr) (ht : Target E data s e ptr) :
    ∃ ms, Runs (fun f => (ops E f).members i) s (.ok ms) s ∧ ∀ k ∈ [c!"$anchor", c!"$id", c!"id"], k ∉ ids.map Prod.fst → k ∉ ms.map Prod.fst := by
  obtain ⟨y, hy, ht⟩ := ht
  rcases ht with ht | ⟨hr, kvs, hk, hp⟩
  · exact ⟨ids, membersRef_runs E hi hce hy ht (members_runs E hc hsh), fun k _ h => h⟩
  · have hed : e ≠ d := by
      rintro rfl
      rw [hs.self] at hy; cases hy
      rw [hs.ready] at hr; cases hr
    obtain ⟨-, ⟨-, -, -, h4, h5⟩ | ⟨h0, -⟩⟩ := hs.web.doc e y kvs hy hk (fun h => hed (by cases h; rfl))
    · exact plain_members E hi hce hc hsh hy hr h4.shows h5.shows (hp _)
    · rw [hr] at h0; cases h0

/-- The core keywords on an object with `$ref`. -/
theorem core_next {x : Schema} {s : St} (hs : Doing E.ip d data A x s) {link : Str → Nat} {lo : Nat} {c : Cell}
    {kvs : List (Str × Node)} {ids : List (Str × Nat)} (hc : s.mem[lo]? = some c) (hsh : c.shape = .obj ids)
    (hd : ShowsD s.mem (resolveInD E.ip link kvs) ids) (hid : Nameless kvs) (hna : c!"$anchor" ∉ kvs.map Prod.fst)
    {t : Str} (ht : dictGet c!"$ref" kvs = some (.str t)) (hk : NextRef E lib data s t) :
    ∃ data' A' s' r, Runs (fun f => applyAll E (ops E f) d [.ref, .anchor, .id] lo) s (.ok r) s' ∧
      Doing E.ip d data' A' x s' ∧ Grow lib d data A s data' A' s' ∧ A' d r ∧ s.mem.length ≤ r ∧ (∀ j, j < s.mem.length → s'.mem[j]? = s.mem[j]?) ∧
      Known E.ip s'.storage t ∧ s'.mem[r]? = some ⟨.ref lo (refDoc E.ip s'.storage d t) (refPointer E.ip t), c.parent, c.key⟩ := by
  obtain ⟨y, q, p, hy, hyc⟩ := hd.text ht
  have hkeys : ids.map Prod.fst = kvs.map Prod.fst := by rw [hd.keys, resolveInD_keys]
  have hR : c!"$ref" ∈ ids.map Prod.fst := List.mem_map.2 ⟨_, dictGet_mem hy, rfl⟩
  obtain ⟨data', A', s1, h1, h2, h3, h4, h5, h6, h7⟩ := applyRef_next hs hc hsh hy hyc hk
  have hlt := (List.getElem?_eq_some_iff.1 hc).1
  have hmem := h3.mem
  generalize hce : (⟨.ref lo (refDoc E.ip s1.storage d t) (refPointer E.ip t), c.parent, c.key⟩ : Cell) = ce at h1
  have hpush := h2.push ce
  obtain ⟨ms, m1, m2⟩ := target_members hpush (lo := lo) (i := s1.mem.length) (c := c) (ce := ce) (ids := ids)
    (by change (s1.mem ++ [ce])[lo]? = _; rw [List.getElem?_append_left (by omega), h5 lo hlt]; exact hc) hsh (by simp) (by rw [← hce]) h7
  rw [hkeys] at m2
  refine ⟨data', _, _, s1.mem.length, ?_, hpush, ?_, .inr ⟨rfl, rfl⟩, hmem, fun j hj => ?_, h6, ?_⟩
  · exact applyAll_apply E (members_runs E hc hsh) ((any_ref ids).2 hR) h1
      (applyAll_step E m1 (no_anchor (m2 _ (by simp) hna)) (applyAll_step E m1 (no_id ⟨m2 _ (by simp) hid.1, m2 _ (by simp) hid.2⟩) (applyAll_nil E)))
  · refine ⟨h3.keyed, h3.data, fun e j h => .inl (h3.own e j h), h3.docs, h3.fresh, h3.count, h3.store, h3.new, ?_, h3.room, h3.nodup, h3.voc⟩
    simp only [List.length_append, List.length_singleton]; omega
  · change (s1.mem ++ [ce])[j]? = _
    rw [List.getElem?_append_left (by omega), h5 j hj]
  · rw [hce]; simp

/-- A change to an object of `d`, and to `d`. -/
theorem Doing.set {x x' : Schema} {s : St} (hs : Doing E.ip d data A x s) {lo : Nat} (hlo : A d lo) (c : Cell) (hr : x'.ready = false) (hv : x'.vocabulary = x.vocabulary) :
    Doing E.ip d data A x' { s with mem := s.mem.set lo c, docs := s.docs.set d x' } := by
  have hlt := hs.lt
  have hlen := hs.web.length
  refine ⟨hs.web.keep (s' := { s with mem := s.mem.set lo c, docs := s.docs.set d x' }) (by simp) (fun e y he h => ?_) rfl (fun e j he h => ?_) (fun _ _ => rfl)
    (fun j hj => ?_) (by simp), List.getElem?_set_self hlt, hr, by rw [hv]; exact hs.core⟩
  · change (s.docs.set d x')[e]? = _ at h
    rw [List.getElem?_set_ne (Ne.symm he)] at h; exact h
  · change (s.mem.set lo c)[j]? = _
    rw [List.getElem?_set_ne]
    rintro rfl
    exact he (hs.web.apart _ _ _ h hlo)
  · have := hs.web.room d j hj
    exact ⟨.inl hj, by simpa using this.1, this.2⟩

theorem set_self {α : Type} {l : List α} {i : Nat} {a : α} (h : l[i]? = some a) : l.set i a = l := by
  apply List.ext_getElem?
  intro j
  by_cases e : i = j
  · subst e; rw [List.getElem?_set_self (List.getElem?_eq_some_iff.1 h).1, h]
  · rw [List.getElem?_set_ne e]

theorem Grow.set {s : St} (lib : Str → List (Str × Val) → Prop) (d : Nat) (data : List (List (Str × Val))) (A : Nat → Nat → Prop) (lo : Nat) (c : Cell) {x x' : Schema}
    (hx : s.docs[d]? = some x) (hv : x'.vocabulary = x.vocabulary) :
    Grow lib d data A s data A { s with mem := s.mem.set lo c, docs := s.docs.set d x' } := by
  refine ⟨fun _ _ h => .inl h, ⟨[], by simp⟩, fun _ _ h => h, fun e x he h => ?_, fun e x h h' => ?_, by simp, fun _ _ h => h, fun _ _ h => .inl h, by simp, by simp, fun h => h, fun v h y hy => ?_⟩
  · change (s.docs.set d x')[e]? = _
    rw [List.getElem?_set_ne (Ne.symm he)]; exact h
  · have := (List.getElem?_eq_some_iff.1 h').1
    simp only [List.length_set] at this
    omega
  · rcases List.mem_or_eq_of_mem_set hy with hy | rfl
    · exact h y hy
    · rw [hv]; exact h x (List.mem_of_getElem? hx)

/-- The first two core keywords on an object without `$ref`. -/
theorem core_still {x : Schema} {s : St} (hs : Doing E.ip d data A x s) {link : Str → Nat} {lo : Nat} {c : Cell}
    {kvs : List (Str × Node)} {ids : List (Str × Nat)} (hlo : A d lo) (hc : s.mem[lo]? = some c) (hsh : c.shape = .obj ids)
    (hd : ShowsD s.mem (resolveInD E.ip link kvs) ids) {P : Str → Prop} (hco : CoreObject P kvs) (hnr : c!"$ref" ∉ kvs.map Prod.fst) :
    ∃ s', (∀ y s'', Runs (fun f => applyAll E (ops E f) d [.id] lo) s' y s'' →
        Runs (fun f => applyAll E (ops E f) d [.ref, .anchor, .id] lo) s y s'') ∧
      s'.mem = s.mem.set lo ⟨.obj (dictDel c!"$anchor" ids), c.parent, c.key⟩ ∧ s'.storage = s.storage ∧ Grow lib d data A s data A s' ∧
      Doing E.ip d data A { x with anchors := register (anchorAt kvs lo) x.anchors } s' := by
  have hkeys : ids.map Prod.fst = kvs.map Prod.fst := by rw [hd.keys, resolveInD_keys]
  have hm := members_runs E hc hsh
  rw [← hkeys] at hnr
  by_cases hA : c!"$anchor" ∈ kvs.map Prod.fst
  · obtain ⟨a, ha⟩ := hco.anchor hA
    obtain ⟨y, q, p, hy, hyc⟩ := hd.text ha
    rw [← hkeys] at hA
    have h1 : Runs (fun f => applyCore E (ops E f) d lo .anchor) s (.ok lo)
        { s with mem := s.mem.set lo { c with shape := .obj (dictDel c!"$anchor" ids) }, docs := s.docs.set d { x with anchors := dictSet a lo x.anchors } } := by
      change Runs (fun f => applyAnchor E (ops E f) d lo) _ _ _
      unfold applyAnchor
      refine Runs.bind (itemText_runs E (members_runs E hc hsh) hy hyc) ?_
      refine Runs.bind (.const (schema_apply hs.self)) ?_
      refine Runs.bind (a := ()) (s1 := { s with docs := s.docs.set d { x with anchors := dictSet a lo x.anchors } }) (.const rfl) ?_
      refine Runs.bind (.const (cell_apply (s := { s with docs := s.docs.set d { x with anchors := dictSet a lo x.anchors } }) hc)) ?_
      simp only [hsh, dictHas_iff.2 hA, if_true]
      exact Runs.bind (.const (setShape_apply (s := { s with docs := s.docs.set d { x with anchors := dictSet a lo x.anchors } }) hc _)) .pure
    refine ⟨_, fun z s'' h => applyAll_step E hm (no_ref hnr) (applyAll_apply E hm ((any_anchor ids).2 hA) h1 h), rfl, rfl, Grow.set _ _ _ _ _ _ hs.self rfl, ?_⟩
    have he : ({ x with anchors := register (anchorAt kvs lo) x.anchors } : Schema) = { x with anchors := dictSet a lo x.anchors } := by
      simp only [anchorAt, ha, register]; rfl
    rw [he]
    exact hs.set hlo _ hs.ready rfl
  · have hA' : dictGet c!"$anchor" kvs = none := dictGet_none hA
    rw [← hkeys] at hA
    refine ⟨s, fun z s'' h => applyAll_step E hm (no_ref hnr) (applyAll_step E hm (no_anchor hA) h), ?_, rfl, Grow.refl _ _ _ _ _, ?_⟩
    · rw [del_absent hA, ← hsh]
      exact (set_self hc).symm
    · simpa only [anchorAt, hA', register, List.foldl_nil] using hs

/-! ## The whole document -/

/-- The objects of `d` from `lo` to `hi`, and the new ones. -/
def Ours (A : Nat → Nat → Prop) (d lo hi : Nat) (s : St) (j : Nat) : Prop := A d j ∧ ((lo ≤ j ∧ j < hi) ∨ s.mem.length ≤ j)

/-- A part of the document is processed. -/
structure Gone (E : Env) (lib : Str → List (Str × Val) → Prop) (d : Nat) (lo hi : Nat) (x : Schema) (data : List (List (Str × Val))) (A : Nat → Nat → Prop) (s : St)
    (data' : List (List (Str × Val))) (A' : Nat → Nat → Prop) (s' : St) (L : List (Str × Nat)) : Prop where
  doing : Doing E.ip d data' A' { x with anchors := register L x.anchors } s'
  grow : Grow lib d data A s data' A' s'
  within : Within lo hi s s'

structure KidsNext (E : Env) (lib : Str → List (Str × Val) → Prop) (d : Nat) (kvs : List (Str × Node)) (ids : List (Str × Nat)) (lo hi : Nat) (x : Schema) (data : List (List (Str × Val)))
    (A : Nat → Nat → Prop) (s : St) (ids' : List (Str × Nat)) (data' : List (List (Str × Val))) (A' : Nat → Nat → Prop) (s' : St) (L : List (Str × Nat)) : Prop
    extends Gone E lib d lo hi x data A s data' A' s' L where
  runs : Runs (fun f => eachD ((ops E f).process d [.ref, .anchor, .id]) ids) s (.ok ids') s'
  known : LinkedD (Known E.ip s'.storage) kvs
  shows : ShowsDOn (Ours A' d lo hi s) s'.mem (resolveInD E.ip (refDoc E.ip s'.storage d) kvs) ids'
  anchors : ShowsDOn (Ours A' d lo hi s) s'.mem (anchoredInD E.ip (refDoc E.ip s'.storage d) kvs) L

structure PartNext (E : Env) (lib : Str → List (Str × Val) → Prop) (d : Nat) (n : Node) (lo hi : Nat) (x : Schema) (data : List (List (Str × Val)))
    (A : Nat → Nat → Prop) (s : St) (r : Nat) (data' : List (List (Str × Val))) (A' : Nat → Nat → Prop) (s' : St) (L : List (Str × Nat)) : Prop
    extends Gone E lib d lo hi x data A s data' A' s' L where
  runs : Runs (fun f => (ops E f).process d [.ref, .anchor, .id] lo) s (.ok r) s'
  known : Linked (Known E.ip s'.storage) n
  shows : ShowsOn (Ours A' d lo hi s) s'.mem (resolveIn E.ip (refDoc E.ip s'.storage d) n) r
  anchors : ShowsDOn (Ours A' d lo hi s) s'.mem (anchoredIn E.ip (refDoc E.ip s'.storage d) n) L

/-- After its members, the object itself. -/
theorem object_next {x : Schema} {s : St} (hs : Doing E.ip d data A x s) {kvs : List (Str × Node)} {ids ids' : List (Str × Nat)}
    {p : Option Nat} {k : Str} {lo hi : Nat} {L : List (Str × Nat)} {s3 : St} (hc : s.mem[lo]? = some ⟨.obj ids, p, k⟩) (hA : ∀ j, lo ≤ j → j < hi → A d j)
    (hlh : lo < hi) (hhi : hi ≤ s.mem.length) (hk : KidsNext E lib d kvs ids (lo + 1) hi x data A s ids' data' A' s3 L) (hco : CoreObject (NextRef E lib data s) kvs) :
    (c!"$ref" ∈ kvs.map Prod.fst → Nameless kvs → ∃ r data'' A'' s', PartNext E lib d (.obj kvs) lo hi x data A s r data'' A'' s' L) ∧
    (c!"$ref" ∉ kvs.map Prod.fst → ∃ s4, (∀ y s', Runs (fun f => applyAll E (ops E f) d [.id] lo) s4 y s' →
        Runs (fun f => (ops E f).process d [.ref, .anchor, .id] lo) s y s') ∧
      Gone E lib d lo hi x data A s data' A' s4 (L ++ anchorAt kvs lo) ∧ CoreObject (Known E.ip s4.storage) kvs ∧ LinkedD (Known E.ip s4.storage) kvs ∧
      s4.mem[lo]? = some ⟨.obj (dictDel c!"$anchor" ids'), p, k⟩ ∧
      ShowsD s4.mem (resolveInD E.ip (refDoc E.ip s4.storage d) kvs) ids' ∧
      ShowsOn (Ours A' d lo hi s) s4.mem (resolveIn E.ip (refDoc E.ip s4.storage d) (.obj kvs)) lo ∧
      ShowsDOn (Ours A' d lo hi s) s4.mem (anchoredIn E.ip (refDoc E.ip s4.storage d) (.obj kvs)) (L ++ anchorAt kvs lo)) := by
  have hll := (List.getElem?_eq_some_iff.1 hc).1
  have hl3 := hk.within.len
  have hc3 : s3.mem[lo]? = some ⟨.obj ids, p, k⟩ := by rw [hk.within.mem lo hll (by omega)]; exact hc
  have hAlo : A' d lo := hk.grow.own d lo (hA lo (Nat.le_refl _) hlh)
  have hset := hk.doing.set hAlo ⟨.obj ids', p, k⟩ hk.doing.ready rfl
  have hgset := Grow.set (s := s3) lib d data' A' lo ⟨.obj ids', p, k⟩ (x' := { x with anchors := register L x.anchors }) hk.doing.self rfl
  rw [set_self hk.doing.self] at hset hgset
  generalize hs4 : ({ s3 with mem := s3.mem.set lo ⟨.obj ids', p, k⟩ } : St) = s4 at hset hgset
  have hm4 : s4.mem = s3.mem.set lo ⟨.obj ids', p, k⟩ := by rw [← hs4]
  have hst4 : s4.storage = s3.storage := by rw [← hs4]
  have hlen4 : s4.mem.length = s3.mem.length := by rw [hm4, List.length_set]
  have hc4 : s4.mem[lo]? = some ⟨.obj ids', p, k⟩ := by rw [hm4]; exact List.getElem?_set_self (by omega)
  have hne : ∀ j, j ≠ lo → s4.mem[j]? = s3.mem[j]? := fun j hj => by rw [hm4, List.getElem?_set_ne (Ne.symm hj)]
  have hself : ∀ A : Nat → Nat → Prop, ∀ j, Ours A d (lo + 1) hi s j → j ≠ lo := by
    rintro A j ⟨-, h⟩ rfl
    omega
  have hlt := hs.lt
  have hg4 : Grow lib d data A s data' A' s4 := hk.grow.trans hlt hgset
  have hsh4 : ShowsDOn (Ours A' d (lo + 1) hi s) s4.mem (resolveInD E.ip (refDoc E.ip s4.storage d) kvs) ids' := by
    rw [hst4]; exact hk.shows.keep (fun j hj => hj) fun j hj => hne j (hself _ j hj)
  have han4 : ShowsDOn (Ours A' d (lo + 1) hi s) s4.mem (anchoredInD E.ip (refDoc E.ip s4.storage d) kvs) L := by
    rw [hst4]; exact hk.anchors.keep (fun j hj => hj) fun j hj => hne j (hself _ j hj)
  have hkn4 : LinkedD (Known E.ip s4.storage) kvs := by rw [hst4]; exact hk.known
  have hrun : ∀ y s', Runs (fun f => applyAll E (ops E f) d [.ref, .anchor, .id] lo) s4 y s' →
      Runs (fun f => (ops E f).process d [.ref, .anchor, .id] lo) s y s' := by
    intro y s' h
    refine Runs.shift (g := fun f => processS E (ops E f) d _ lo) ?_ (fun f => rfl)
    unfold processS
    refine Runs.bind (.next fun f => kind_plain E hc rfl) ?_
    simp only [Shape.kind, ne_eq, not_true_eq_false, if_false]
    refine Runs.bind (members_runs E hc rfl) (Runs.bind hk.runs (Runs.bind (.const (setMembers_obj hc3 rfl)) ?_))
    rw [hs4]; exact h
  have hroom : ∀ j, Ours A' d (lo + 1) hi s j → j < s4.mem.length := fun j hj => (hset.web.room d j hj.1).1
  have hco4 : CoreObject (NextRef E lib data' s4) kvs := hco.mono fun t ht => ht.mono hs.web hg4 fun y hy => by
    rw [hset.self] at hy; cases hy; exact hset.ready
  refine ⟨fun hR hid => ?_, fun hR => ?_⟩
  · obtain ⟨hna, t, ht, hkn⟩ := hco4.ref hR
    obtain ⟨data'', A'', s5, r, b1, b2, b3, b4, b5, b6, b7, b8⟩ := core_next hset hc4 rfl hsh4.shows hid hna ht hkn
    have hg5 := hg4.trans hlt b3
    have hours : ∀ j, Ours A' d (lo + 1) hi s j → Ours A'' d lo hi s j := fun j hj => ⟨b3.own d j hj.1, by have := hj.2; omega⟩
    have hkn5 : LinkedD (Known E.ip s5.storage) kvs := LinkedD.mono (fun t ht => ht.mono b3.store) _ hkn4
    have hb3 := b3.mem
    have e1 : resolveInD E.ip (refDoc E.ip s4.storage d) kvs = resolveInD E.ip (refDoc E.ip s5.storage d) kvs :=
      resolveInD_congr (fun t ht => refDoc_known b3.store d ht) kvs hkn4
    have e2 : anchoredInD E.ip (refDoc E.ip s4.storage d) kvs = anchoredInD E.ip (refDoc E.ip s5.storage d) kvs :=
      anchoredInD_congr (fun t ht => refDoc_known b3.store d ht) kvs hkn4
    rw [e1] at hsh4
    rw [e2] at han4
    refine ⟨r, data'', A'', s5, ⟨b2, hg5, ⟨hg5.mem, fun j hj hj' => ?_⟩⟩, hrun _ _ b1, ?_, fun m' e => ?_, ?_⟩
    · rw [b6 j (by omega), hne j (by omega)]; exact hk.within.mem j hj (by omega)
    · rw [Linked]
      exact ⟨hid, ⟨fun _ => ⟨hna, t, ht, b7⟩, fun h => absurd h hna⟩, hkn5⟩
    · have e1 : resolveIn E.ip (refDoc E.ip s5.storage d) (.obj kvs) = .ref (resolveInD E.ip (refDoc E.ip s5.storage d) kvs)
          (refDoc E.ip s5.storage d t) (refPointer E.ip t) := by rw [resolveIn]; simp only [ht]
      rw [e1, Shows]
      refine ⟨_, lo, ⟨.obj ids', p, k⟩, ids', (e _ ⟨b4, .inr (by omega)⟩).trans b8, rfl,
        (e lo ⟨b3.own d lo hAlo, .inl ⟨Nat.le_refl _, hlh⟩⟩).trans ((b6 lo (by omega)).trans hc4), rfl, hsh4 m' fun j hj => ?_⟩
      exact (e j (hours j hj)).trans (b6 j (hroom j hj))
    · rw [anchoredIn, dictGet_none hna, List.append_nil]
      exact han4.keep hours fun j hj => b6 j (hroom j hj)
  · obtain ⟨s5, h1, h2, h2', h2g, h3⟩ := core_still (link := refDoc E.ip s4.storage d) hset hAlo hc4 rfl hsh4.shows hco hR
    have hc5 : s5.mem[lo]? = some ⟨.obj (dictDel c!"$anchor" ids'), p, k⟩ := by rw [h2]; exact List.getElem?_set_self (by omega)
    have hne5 : ∀ j, j ≠ lo → s5.mem[j]? = s4.mem[j]? := fun j hj => by rw [h2, List.getElem?_set_ne (Ne.symm hj)]
    have hours : ∀ j, Ours A' d (lo + 1) hi s j → Ours A' d lo hi s j := fun j hj => ⟨hj.1, by have := hj.2; omega⟩
    have hsh5 : ShowsDOn (Ours A' d (lo + 1) hi s) s5.mem (resolveInD E.ip (refDoc E.ip s5.storage d) kvs) ids' := by
      rw [h2']; exact hsh4.keep (fun j hj => hj) fun j hj => hne5 j (hself _ j hj)
    have hobj : ShowsOn (Ours A' d lo hi s) s5.mem (resolveIn E.ip (refDoc E.ip s5.storage d) (.obj kvs)) lo := by
      intro m' e
      have e1 : resolveIn E.ip (refDoc E.ip s5.storage d) (.obj kvs) = .obj (dictDel c!"$anchor" (resolveInD E.ip (refDoc E.ip s5.storage d) kvs)) := by
        rw [resolveIn]; simp only [dictGet_none hR]
      rw [e1, Shows]
      exact ⟨⟨.obj (dictDel c!"$anchor" ids'), p, k⟩, _, (e lo ⟨hAlo, .inl ⟨Nat.le_refl _, hlh⟩⟩).trans hc5, rfl, ShowsD.del _ (hsh5 m' fun j hj => e j (hours j hj))⟩
    refine ⟨s5, fun y s' h => hrun y s' (h1 y s' h), ⟨?_, hg4.trans hlt h2g, ⟨(hg4.trans hlt h2g).mem, fun j hj hj' => ?_⟩⟩,
      ⟨fun h => absurd h hR, hco.anchor⟩, by rw [h2']; exact hkn4, hc5, hsh5.shows, hobj, fun m' e => ?_⟩
    · rw [register_append]; exact h3
    · rw [hne5 j (by omega), hne j (by omega)]; exact hk.within.mem j hj (by omega)
    · rw [anchoredIn]
      refine ShowsD.append (?_ : ShowsD m' _ L) (anchorAt_shows (hobj m' e))
      rw [h2']
      exact han4 m' fun j hj => by rw [e j (hours j hj), hne5 j (hself _ j hj)]

theorem partNext_leaf {n : Node} (hn : ∀ kvs, n ≠ .obj kvs) {p : Option Nat} {k : Str} {lo hi : Nat} {x : Schema} {s : St} (ht : Tree s.mem n p k lo hi)
    (hA : ∀ j, lo ≤ j → j < hi → A d j) (hs : Doing E.ip d data A x s) : PartNext E lib d n lo hi x data A s lo data A s [] := by
  have hr : Runs (fun f => (ops E f).process d [.ref, .anchor, .id] lo) s (.ok lo) s := by
    cases n with
    | obj kvs => exact absurd rfl (hn kvs)
    | arr xs => rw [Tree] at ht; obtain ⟨ids, ht, -⟩ := ht; exact process_leaf E _ _ ht rfl (by simp [Shape.kind])
    | ref own d p => rw [Tree] at ht; exact ht.elim
    | _ => rw [Tree] at ht; exact process_leaf E _ _ ht.1 rfl (by simp [Shape.kind])
  have h1 : resolveIn E.ip (refDoc E.ip s.storage d) n = n := by
    cases n with
    | obj kvs => exact absurd rfl (hn kvs)
    | _ => rw [resolveIn]; exact hn
  have h2 : anchoredIn E.ip (refDoc E.ip s.storage d) n = [] := by
    cases n with
    | obj kvs => exact absurd rfl (hn kvs)
    | _ => rw [anchoredIn]; exact hn
  refine ⟨⟨hs, Grow.refl _ _ _ _ _, ⟨Nat.le_refl _, fun _ _ _ => rfl⟩⟩, hr, ?_, ?_, ?_⟩
  · cases n with
    | obj kvs => exact absurd rfl (hn kvs)
    | _ => rw [Linked]; trivial; exact hn
  · rw [h1]; exact ht.showsOn.keep (fun j hj => ⟨hA j hj.1 hj.2, .inl hj⟩) fun _ _ => rfl
  · rw [h2]; intro m' _; rw [ShowsD]

mutual
theorem process_next : ∀ (n : Node) {p : Option Nat} {k : Str} {lo hi : Nat} {x : Schema} {data : List (List (Str × Val))} {A : Nat → Nat → Prop} {s : St},
    Tree s.mem n p k lo hi → (∀ j, lo ≤ j → j < hi → A d j) → hi ≤ s.mem.length → Doing E.ip d data A x s → Linked (NextRef E lib data s) n →
    ∃ r data' A' s' L, PartNext E lib d n lo hi x data A s r data' A' s' L
  | .obj kvs, p, k, lo, hi, x, data, A, s, ht, hA, hhi, hs, hl => by
    have hlt := ht.lt
    rw [Linked] at hl
    rw [Tree] at ht; obtain ⟨ids, h1, h2⟩ := ht
    obtain ⟨ids', data', A', s3, L, hk⟩ := kids_next kvs h2 (fun j a b => hA j (by omega) b) hhi hs hl.2.2
    obtain ⟨hP, hB⟩ := object_next hs h1 hA hlt hhi hk hl.2.1
    by_cases hR : c!"$ref" ∈ kvs.map Prod.fst
    · obtain ⟨r, data'', A'', s', h⟩ := hP hR hl.1
      exact ⟨r, data'', A'', s', L, h⟩
    · obtain ⟨s4, a1, a2, a3, a3', a4, a5, a6, a7⟩ := hB hR
      refine ⟨lo, data', A', s4, L ++ anchorAt kvs lo, a2, a1 _ _ (applyAll_step E (members_runs E a4 rfl) (no_id ?_) (applyAll_nil E)), ?_, a6, a7⟩
      · have hkeys : ids'.map Prod.fst = kvs.map Prod.fst := by rw [a5.keys, resolveInD_keys]
        rw [mem_del (by decide), mem_del (by decide), hkeys]
        exact hl.1
      · rw [Linked]; exact ⟨hl.1, a3, a3'⟩
  | .null, p, k, lo, hi, x, data, A, s, ht, hA, _, hs, _ => ⟨_, _, _, _, _, partNext_leaf (by simp) ht hA hs⟩
  | .bool _, p, k, lo, hi, x, data, A, s, ht, hA, _, hs, _ => ⟨_, _, _, _, _, partNext_leaf (by simp) ht hA hs⟩
  | .num _, p, k, lo, hi, x, data, A, s, ht, hA, _, hs, _ => ⟨_, _, _, _, _, partNext_leaf (by simp) ht hA hs⟩
  | .str _, p, k, lo, hi, x, data, A, s, ht, hA, _, hs, _ => ⟨_, _, _, _, _, partNext_leaf (by simp) ht hA hs⟩
  | .arr _, p, k, lo, hi, x, data, A, s, ht, hA, _, hs, _ => ⟨_, _, _, _, _, partNext_leaf (by simp) ht hA hs⟩
  | .ref .., p, k, lo, hi, x, data, A, s, ht, hA, _, hs, _ => ⟨_, _, _, _, _, partNext_leaf (by simp) ht hA hs⟩
theorem kids_next : ∀ (xs : List (Str × Node)) {self : Nat} {ids : List (Str × Nat)} {lo hi : Nat} {x : Schema} {data : List (List (Str × Val))} {A : Nat → Nat → Prop} {s : St},
    TreeD s.mem xs self ids lo hi → (∀ j, lo ≤ j → j < hi → A d j) → hi ≤ s.mem.length → Doing E.ip d data A x s → LinkedD (NextRef E lib data s) xs →
    ∃ ids' data' A' s' L, KidsNext E lib d xs ids lo hi x data A s ids' data' A' s' L
  | [], self, ids, lo, hi, x, data, A, s, ht, _, _, hs, _ => by
    rw [TreeD] at ht
    obtain ⟨rfl, rfl⟩ := ht
    exact ⟨[], data, A, s, [], ⟨hs, Grow.refl _ _ _ _ _, ⟨Nat.le_refl _, fun _ _ _ => rfl⟩⟩, .pure, by rw [LinkedD]; trivial, fun m' _ => by rw [resolveInD, ShowsD],
      fun m' _ => by rw [anchoredInD, ShowsD]⟩
  | (k, n) :: xs, self, ids, lo, hi, x, data, A, s, ht, hA, hhi, hs, hl => by
    rw [TreeD] at ht; obtain ⟨mid, rest, rfl, h1, h2⟩ := ht
    rw [LinkedD] at hl
    have hlt := h1.lt; have hle := h2.le
    obtain ⟨r, data1, A1, s1, L1, a⟩ := process_next n h1 (fun j a b => hA j a (by omega)) (by omega) hs hl.1
    have hl1 := a.within.len
    have h2' : TreeD s1.mem xs self rest mid hi := h2.keep fun j b c => a.within.mem j (by omega) (by omega)
    have hlx : LinkedD (NextRef E lib data1 s1) xs := LinkedD.mono (fun t ht => ht.mono hs.web a.grow fun y hy => by
      rw [a.doing.self] at hy; cases hy; exact a.doing.ready) _ hl.2
    obtain ⟨ids', data2, A2, s2, L2, b⟩ := kids_next xs h2' (fun j b c => a.grow.own d j (hA j (by omega) c)) (by omega) a.doing hlx
    have hl2 := b.within.len
    have m1 : ∀ j, Ours A1 d lo mid s j → Ours A2 d lo hi s j := fun j hj => ⟨b.grow.own d j hj.1, by have := hj.2; omega⟩
    have m2 : ∀ j, Ours A2 d mid hi s1 j → Ours A2 d lo hi s j := fun j hj => ⟨hj.1, by have := hj.2; omega⟩
    have e1 : ∀ j, Ours A1 d lo mid s j → s2.mem[j]? = s1.mem[j]? := by
      intro j hj
      have h1 := (a.doing.web.room d j hj.1).1
      have h2 := hj.2
      exact b.within.mem j h1 (by omega)
    have c1 := a.shows
    have c2 := a.anchors
    rw [resolveIn_congr (fun t ht => refDoc_known b.grow.store d ht) n a.known] at c1
    rw [anchoredIn_congr (fun t ht => refDoc_known b.grow.store d ht) n a.known] at c2
    refine ⟨(k, r) :: ids', data2, A2, s2, L1 ++ L2, ⟨?_, a.grow.trans hs.lt b.grow, ⟨by omega, fun j hj hj' => ?_⟩⟩, ?_, ?_, fun m' e => ?_, fun m' e => ?_⟩
    · rw [register_append]; exact b.doing
    · rw [b.within.mem j (by omega) (by omega)]; exact a.within.mem j hj (by omega)
    · unfold eachD
      exact Runs.bind a.runs (Runs.bind b.runs .pure)
    · rw [LinkedD]; exact ⟨Linked.mono (fun t ht => ht.mono b.grow.store) n a.known, b.known⟩
    · rw [resolveInD, ShowsD]
      exact ⟨r, ids', rfl, (c1.keep m1 e1) m' e, (b.shows.keep m2 fun _ _ => rfl) m' e⟩
    · rw [anchoredInD]
      exact ((c2.keep m1 e1) m' e).append ((b.anchors.keep m2 fun _ _ => rfl) m' e)
end

end Verif.Obj
