import Verif.Spec.Linked
import Verif.Proofs.Sub
import Verif.Proofs.BridgeLoad
import Verif.Proofs.Uri2
/-! # Loading documents that refer to documents loaded before -/

namespace Verif
theorem Uri.authority_text {a : Authority} : Uri.authorityTrue a = false ↔ Uri.authorityText a = [] := by
  unfold Uri.authorityTrue Uri.authorityText
  by_cases h1 : a.userinfo = [] <;> by_cases h2 : a.host = [] <;> by_cases h3 : a.port = [] <;> simp [h1, h2, h3]

/-- A URI is true exactly if its text is not empty. -/
theorem Uri.truth_text (u : Uri) : Uri.truth u = false ↔ Uri.text u = [] := by
  unfold Uri.truth Uri.text
  cases h : Uri.authorityTrue u.authority with
  | false => by_cases h1 : u.scheme = [] <;> by_cases h2 : u.path = [] <;> by_cases h3 : u.query = [] <;> by_cases h4 : u.fragment = [] <;> simp [h1, h2, h3, h4]
  | true =>
    have : Uri.authorityText u.authority ≠ [] := fun e => by rw [Uri.authority_text.2 e] at h; cases h
    simp [this]
end Verif

namespace Verif.Obj
open Verif Verif.Spec

/-! ## What some of the objects show -/

/-- The objects of `A` alone show the tree. -/
def ShowsOn (A : Nat → Prop) (m : Mem) (n : Node) (i : Nat) : Prop := ∀ m' : Mem, (∀ j, A j → m'[j]? = m[j]?) → Shows m' n i
def ShowsDOn (A : Nat → Prop) (m : Mem) (kvs : List (Str × Node)) (ids : List (Str × Nat)) : Prop :=
  ∀ m' : Mem, (∀ j, A j → m'[j]? = m[j]?) → ShowsD m' kvs ids

theorem ShowsOn.keep {A B : Nat → Prop} {m m' : Mem} {n : Node} {i : Nat} (h : ShowsOn A m n i) (hA : ∀ j, A j → B j) (e : ∀ j, A j → m'[j]? = m[j]?) :
    ShowsOn B m' n i := fun m'' e' => h m'' fun j hj => (e' j (hA j hj)).trans (e j hj)

theorem ShowsDOn.keep {A B : Nat → Prop} {m m' : Mem} {kvs : List (Str × Node)} {ids : List (Str × Nat)} (h : ShowsDOn A m kvs ids) (hA : ∀ j, A j → B j)
    (e : ∀ j, A j → m'[j]? = m[j]?) : ShowsDOn B m' kvs ids := fun m'' e' => h m'' fun j hj => (e' j (hA j hj)).trans (e j hj)

theorem ShowsOn.shows {A : Nat → Prop} {m : Mem} {n : Node} {i : Nat} (h : ShowsOn A m n i) : Shows m n i := h m fun _ _ => rfl
theorem ShowsDOn.shows {A : Nat → Prop} {m : Mem} {kvs : List (Str × Node)} {ids : List (Str × Nat)} (h : ShowsDOn A m kvs ids) : ShowsD m kvs ids :=
  h m fun _ _ => rfl

theorem Tree.showsOn {m : Mem} {n : Node} {p : Option Nat} {k : Str} {lo hi : Nat} (h : Tree m n p k lo hi) : ShowsOn (fun j => lo ≤ j ∧ j < hi) m n lo :=
  fun _ e => (h.keep fun j a b => e j ⟨a, b⟩).shows

theorem ShowsD.keys {m : Mem} : ∀ {kvs : List (Str × Node)} {ids : List (Str × Nat)}, ShowsD m kvs ids → ids.map Prod.fst = kvs.map Prod.fst
  | [], _, h => by rw [ShowsD] at h; subst h; rfl
  | (k, x) :: xs, _, h => by rw [ShowsD] at h; obtain ⟨i, rest, rfl, -, h2⟩ := h; simp [ShowsD.keys h2]

theorem resolveInD_keys (ip : Rfc3986.IpRe) (link : Str → Nat) : ∀ xs : List (Str × Node), (resolveInD ip link xs).map Prod.fst = xs.map Prod.fst
  | [] => rfl
  | (k, x) :: xs => by simp [resolveInD, resolveInD_keys ip link xs]

theorem resolveInD_get (ip : Rfc3986.IpRe) (link : Str → Nat) (k : Str) : ∀ xs : List (Str × Node),
    dictGet k (resolveInD ip link xs) = (dictGet k xs).map (resolveIn ip link)
  | [] => rfl
  | (k', x) :: xs => by
    rw [resolveInD]
    by_cases e : k' = k
    · simp [dictGet, e]
    · simp only [dictGet, if_neg e]; exact resolveInD_get ip link k xs

/-- A text member, in the objects. -/
theorem ShowsD.text {ip : Rfc3986.IpRe} {link : Str → Nat} {m : Mem} {kvs : List (Str × Node)} {ids : List (Str × Nat)}
    (h : ShowsD m (resolveInD ip link kvs) ids) {k a : Str} (hk : dictGet k kvs = some (.str a)) :
    ∃ x q p, dictGet k ids = some x ∧ m[x]? = some ⟨.str a, q, p⟩ := by
  rcases h.get k with ⟨e, -⟩ | ⟨x, i, e1, e2, hs⟩
  · rw [resolveInD_get, hk] at e; cases e
  · rw [resolveInD_get, hk] at e1
    simp only [Option.map_some, Option.some.injEq, resolveIn] at e1
    subst e1
    rw [Shows] at hs
    obtain ⟨⟨sh, q, p⟩, h1, rfl⟩ := hs
    exact ⟨i, q, p, e2, h1⟩

theorem overlay_keys {own theirs : List (Str × Node)} {k : Str} (h : k ∈ (Verif.overlay own theirs).map Prod.fst) :
    k ∈ own.map Prod.fst ∨ k ∈ theirs.map Prod.fst := by
  unfold Verif.overlay at h
  have key : ∀ (xs acc : List (Str × Node)), k ∈ (xs.foldl (fun d p => dictSet p.1 p.2 d) acc).map Prod.fst → k ∈ acc.map Prod.fst ∨ k ∈ xs.map Prod.fst := by
    intro xs
    induction xs with
    | nil => exact fun acc h => .inl h
    | cons p xs ih =>
      intro acc h
      rcases ih _ h with h | h
      · rw [keys_set] at h
        split at h
        · exact .inl h
        · rw [List.mem_append, List.mem_singleton] at h
          rcases h with h | h
          · exact .inl h
          · exact .inr (by simp [h])
      · exact .inr (by simp only [List.map_cons, List.mem_cons]; exact .inr h)
  rcases key _ _ h with h | h
  · left
    obtain ⟨q, hq, rfl⟩ := List.mem_map.1 h
    exact List.mem_map.2 ⟨q, (List.mem_filter.1 hq).1, rfl⟩
  · exact .inr h

/-! ## The state while a document is being loaded -/

/-- The schemas `sch` are loaded and show `docs`; their objects are the first `m0` of the memory. -/
structure Ground (sch : List Schema) (store : List (Str × Nat)) (docs : List Doc) (m0 : Nat) (mem0 : Mem) : Prop where
  shows : ∀ mem : Mem, (∀ j, j < m0 → mem[j]? = mem0[j]?) → Mirrors ⟨mem, sch, store⟩ docs

/-- The state: one more schema, not loaded. -/
structure During (sch : List Schema) (store : List (Str × Nat)) (m0 : Nat) (mem0 : Mem) (x : Schema) (s : St) : Prop where
  docs : s.docs = sch ++ [x]
  ready : x.ready = false
  storage : s.storage = store
  mem : ∀ j, j < m0 → s.mem[j]? = mem0[j]?
  room : m0 ≤ s.mem.length

variable {E : Env} {sch : List Schema} {store : List (Str × Nat)} {docs : List Doc} {m0 : Nat} {mem0 : Mem}

theorem During.self {x : Schema} {s : St} (h : During sch store m0 mem0 x s) : s.docs[sch.length]? = some x := by rw [h.docs]; simp

theorem During.mirrors {x : Schema} {s : St} (hg : Ground sch store docs m0 mem0) (h : During sch store m0 mem0 x s) : Mirrors ⟨s.mem, sch, store⟩ docs :=
  hg.shows s.mem h.mem

theorem During.pre {x : Schema} {s : St} (h : During sch store m0 mem0 x s) : Prefix ⟨s.mem, sch, store⟩ s :=
  ⟨rfl, fun d y hy => by rw [h.docs, List.getElem?_append_left (List.getElem?_eq_some_iff.1 hy).1]; exact hy⟩

theorem Ground.length (hg : Ground sch store docs m0 mem0) : docs.length = sch.length := (hg.shows mem0 fun _ _ => rfl).length

/-! ## References -/

theorem view_more {docs : List Doc} {e : Nat} {ptr : List Str} {m : List (Str × Node)} (h : Leads docs e ptr m) (own : List (Str × Node)) :
    ∃ f, view docs f (.ref own e ptr) = .ok (.obj (Verif.overlay own m)) := by
  obtain ⟨D, f, frag, h1, h2, h3⟩ := h
  refine ⟨f + 1, ?_⟩
  rw [view]
  simp only [h1]
  rw [h2, Res.ok_bind, h3]
  rfl

/-- The members of a reference into a loaded document. -/
theorem linked_members {x : Schema} {s : St} (hg : Ground sch store docs m0 mem0) (hs : During sch store m0 mem0 x s) {own : List (Str × Node)} {e : Nat}
    {ptr : List Str} {m : List (Str × Node)} (hl : Leads docs e ptr m) {i : Nat} (hi : Shows s.mem (.ref own e ptr) i) :
    ∃ ids, Runs (fun f => (ops E f).members i) s (.ok ids) s ∧ ids.map Prod.fst = (Verif.overlay own m).map Prod.fst := by
  obtain ⟨f, hf⟩ := view_more hl own
  obtain ⟨g, hr⟩ := reads (hs.mirrors hg) f _ i (by rw [hf]; simp) hi
  rw [hf] at hr
  obtain ⟨ids, h1, h2⟩ := hr.members _ rfl
  exact ⟨ids, ⟨g, fun h hh => (ropsOf_sub E hs.pre h).members i ids (h1 h hh)⟩, h2.keys⟩

theorem no_id {α : Type} {ds : List (Str × α)} (h : c!"$id" ∉ ds.map Prod.fst ∧ c!"id" ∉ ds.map Prod.fst) : (Kw.id.keys.any fun x => dictHas x ds) = false := by
  rw [Bool.eq_false_iff]; intro e
  rcases (any_id ds).1 e with e | e
  · exact h.1 e
  · exact h.2 e
theorem no_anchor {α : Type} {ds : List (Str × α)} (h : c!"$anchor" ∉ ds.map Prod.fst) : (Kw.anchor.keys.any fun x => dictHas x ds) = false := by
  rw [Bool.eq_false_iff]; intro e; exact h ((any_anchor ds).1 e)
theorem no_ref {α : Type} {ds : List (Str × α)} (h : c!"$ref" ∉ ds.map Prod.fst) : (Kw.ref.keys.any fun x => dictHas x ds) = false := by
  rw [Bool.eq_false_iff]; intro e; exact h ((any_ref ds).1 e)

theorem refDoc_local {ip : Rfc3986.IpRe} {t : Str} (h : LocalRef ip t) (store : List (Str × Nat)) (d : Nat) : refDoc ip store d t = d := by
  obtain ⟨u, b, ptr, h1, h2, h3, h4⟩ := h
  unfold refDoc Store.baseText
  rw [h1]
  simp only [h3, Res.ok_bind, (Uri.truth_text b).1 h4, if_true]

theorem refDoc_linked {ip : Rfc3986.IpRe} {t : Str} {u b : Uri} (h1 : Uri.parse ip t = .ok u) (h3 : Uri.baseUri ip u = .ok b) (h4 : Uri.text b ≠ [])
    {store : List (Str × Nat)} {e : Nat} (he : dictGet (Uri.text b) store = some e) (d : Nat) : refDoc ip store d t = e := by
  unfold refDoc Store.baseText
  rw [h1]
  simp only [h3, Res.ok_bind, if_neg h4, he, Option.getD_some]

/-- `RefKeyword.apply`, when the reference is known. -/
theorem applyRef_known {x : Schema} {s : St} (hs : During sch store m0 mem0 x s) {lo : Nat} {c : Cell} {ids : List (Str × Nat)} (hc : s.mem[lo]? = some c)
    (hsh : c.shape = .obj ids) {t : Str} {y : Nat} {q : Option Nat} {p : Str} (hy : dictGet c!"$ref" ids = some y) (hyc : s.mem[y]? = some ⟨.str t, q, p⟩)
    (hk : KnownRef E.ip docs store t) :
    Runs (fun f => applyCore E (ops E f) sch.length lo .ref) s (.ok s.mem.length)
      { s with mem := s.mem ++ [⟨.ref lo (refDoc E.ip store sch.length t) (refPointer E.ip t), c.parent, c.key⟩] } := by
  change Runs (fun f => applyRef E (ops E f) sch.length lo) _ _ _
  unfold applyRef
  refine Runs.bind (itemText_runs E (members_runs E hc hsh) hy hyc) ?_
  rcases hk with hk | ⟨u, b, ptr, e, m, h1, h2, h3, h4, h5, -⟩
  · rw [refDoc_local hk]
    obtain ⟨u, b, ptr, h1, h2, h3, h4⟩ := hk
    have hp : refPointer E.ip t = ptr := by simp only [refPointer, h1, h2]
    refine Runs.bind (a := u) (s1 := s) (.const (by rw [h1]; rfl)) ?_
    refine Runs.bind (a := ptr) (s1 := s) (.const (by rw [h2]; rfl)) ?_
    refine Runs.bind (a := b) (s1 := s) (.const (by rw [h3]; rfl)) ?_
    refine Runs.bind (.const (cell_apply hc)) ?_
    simp only [h4, Bool.not_false, if_true, hp]
    exact .const rfl
  · rw [refDoc_linked h1 h3 h4 h5]
    have hp : refPointer E.ip t = ptr := by simp only [refPointer, h1, h2]
    have ht : Uri.truth b = true := by
      cases h : Uri.truth b with
      | true => rfl
      | false => exact absurd ((Uri.truth_text b).1 h) h4
    refine Runs.bind (a := u) (s1 := s) (.const (by rw [h1]; rfl)) ?_
    refine Runs.bind (a := ptr) (s1 := s) (.const (by rw [h2]; rfl)) ?_
    refine Runs.bind (a := b) (s1 := s) (.const (by rw [h3]; rfl)) ?_
    refine Runs.bind (.const (cell_apply hc)) ?_
    simp only [ht, Bool.not_true, Bool.false_eq_true, if_false, hp]
    refine Runs.bind (.const (schema_apply hs.self)) ?_
    refine Runs.bind (a := e) (s1 := s) (.const ?_) (.const rfl)
    unfold storeLoad
    have hb : (lift (Store.baseText E.ip u) : M Str) s = (.ok (Uri.text b), s) := by
      unfold Store.baseText; rw [h3]; rfl
    rw [M.bind_ok hb, M.bind_ok (state_apply s), hs.storage]
    simp only [h5]
    rfl

/-- The core keywords on an object with `$ref`. -/
theorem core_ref {x : Schema} {s : St} (hg : Ground sch store docs m0 mem0) (hs : During sch store m0 mem0 x s) {link : Str → Nat} {lo : Nat} {c : Cell}
    {kvs : List (Str × Node)} {ids : List (Str × Nat)} (hc : s.mem[lo]? = some c) (hsh : c.shape = .obj ids) {A : Nat → Prop}
    (hA : ∀ j, A j → j < s.mem.length) (hd : ShowsDOn A s.mem (resolveInD E.ip link kvs) ids) (hid : Nameless kvs) (hna : c!"$anchor" ∉ kvs.map Prod.fst)
    {t : Str} (ht : dictGet c!"$ref" kvs = some (.str t)) (hk : KnownRef E.ip docs store t) :
    Runs (fun f => applyAll E (ops E f) sch.length [.ref, .anchor, .id] lo) s (.ok s.mem.length)
      { s with mem := s.mem ++ [⟨.ref lo (refDoc E.ip store sch.length t) (refPointer E.ip t), c.parent, c.key⟩] } := by
  obtain ⟨y, q, p, hy, hyc⟩ := hd.shows.text ht
  have hkeys : ids.map Prod.fst = kvs.map Prod.fst := by rw [hd.shows.keys, resolveInD_keys]
  have hR : c!"$ref" ∈ ids.map Prod.fst := List.mem_map.2 ⟨_, dictGet_mem hy, rfl⟩
  have h1 := applyRef_known (E := E) (docs := docs) hs hc hsh hy hyc hk
  generalize hce : (⟨.ref lo (refDoc E.ip store sch.length t) (refPointer E.ip t), c.parent, c.key⟩ : Cell) = ce at h1 ⊢
  have hlt := (List.getElem?_eq_some_iff.1 hc).1
  have hc' : (s.mem ++ [ce])[lo]? = some c := by rw [List.getElem?_append_left hlt]; exact hc
  have hs' : During sch store m0 mem0 x { s with mem := s.mem ++ [ce] } :=
    ⟨hs.docs, hs.ready, hs.storage, fun j hj => by
      have := hs.room
      change (s.mem ++ [ce])[j]? = _
      rw [List.getElem?_append_left (by omega)]; exact hs.mem j hj, by
      have := hs.room
      change m0 ≤ (s.mem ++ [ce]).length
      simp only [List.length_append, List.length_singleton]; omega⟩
  suffices hm : ∃ ms, Runs (fun f => (ops E f).members s.mem.length) { s with mem := s.mem ++ [ce] } (.ok ms) { s with mem := s.mem ++ [ce] } ∧
      c!"$anchor" ∉ ms.map Prod.fst ∧ c!"$id" ∉ ms.map Prod.fst ∧ c!"id" ∉ ms.map Prod.fst by
    obtain ⟨ms, hm, a1, a2, a3⟩ := hm
    exact applyAll_apply E (members_runs E hc hsh) ((any_ref ids).2 hR) h1
      (applyAll_step E hm (no_anchor a1) (applyAll_step E hm (no_id ⟨a2, a3⟩) (applyAll_nil E)))
  rcases hk with hk | hk
  · rw [refDoc_local hk] at hce
    refine ⟨ids, membersRef_runs E (c := ce) (by simp) (by rw [← hce]) hs'.self hs'.ready (members_runs E hc' hsh), ?_⟩
    rw [hkeys]
    exact ⟨hna, hid.1, hid.2⟩
  · obtain ⟨u, b, ptr, e, m, h1, h2, h3, h4, h5, h6, h7⟩ := hk
    have hp : refPointer E.ip t = ptr := by simp only [refPointer, h1, h2]
    rw [refDoc_linked h1 h3 h4 h5, hp] at hce
    have hsr : Shows (s.mem ++ [ce]) (.ref (resolveInD E.ip link kvs) e ptr) s.mem.length := by
      rw [Shows]
      refine ⟨ce, lo, c, ids, by simp, by rw [← hce], hc', hsh, ?_⟩
      exact hd _ fun j hj => by rw [List.getElem?_append_left (hA j hj)]
    obtain ⟨ms, g1, g2⟩ := linked_members (E := E) hg hs' h6 (i := s.mem.length) hsr
    refine ⟨ms, g1, ?_⟩
    rw [g2]
    have key : ∀ k ∈ [c!"$anchor", c!"$id", c!"id"], k ∉ kvs.map Prod.fst → k ∉ (Verif.overlay (resolveInD E.ip link kvs) m).map Prod.fst := by
      intro k hk hk' hm
      rcases overlay_keys hm with hm | hm
      · rw [resolveInD_keys] at hm; exact hk' hm
      · exact h7 k hk hm
    exact ⟨key _ (by simp) hna, key _ (by simp) hid.1, key _ (by simp) hid.2⟩

/-- `AnchorKeyword.apply` on an object. -/
theorem applyAnchor_runs {x : Schema} {s : St} (hs : During sch store m0 mem0 x s) {lo : Nat} {c : Cell} {ids : List (Str × Nat)} (hc : s.mem[lo]? = some c)
    (hsh : c.shape = .obj ids) {t : Str} {y : Nat} {q : Option Nat} {p : Str} (hy : dictGet c!"$anchor" ids = some y) (hyc : s.mem[y]? = some ⟨.str t, q, p⟩) :
    Runs (fun f => applyCore E (ops E f) sch.length lo .anchor) s (.ok lo)
      { s with mem := s.mem.set lo { c with shape := .obj (dictDel c!"$anchor" ids) }, docs := sch ++ [{ x with anchors := dictSet t lo x.anchors }] } := by
  have hA : c!"$anchor" ∈ ids.map Prod.fst := List.mem_map.2 ⟨_, dictGet_mem hy, rfl⟩
  have hset : s.docs.set sch.length { x with anchors := dictSet t lo x.anchors } = sch ++ [{ x with anchors := dictSet t lo x.anchors }] := by
    rw [hs.docs]; simp
  rw [← hset]
  change Runs (fun f => applyAnchor E (ops E f) sch.length lo) _ _ _
  unfold applyAnchor
  refine Runs.bind (itemText_runs E (members_runs E hc hsh) hy hyc) ?_
  refine Runs.bind (.const (schema_apply hs.self)) ?_
  refine Runs.bind (a := ()) (s1 := { s with docs := s.docs.set sch.length { x with anchors := dictSet t lo x.anchors } }) (.const rfl) ?_
  refine Runs.bind (.const (cell_apply (s := { s with docs := s.docs.set sch.length { x with anchors := dictSet t lo x.anchors } }) hc)) ?_
  simp only [hsh, dictHas_iff.2 hA, if_true]
  exact Runs.bind (.const (setShape_apply (s := { s with docs := s.docs.set sch.length { x with anchors := dictSet t lo x.anchors } }) hc _)) .pure

/-- The anchor of an object. -/
def anchorAt (kvs : List (Str × Node)) (lo : Nat) : List (Str × Nat) := match dictGet c!"$anchor" kvs with | some (.str a) => [(a, lo)] | _ => []

/-- The first two core keywords on an object without `$ref`. -/
theorem core_noref {x : Schema} {s : St} (hs : During sch store m0 mem0 x s) {link : Str → Nat} {lo : Nat} {c : Cell}
    {kvs : List (Str × Node)} {ids : List (Str × Nat)} (hlo : m0 ≤ lo) (hc : s.mem[lo]? = some c) (hsh : c.shape = .obj ids)
    (hd : ShowsD s.mem (resolveInD E.ip link kvs) ids) {P : Str → Prop} (hco : CoreObject P kvs) (hnr : c!"$ref" ∉ kvs.map Prod.fst) :
    ∃ s', (∀ y s'', Runs (fun f => applyAll E (ops E f) sch.length [.id] lo) s' y s'' →
        Runs (fun f => applyAll E (ops E f) sch.length [.ref, .anchor, .id] lo) s y s'') ∧
      s'.mem = s.mem.set lo ⟨.obj (dictDel c!"$anchor" ids), c.parent, c.key⟩ ∧
      During sch store m0 mem0 { x with anchors := register (anchorAt kvs lo) x.anchors } s' := by
  have hkeys : ids.map Prod.fst = kvs.map Prod.fst := by rw [hd.keys, resolveInD_keys]
  have hm := members_runs E hc hsh
  have hlt := (List.getElem?_eq_some_iff.1 hc).1
  rw [← hkeys] at hnr
  by_cases hA : c!"$anchor" ∈ kvs.map Prod.fst
  · obtain ⟨a, ha⟩ := hco.anchor hA
    obtain ⟨y, q, p, hy, hyc⟩ := hd.text ha
    have h1 := applyAnchor_runs (E := E) hs hc hsh hy hyc
    rw [← hkeys] at hA
    refine ⟨_, fun z s'' h => applyAll_step E hm (no_ref hnr) (applyAll_apply E hm ((any_anchor ids).2 hA) h1 h), rfl, ?_⟩
    refine ⟨by simp only [anchorAt, ha, register]; rfl, hs.ready, hs.storage, fun j hj => ?_, ?_⟩
    · change (s.mem.set lo _)[j]? = _
      rw [List.getElem?_set_ne (by omega)]; exact hs.mem j hj
    · change _ ≤ (s.mem.set lo _).length
      rw [List.length_set]; exact hs.room
  · have hA' : dictGet c!"$anchor" kvs = none := dictGet_none hA
    rw [← hkeys] at hA
    refine ⟨s, fun z s'' h => applyAll_step E hm (no_ref hnr) (applyAll_step E hm (no_anchor hA) h), ?_, ?_⟩
    · rw [del_absent hA, ← hsh]
      apply List.ext_getElem?
      intro j
      by_cases e : lo = j
      · subst e; rw [List.getElem?_set_self hlt]; exact hc
      · rw [List.getElem?_set_ne e]
    · simpa only [anchorAt, hA', register, List.foldl_nil] using hs

/-! ## The whole document -/

/-- Only the objects from `lo` to `hi` are modified. -/
structure Within (lo hi : Nat) (s s' : St) : Prop where
  len : s.mem.length ≤ s'.mem.length
  mem : ∀ j, j < s.mem.length → (j < lo ∨ hi ≤ j) → s'.mem[j]? = s.mem[j]?

/-- The objects from `lo` to `hi`, and the new ones. -/
def Mine (lo hi : Nat) (s s' : St) (j : Nat) : Prop := (lo ≤ j ∧ j < hi) ∨ (s.mem.length ≤ j ∧ j < s'.mem.length)

/-- Everything below an object is processed. -/
structure Kids (E : Env) (sch : List Schema) (store : List (Str × Nat)) (m0 : Nat) (mem0 : Mem) (kvs : List (Str × Node)) (ids : List (Str × Nat))
    (lo hi : Nat) (x : Schema) (s : St) (ids' : List (Str × Nat)) (s' : St) (L : List (Str × Nat)) : Prop where
  runs : Runs (fun f => eachD ((ops E f).process sch.length [.ref, .anchor, .id]) ids) s (.ok ids') s'
  during : During sch store m0 mem0 { x with anchors := register L x.anchors } s'
  within : Within lo hi s s'
  shows : ShowsDOn (Mine lo hi s s') s'.mem (resolveInD E.ip (refDoc E.ip store sch.length) kvs) ids'
  anchors : ShowsDOn (Mine lo hi s s') s'.mem (anchoredInD E.ip (refDoc E.ip store sch.length) kvs) L

theorem anchorAt_shows {m : Mem} {kvs : List (Str × Node)} {lo : Nat} {n : Node} (h : Shows m n lo) :
    ShowsD m (match dictGet c!"$anchor" kvs with | some (.str a) => [(a, n)] | _ => []) (anchorAt kvs lo) := by
  unfold anchorAt
  split
  · rw [ShowsD]; exact ⟨lo, [], rfl, h, by rw [ShowsD]⟩
  · rw [ShowsD]

/-- After its members, the object itself. -/
theorem object_linked {x : Schema} {s : St} (hg : Ground sch store docs m0 mem0) {kvs : List (Str × Node)} {ids ids' : List (Str × Nat)}
    {p : Option Nat} {k : Str} {lo hi : Nat} {L : List (Str × Nat)} {s3 : St} (hc : s.mem[lo]? = some ⟨.obj ids, p, k⟩) (hlo : m0 ≤ lo) (hlh : lo < hi) (hhi : hi ≤ s.mem.length)
    (hk : Kids E sch store m0 mem0 kvs ids (lo + 1) hi x s ids' s3 L) (hco : CoreObject (KnownRef E.ip docs store) kvs) :
    (c!"$ref" ∈ kvs.map Prod.fst → Nameless kvs → ∃ r s', Runs (fun f => (ops E f).process sch.length [.ref, .anchor, .id] lo) s (.ok r) s' ∧
      During sch store m0 mem0 { x with anchors := register L x.anchors } s' ∧ Within lo hi s s' ∧
      ShowsOn (Mine lo hi s s') s'.mem (resolveIn E.ip (refDoc E.ip store sch.length) (.obj kvs)) r ∧
      ShowsDOn (Mine lo hi s s') s'.mem (anchoredIn E.ip (refDoc E.ip store sch.length) (.obj kvs)) L) ∧
    (c!"$ref" ∉ kvs.map Prod.fst → ∃ s4, (∀ y s', Runs (fun f => applyAll E (ops E f) sch.length [.id] lo) s4 y s' →
        Runs (fun f => (ops E f).process sch.length [.ref, .anchor, .id] lo) s y s') ∧
      During sch store m0 mem0 { x with anchors := register (L ++ anchorAt kvs lo) x.anchors } s4 ∧ Within lo hi s s4 ∧
      s4.mem[lo]? = some ⟨.obj (dictDel c!"$anchor" ids'), p, k⟩ ∧
      ShowsDOn (Mine (lo + 1) hi s s4) s4.mem (resolveInD E.ip (refDoc E.ip store sch.length) kvs) ids' ∧
      ShowsOn (Mine lo hi s s4) s4.mem (resolveIn E.ip (refDoc E.ip store sch.length) (.obj kvs)) lo ∧
      ShowsDOn (Mine lo hi s s4) s4.mem (anchoredIn E.ip (refDoc E.ip store sch.length) (.obj kvs)) (L ++ anchorAt kvs lo)) := by
  have hll := (List.getElem?_eq_some_iff.1 hc).1
  have hl3 := hk.within.len
  have hc3 : s3.mem[lo]? = some ⟨.obj ids, p, k⟩ := by rw [hk.within.mem lo hll (by omega)]; exact hc
  generalize hs4 : ({ s3 with mem := s3.mem.set lo ⟨.obj ids', p, k⟩ } : St) = s4
  have hm4 : s4.mem = s3.mem.set lo ⟨.obj ids', p, k⟩ := by rw [← hs4]
  have hlen4 : s4.mem.length = s3.mem.length := by rw [hm4, List.length_set]
  have hc4 : s4.mem[lo]? = some ⟨.obj ids', p, k⟩ := by rw [hm4]; exact List.getElem?_set_self (by omega)
  have hne : ∀ j, j ≠ lo → s4.mem[j]? = s3.mem[j]? := fun j hj => by rw [hm4, List.getElem?_set_ne (Ne.symm hj)]
  have hd4 : During sch store m0 mem0 { x with anchors := register L x.anchors } s4 := by
    refine ⟨by rw [← hs4]; exact hk.during.docs, hk.during.ready, by rw [← hs4]; exact hk.during.storage, fun j hj => ?_, by rw [hlen4]; exact hk.during.room⟩
    rw [hne j (by omega)]; exact hk.during.mem j hj
  have hself : ∀ s' : St, ∀ j, Mine (lo + 1) hi s s' j → j ≠ lo := by
    rintro s' j (h | h) rfl
    · omega
    · omega
  have hsh4 : ShowsDOn (Mine (lo + 1) hi s s4) s4.mem (resolveInD E.ip (refDoc E.ip store sch.length) kvs) ids' := by
    refine hk.shows.keep (fun j hj => ?_) fun j hj => hne j (hself _ j hj)
    unfold Mine at hj ⊢; omega
  have han4 : ShowsDOn (Mine (lo + 1) hi s s4) s4.mem (anchoredInD E.ip (refDoc E.ip store sch.length) kvs) L := by
    refine hk.anchors.keep (fun j hj => ?_) fun j hj => hne j (hself _ j hj)
    unfold Mine at hj ⊢; omega
  have hrun : ∀ y s', Runs (fun f => applyAll E (ops E f) sch.length [.ref, .anchor, .id] lo) s4 y s' →
      Runs (fun f => (ops E f).process sch.length [.ref, .anchor, .id] lo) s y s' := by
    intro y s' h
    refine Runs.shift (g := fun f => processS E (ops E f) sch.length _ lo) ?_ (fun f => rfl)
    unfold processS
    refine Runs.bind (.next fun f => kind_plain E hc rfl) ?_
    simp only [Shape.kind, ne_eq, not_true_eq_false, if_false]
    refine Runs.bind (members_runs E hc rfl) (Runs.bind hk.runs (Runs.bind (.const (setMembers_obj hc3 rfl)) ?_))
    rw [hs4]; exact h
  have hlt4 : lo < s4.mem.length := by omega
  have hroom : ∀ j, Mine (lo + 1) hi s s4 j → j < s4.mem.length := by unfold Mine; intro j hj; omega
  refine ⟨fun hR hid => ?_, fun hR => ?_⟩
  · obtain ⟨hna, t, ht, hkn⟩ := hco.ref hR
    have hr := core_ref (E := E) (link := refDoc E.ip store sch.length) hg hd4 hc4 rfl hroom hsh4 hid hna ht hkn
    generalize hce : (⟨.ref lo (refDoc E.ip store sch.length t) (refPointer E.ip t), p, k⟩ : Cell) = ce at hr
    have happ : ∀ j, j < s4.mem.length → (s4.mem ++ [ce])[j]? = s4.mem[j]? := fun j hj => List.getElem?_append_left hj
    have hlen5 : (s4.mem ++ [ce]).length = s4.mem.length + 1 := by simp
    have hmine : ∀ j, Mine (lo + 1) hi s s4 j → Mine lo hi s { s4 with mem := s4.mem ++ [ce] } j := by
      unfold Mine; intro j hj
      simp only [hlen5]; omega
    have hroom4 := hd4.room
    refine ⟨_, _, hrun _ _ hr, ⟨hd4.docs, hd4.ready, hd4.storage, fun j hj => (happ j (by omega)).trans (hd4.mem j hj), ?_⟩,
      ⟨?_, fun j hj hj' => (happ j (by omega)).trans ((hne j (by omega)).trans (hk.within.mem j hj (by omega)))⟩, fun m' e => ?_, ?_⟩
    · simp only [hlen5]; omega
    · simp only [hlen5]; omega
    · have e1 : resolveIn E.ip (refDoc E.ip store sch.length) (.obj kvs) = .ref (resolveInD E.ip (refDoc E.ip store sch.length) kvs)
          (refDoc E.ip store sch.length t) (refPointer E.ip t) := by rw [resolveIn]; simp only [ht]
      rw [e1, Shows]
      refine ⟨ce, lo, ⟨.obj ids', p, k⟩, ids', (e _ (.inr ⟨by omega, by simp only [hlen5]; omega⟩)).trans (by simp), by rw [← hce],
        (e lo (.inl ⟨Nat.le_refl _, hlh⟩)).trans ((happ lo hlt4).trans hc4), rfl, hsh4 m' fun j hj => ?_⟩
      exact (e j (hmine j hj)).trans (happ j (hroom j hj))
    · rw [anchoredIn, dictGet_none hna, List.append_nil]
      exact han4.keep hmine fun j hj => happ j (hroom j hj)
  · obtain ⟨s5, h1, h2, h3⟩ := core_noref (E := E) (link := refDoc E.ip store sch.length) hd4 hlo hc4 rfl hsh4.shows hco hR
    have hlen5 : s5.mem.length = s4.mem.length := by rw [h2, List.length_set]
    have hc5 : s5.mem[lo]? = some ⟨.obj (dictDel c!"$anchor" ids'), p, k⟩ := by rw [h2]; exact List.getElem?_set_self hlt4
    have hne5 : ∀ j, j ≠ lo → s5.mem[j]? = s4.mem[j]? := fun j hj => by rw [h2, List.getElem?_set_ne (Ne.symm hj)]
    have hmine : ∀ j, Mine (lo + 1) hi s s4 j → Mine lo hi s s5 j := by unfold Mine; intro j hj; omega
    have hsh5 : ShowsDOn (Mine (lo + 1) hi s s5) s5.mem (resolveInD E.ip (refDoc E.ip store sch.length) kvs) ids' := by
      refine hsh4.keep (fun j hj => ?_) fun j hj => hne5 j (hself _ j hj)
      unfold Mine at hj ⊢; omega
    have hobj : ShowsOn (Mine lo hi s s5) s5.mem (resolveIn E.ip (refDoc E.ip store sch.length) (.obj kvs)) lo := by
      intro m' e
      have e1 : resolveIn E.ip (refDoc E.ip store sch.length) (.obj kvs) = .obj (dictDel c!"$anchor" (resolveInD E.ip (refDoc E.ip store sch.length) kvs)) := by
        rw [resolveIn]; simp only [dictGet_none hR]
      rw [e1, Shows]
      refine ⟨⟨.obj (dictDel c!"$anchor" ids'), p, k⟩, _, (e lo (.inl ⟨Nat.le_refl _, hlh⟩)).trans hc5, rfl, ShowsD.del _ (hsh5 m' fun j hj => e j ?_)⟩
      unfold Mine at hj ⊢; omega
    refine ⟨s5, fun y s' h => hrun y s' (h1 y s' h), ?_, ⟨?_, fun j hj hj' => ?_⟩, hc5, hsh5, hobj, fun m' e => ?_⟩
    · rw [register_append]; exact h3
    · omega
    · rw [hne5 j (by omega), hne j (by omega)]; exact hk.within.mem j hj (by omega)
    · rw [anchoredIn]
      refine (han4 m' fun j hj => ?_).append (anchorAt_shows (hobj m' e))
      rw [e j (hmine j hj), hne5 j (hself _ j hj)]

/-- A part of the document is processed. -/
def Part (E : Env) (sch : List Schema) (store : List (Str × Nat)) (m0 : Nat) (mem0 : Mem) (n : Node) (lo hi : Nat) (x : Schema) (s : St) : Prop :=
  ∃ r s' L, Runs (fun f => (ops E f).process sch.length [.ref, .anchor, .id] lo) s (.ok r) s' ∧
    During sch store m0 mem0 { x with anchors := register L x.anchors } s' ∧ Within lo hi s s' ∧
    ShowsOn (Mine lo hi s s') s'.mem (resolveIn E.ip (refDoc E.ip store sch.length) n) r ∧
    ShowsDOn (Mine lo hi s s') s'.mem (anchoredIn E.ip (refDoc E.ip store sch.length) n) L

theorem part_leaf {n : Node} (hn : ∀ kvs, n ≠ .obj kvs) {p : Option Nat} {k : Str} {lo hi : Nat} {x : Schema} {s : St} (ht : Tree s.mem n p k lo hi)
    (hs : During sch store m0 mem0 x s) : Part E sch store m0 mem0 n lo hi x s := by
  have hr : Runs (fun f => (ops E f).process sch.length [.ref, .anchor, .id] lo) s (.ok lo) s := by
    cases n with
    | obj kvs => exact absurd rfl (hn kvs)
    | arr xs => rw [Tree] at ht; obtain ⟨ids, ht, -⟩ := ht; exact process_leaf E _ _ ht rfl (by simp [Shape.kind])
    | ref own d p => rw [Tree] at ht; exact ht.elim
    | _ => rw [Tree] at ht; exact process_leaf E _ _ ht.1 rfl (by simp [Shape.kind])
  have h1 : resolveIn E.ip (refDoc E.ip store sch.length) n = n := by
    cases n with
    | obj kvs => exact absurd rfl (hn kvs)
    | _ => rw [resolveIn]; exact hn
  have h2 : anchoredIn E.ip (refDoc E.ip store sch.length) n = [] := by
    cases n with
    | obj kvs => exact absurd rfl (hn kvs)
    | _ => rw [anchoredIn]; exact hn
  refine ⟨lo, s, [], hr, hs, ⟨Nat.le_refl _, fun _ _ _ => rfl⟩, ?_, ?_⟩
  · rw [h1]; exact ht.showsOn.keep (fun j hj => .inl hj) fun _ _ => rfl
  · rw [h2]; intro m' _; rw [ShowsD]

mutual
theorem process_linked (hg : Ground sch store docs m0 mem0) : ∀ (n : Node) {p : Option Nat} {k : Str} {lo hi : Nat} {x : Schema} {s : St},
    Tree s.mem n p k lo hi → m0 ≤ lo → hi ≤ s.mem.length → During sch store m0 mem0 x s → Linked (KnownRef E.ip docs store) n →
    Part E sch store m0 mem0 n lo hi x s
  | .obj kvs, p, k, lo, hi, x, s, ht, hlo, hhi, hs, hl => by
    have hlt := ht.lt
    rw [Linked] at hl
    rw [Tree] at ht; obtain ⟨ids, h1, h2⟩ := ht
    obtain ⟨ids', s3, L, hk⟩ := kids_linked hg kvs h2 (by omega) hhi hs hl.2.2
    obtain ⟨hA, hB⟩ := object_linked hg h1 hlo hlt hhi hk hl.2.1
    by_cases hR : c!"$ref" ∈ kvs.map Prod.fst
    · obtain ⟨r, s', a1, a2, a3, a4, a5⟩ := hA hR hl.1
      exact ⟨r, s', L, a1, a2, a3, a4, a5⟩
    · obtain ⟨s4, a1, a2, a3, a4, a5, a6, a7⟩ := hB hR
      refine ⟨lo, s4, L ++ anchorAt kvs lo, a1 _ _ (applyAll_step E (members_runs E a4 rfl) (no_id ?_) (applyAll_nil E)), a2, a3, a6, a7⟩
      have hkeys : ids'.map Prod.fst = kvs.map Prod.fst := by rw [a5.shows.keys, resolveInD_keys]
      rw [mem_del (by decide), mem_del (by decide), hkeys]
      exact hl.1
  | .null, p, k, lo, hi, x, s, ht, _, _, hs, _ => part_leaf (by simp) ht hs
  | .bool _, p, k, lo, hi, x, s, ht, _, _, hs, _ => part_leaf (by simp) ht hs
  | .num _, p, k, lo, hi, x, s, ht, _, _, hs, _ => part_leaf (by simp) ht hs
  | .str _, p, k, lo, hi, x, s, ht, _, _, hs, _ => part_leaf (by simp) ht hs
  | .arr _, p, k, lo, hi, x, s, ht, _, _, hs, _ => part_leaf (by simp) ht hs
  | .ref .., p, k, lo, hi, x, s, ht, _, _, hs, _ => part_leaf (by simp) ht hs
theorem kids_linked (hg : Ground sch store docs m0 mem0) : ∀ (xs : List (Str × Node)) {self : Nat} {ids : List (Str × Nat)} {lo hi : Nat} {x : Schema} {s : St},
    TreeD s.mem xs self ids lo hi → m0 ≤ lo → hi ≤ s.mem.length → During sch store m0 mem0 x s → LinkedD (KnownRef E.ip docs store) xs →
    ∃ ids' s' L, Kids E sch store m0 mem0 xs ids lo hi x s ids' s' L
  | [], self, ids, lo, hi, x, s, ht, _, _, hs, _ => by
    rw [TreeD] at ht
    obtain ⟨rfl, rfl⟩ := ht
    exact ⟨[], s, [], .pure, hs, ⟨Nat.le_refl _, fun _ _ _ => rfl⟩, fun m' _ => by rw [resolveInD, ShowsD], fun m' _ => by rw [anchoredInD, ShowsD]⟩
  | (k, n) :: xs, self, ids, lo, hi, x, s, ht, hlo, hhi, hs, hl => by
    rw [TreeD] at ht; obtain ⟨mid, rest, rfl, h1, h2⟩ := ht
    rw [LinkedD] at hl
    have hlt := h1.lt; have hle := h2.le
    obtain ⟨r, s1, L1, a1, a2, a3, a4, a5⟩ := process_linked hg n h1 hlo (by omega) hs hl.1
    have hl1 := a3.len
    have h2' : TreeD s1.mem xs self rest mid hi := h2.keep fun j a b => a3.mem j (by omega) (by omega)
    obtain ⟨ids', s2, L2, hk⟩ := kids_linked hg xs h2' (by omega) (by omega) a2 hl.2
    have hl2 := hk.within.len
    have m1 : ∀ j, Mine lo mid s s1 j → Mine lo hi s s2 j := by unfold Mine; intro j hj; omega
    have m2 : ∀ j, Mine mid hi s1 s2 j → Mine lo hi s s2 j := by unfold Mine; intro j hj; omega
    have e1 : ∀ j, Mine lo mid s s1 j → s2.mem[j]? = s1.mem[j]? := by
      intro j hj; unfold Mine at hj; exact hk.within.mem j (by omega) (by omega)
    refine ⟨(k, r) :: ids', s2, L1 ++ L2, ?_, ?_, ⟨by omega, fun j hj hj' => ?_⟩, fun m' e => ?_, fun m' e => ?_⟩
    · unfold eachD
      exact Runs.bind a1 (Runs.bind hk.runs .pure)
    · rw [register_append]; exact hk.during
    · rw [hk.within.mem j (by omega) (by omega)]; exact a3.mem j hj (by omega)
    · rw [resolveInD, ShowsD]
      exact ⟨r, ids', rfl, (a4.keep m1 e1) m' e, (hk.shows.keep m2 fun _ _ => rfl) m' e⟩
    · rw [anchoredInD]
      exact ((a5.keep m1 e1) m' e).append ((hk.anchors.keep m2 fun _ _ => rfl) m' e)
end

/-- The root, which may have a name. -/
theorem root_linked (hg : Ground sch store docs m0 mem0) {kvs : List (Str × Node)} {k : Str} {lo hi : Nat} {x : Schema} {s : St}
    (ht : Tree s.mem (.obj kvs) none k lo hi) (hlo : m0 ≤ lo) (hhi : hi ≤ s.mem.length) (hs : During sch store m0 mem0 x s)
    (hl : LinkedRoot E.ip (KnownRef E.ip docs store) kvs) :
    ∃ r s' L i, Runs (fun f => (ops E f).process sch.length [.ref, .anchor, .id] lo) s (.ok r) s' ∧
      s'.docs = sch ++ [{ x with anchors := register L x.anchors, ident := i }] ∧ s'.storage = named E.ip store sch.length kvs ∧ Within lo hi s s' ∧
      Shows s'.mem (resolveIn E.ip (refDoc E.ip store sch.length) (.obj kvs)) r ∧
      ShowsD s'.mem (anchoredIn E.ip (refDoc E.ip store sch.length) (.obj kvs)) L := by
  rcases hl.name with hn | ⟨hR, t, htx, u, hu, hfr, habs⟩
  · have hnone : named E.ip store sch.length kvs = store := by
      have : dictHas c!"$id" kvs = false := by rw [Bool.eq_false_iff]; intro e; exact hn.1 (dictHas_iff.1 e)
      simp only [named, nameOf, nameKey, this, Bool.false_eq_true, if_false, dictGet_none hn.2]
    obtain ⟨r, s', L, a1, a2, a3, a4, a5⟩ := process_linked hg (.obj kvs) ht hlo hhi hs (by rw [Linked]; exact ⟨hn, hl.core, hl.kids⟩)
    exact ⟨r, s', L, x.ident, a1, a2.docs, by rw [hnone]; exact a2.storage, a3, a4.shows, a5.shows⟩
  · have hlt := ht.lt
    rw [Tree] at ht; obtain ⟨ids, h1, h2⟩ := ht
    obtain ⟨ids', s3, L, hk⟩ := kids_linked hg kvs h2 (by omega) hhi hs hl.kids
    obtain ⟨-, hB⟩ := object_linked hg h1 hlo hlt hhi hk hl.core
    obtain ⟨s4, a1, a2, a3, a4, a5, a6, a7⟩ := hB hR
    have hkeys : ids'.map Prod.fst = kvs.map Prod.fst := by rw [a5.shows.keys, resolveInD_keys]
    obtain ⟨b, hb⟩ : ∃ b, Uri.baseUri E.ip u = .ok b := ⟨_, Uri.baseUri_eq _ _⟩
    have hbt : Store.baseText E.ip u = .ok (Uri.text b) := by unfold Store.baseText; rw [hb]; rfl
    have hname : nameOf E.ip kvs = some (Uri.text b) := by simp only [nameOf, htx, hu, hbt]
    generalize hx4 : ({ x with anchors := register (L ++ anchorAt kvs lo) x.anchors } : Schema) = x4 at a2
    have hmem := members_runs E a4 rfl
    have hhas : ∀ key, key ≠ c!"$anchor" → dictHas key (dictDel c!"$anchor" ids') = dictHas key kvs := by
      intro key hne
      rw [Bool.eq_iff_iff, dictHas_iff, dictHas_iff, mem_del hne, hkeys]
    have hidt : Runs (fun f => idText E (ops E f) lo) s4 (.ok t) s4 := by
      obtain ⟨y, q, p, hy, hyc⟩ := a5.shows.text htx
      unfold idText
      refine Runs.bind hmem ?_
      rw [hhas _ (by decide)]
      have hget : ∀ key, key ≠ c!"$anchor" → dictGet key (dictDel c!"$anchor" ids') = dictGet key ids' := by
        intro key hne
        exact get_del hne ids'
      cases hI : dictHas c!"$id" kvs with
      | true =>
        simp only [nameKey, hI, if_true] at hy ⊢
        exact itemText_runs E hmem (by rw [hget _ (by decide)]; exact hy) hyc
      | false =>
        simp only [nameKey, hI, Bool.false_eq_true, if_false] at hy ⊢
        exact itemText_runs E hmem (by rw [hget _ (by decide)]; exact hy) hyc
    have hany : (Kw.id.keys.any fun x => dictHas x (dictDel c!"$anchor" ids')) = true := by
      have : dictHas (nameKey kvs) kvs = true := by rw [dictHas_iff]; exact List.mem_map.2 ⟨_, dictGet_mem htx, rfl⟩
      rw [any_id, mem_del (by decide), mem_del (by decide), hkeys]
      unfold nameKey at this
      split at this
      · exact .inl (dictHas_iff.1 this)
      · exact .inr (dictHas_iff.1 this)
    have hset : s4.docs.set sch.length { x4 with ident := some u } = sch ++ [{ x4 with ident := some u }] := by rw [a2.docs]; simp
    generalize hs5 : ({ s4 with docs := sch ++ [{ x4 with ident := some u }] } : St) = s5
    have hrun : Runs (fun f => applyCore E (ops E f) sch.length lo .id) s4 (.ok lo) { s5 with storage := named E.ip store sch.length kvs } := by
      change Runs (fun f => applyId E (ops E f) sch.length lo) _ _ _
      unfold applyId
      refine Runs.bind hidt ?_
      refine Runs.bind (a := u) (s1 := s4) (.const (by rw [hu]; rfl)) ?_
      simp only [hfr, ne_eq, not_true_eq_false, if_false]
      refine Runs.bind (.const (cell_apply a4)) ?_
      simp only
      refine Runs.bind (.const (schema_apply a2.self)) ?_
      refine Runs.bind (a := ()) (s1 := s5) (.const (by rw [← hs5, ← hset]; rfl)) ?_
      refine Runs.bind (a := Uri.text b) (s1 := s5) (.const (by rw [hbt]; rfl)) ?_
      refine Runs.bind (.const (state_apply s5)) ?_
      have hst5 : s5.storage = store := by rw [← hs5]; exact a2.storage
      rw [hst5]
      cases hh : dictHas (Uri.text b) store with
      | true =>
        simp only [if_true, named, hname, hh]
        refine .const ?_
        rw [← hst5]; rfl
      | false =>
        simp only [named, hname, hh, Bool.false_eq_true, if_false]
        refine Runs.bind (a := ()) (.const ?_) .pure
        unfold storeAdd
        rw [M.bind_ok (show (lift (Uri.isAbsolute E.ip u) : M Bool) s5 = (.ok true, s5) by rw [habs]; rfl)]
        rw [if_pos rfl, M.bind_ok (show (lift (Store.baseText E.ip u) : M Str) s5 = (.ok (Uri.text b), s5) by rw [hbt]; rfl), M.bind_ok (state_apply s5), hst5]
        rfl
    refine ⟨lo, _, L ++ anchorAt kvs lo, some u, a1 _ _ (applyAll_apply E hmem hany hrun (applyAll_nil E)), ?_, rfl, ⟨?_, ?_⟩, ?_, ?_⟩
    · rw [← hs5, ← hx4]
    · rw [← hs5]; exact a3.len
    · rw [← hs5]; exact a3.mem
    · rw [← hs5]; exact a6.shows
    · rw [← hs5]; exact a7.shows

/-- Creating and loading one more document. -/
theorem load_linked (E : Env) {s : St} {docs : List Doc} (hm : Mirrors s docs) {voc : List Kw}
    (hvoc : (voc.filter fun k => !k.isAssertion) = [.ref, .anchor, .id]) {kvs : List (Str × Val)}
    (hl : LinkedRoot E.ip (KnownRef E.ip docs s.storage) (wrapDict kvs)) :
    ∃ s1 s2, newDocument (.dict kvs) voc s = (.ok docs.length, s1) ∧ Runs (fun f => (ops E f).load docs.length) s1 (.ok ()) s2 ∧
      s2.storage = named E.ip s.storage docs.length (wrapDict kvs) ∧
      Mirrors s2 (docs ++ [docIn E.ip (refDoc E.ip s.storage docs.length) (wrap (.dict kvs))]) := by
  obtain ⟨ext, ht, e⟩ := newDocument_spec (.inr ⟨kvs, rfl⟩) voc s
  have hlen := hm.length
  have grow : ∀ mem : Mem, (∀ j, j < s.mem.length → mem[j]? = s.mem[j]?) → ∀ (i : Nat) c, s.mem[i]? = some c → mem[i]? = some c := fun mem h i c hc => by
    rw [h i (List.getElem?_eq_some_iff.1 hc).1]; exact hc
  have hg : Ground s.docs s.storage docs s.mem.length s.mem := by
    refine ⟨fun mem h => ⟨hlen, fun d x D hx hD => ?_⟩⟩
    obtain ⟨a, b, c⟩ := hm.doc d x D hx hD
    exact ⟨a, b.keep (grow mem h), c.keep (grow mem h)⟩
  rw [wrap] at ht
  generalize hs1 : ({ s with mem := s.mem ++ ext, docs := s.docs ++ [⟨s.mem.length, false, voc, [], none⟩] } : St) = s1 at e
  have hm1 : s1.mem = s.mem ++ ext := by rw [← hs1]
  have hd : During s.docs s.storage s.mem.length s.mem ⟨s.mem.length, false, voc, [], none⟩ s1 := by
    refine ⟨by rw [← hs1], rfl, by rw [← hs1], fun j hj => by rw [hm1, List.getElem?_append_left hj], by rw [hm1]; simp⟩
  rw [← hm1] at ht
  obtain ⟨r, s2, L, i, h1, h2, h3, h4, h5, h6⟩ := root_linked (E := E) hg ht (Nat.le_refl _) (by rw [hm1]; simp) hd hl
  rw [hlen]
  have hsch2 : s2.docs[s.docs.length]? = some ⟨s.mem.length, false, voc, register L [], i⟩ := by rw [h2]; simp
  have hset : s2.docs.set s.docs.length ⟨r, true, voc, register L [], i⟩ = s.docs ++ [⟨r, true, voc, register L [], i⟩] := by rw [h2]; simp
  refine ⟨s1, { s2 with docs := s.docs ++ [⟨r, true, voc, register L [], i⟩] }, e, Runs.shift (g := fun f => loadS (ops E f) s.docs.length) ?_ (fun f => rfl), h3,
    ⟨by simp [hlen], fun d y D hy hD => ?_⟩⟩
  · unfold loadS
    refine Runs.bind (.const (schema_apply hd.self)) ?_
    simp only [Bool.false_eq_true, if_false, hvoc]
    refine Runs.bind h1 (Runs.bind (.const (schema_apply hsch2)) (.const ?_))
    rw [← hset]; rfl
  · have hkeep := grow s2.mem fun j hj => by
      rw [h4.mem j (by rw [hm1]; simp; omega) (.inl hj), hm1, List.getElem?_append_left hj]
    by_cases hi' : d < docs.length
    · rw [List.getElem?_append_left hi'] at hD
      rw [List.getElem?_append_left (by omega)] at hy
      obtain ⟨a, b, c⟩ := hm.doc d y D hy hD
      exact ⟨a, b.keep hkeep, c.keep hkeep⟩
    · have hlt := (List.getElem?_eq_some_iff.1 hD).1
      simp only [List.length_append, List.length_singleton] at hlt
      obtain rfl : d = docs.length := by omega
      simp only [List.getElem?_concat_length, Option.some.injEq] at hD
      rw [hlen] at hy
      simp only [List.getElem?_concat_length, Option.some.injEq] at hy
      subst hD hy
      refine ⟨rfl, ?_, ?_⟩
      · rw [docIn, wrap]; exact h5
      · rw [docIn, wrap]; exact h6.fold (by rw [ShowsD])

end Verif.Obj
