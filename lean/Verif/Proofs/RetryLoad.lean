import Verif.Proofs.WebRoot
import Verif.Props.Load
import Verif.Props.Retry
import Verif.Spec.Retry
/-! # Loading while some files cannot be read -/

namespace Verif.Spec
open Verif

mutual
theorem resolveIn_without (ip : Rfc3986.IpRe) (l : Str → Nat) : ∀ n : Node, Without coreKeys n → resolveIn ip l n = n
  | .obj kvs, h => by
    rw [Without] at h
    have hR : c!"$ref" ∉ kvs.map Prod.fst := fun h' => Obj.withoutD_keys h _ h' (by decide)
    have hA : c!"$anchor" ∉ kvs.map Prod.fst := fun h' => Obj.withoutD_keys h _ h' (by decide)
    rw [resolveIn, Obj.dictGet_none hR, resolveInD_without ip l kvs h]
    simp only [Obj.del_absent hA]
  | .null, _ => by rw [resolveIn]; simp
  | .bool _, _ => by rw [resolveIn]; simp
  | .num _, _ => by rw [resolveIn]; simp
  | .str _, _ => by rw [resolveIn]; simp
  | .arr _, _ => by rw [resolveIn]; simp
  | .ref .., _ => by rw [resolveIn]; simp
theorem resolveInD_without (ip : Rfc3986.IpRe) (l : Str → Nat) : ∀ kvs : List (Str × Node), WithoutD coreKeys kvs → resolveInD ip l kvs = kvs
  | [], _ => by rw [resolveInD]
  | (k, x) :: r, h => by
    rw [WithoutD] at h
    rw [resolveInD, resolveIn_without ip l x h.2.1, resolveInD_without ip l r h.2.2]
end

mutual
theorem linked_without (P : Str → Prop) : ∀ n : Node, Without coreKeys n → Linked P n
  | .obj kvs, h => by
    rw [Without] at h
    have hk : ∀ k ∈ coreKeys, k ∉ kvs.map Prod.fst := fun k hk h' => Obj.withoutD_keys h _ h' hk
    rw [Linked]
    exact ⟨⟨hk _ (by decide), hk _ (by decide)⟩, ⟨fun h' => absurd h' (hk _ (by decide)), fun h' => absurd h' (hk _ (by decide))⟩, linkedD_without P kvs h⟩
  | .null, _ => by rw [Linked]; trivial; simp
  | .bool _, _ => by rw [Linked]; trivial; simp
  | .num _, _ => by rw [Linked]; trivial; simp
  | .str _, _ => by rw [Linked]; trivial; simp
  | .arr _, _ => by rw [Linked]; trivial; simp
  | .ref .., _ => by rw [Linked]; trivial; simp
theorem linkedD_without (P : Str → Prop) : ∀ kvs : List (Str × Node), WithoutD coreKeys kvs → LinkedD P kvs
  | [], _ => by rw [LinkedD]; trivial
  | (k, x) :: r, h => by
    rw [WithoutD] at h
    rw [LinkedD]; exact ⟨linked_without P x h.2.1, linkedD_without P r h.2.2⟩
end

theorem CoreObject.both {P Q : Str → Prop} {kvs : List (Str × Node)} (h : CoreObject P kvs) (h' : CoreObject Q kvs) : CoreObject (fun t => P t ∧ Q t) kvs :=
  ⟨fun hr => by
    obtain ⟨h1, t, h2, h3⟩ := h.ref hr
    obtain ⟨-, t', h2', h3'⟩ := h'.ref hr
    rw [h2] at h2'; cases h2'
    exact ⟨h1, t, h2, h3, h3'⟩, h.anchor⟩

mutual
theorem Linked.both {P Q : Str → Prop} : ∀ n : Node, Linked P n → Linked Q n → Linked (fun t => P t ∧ Q t) n
  | .obj kvs, h, h' => by
    rw [Linked] at h h' ⊢
    exact ⟨h.1, h.2.1.both h'.2.1, LinkedD.both kvs h.2.2 h'.2.2⟩
  | .null, _, _ => by rw [Linked]; trivial; simp
  | .bool _, _, _ => by rw [Linked]; trivial; simp
  | .num _, _, _ => by rw [Linked]; trivial; simp
  | .str _, _, _ => by rw [Linked]; trivial; simp
  | .arr _, _, _ => by rw [Linked]; trivial; simp
  | .ref .., _, _ => by rw [Linked]; trivial; simp
theorem LinkedD.both {P Q : Str → Prop} : ∀ kvs : List (Str × Node), LinkedD P kvs → LinkedD Q kvs → LinkedD (fun t => P t ∧ Q t) kvs
  | [], _, _ => by rw [LinkedD]; trivial
  | (k, x) :: r, h, h' => by
    rw [LinkedD] at h h' ⊢
    exact ⟨Linked.both x h.1 h'.1, LinkedD.both r h.2 h'.2⟩
end

/-- The members of an object with `$ref`, of which nothing means something to loading. -/
theorem resolveInD_plain (ip : Rfc3986.IpRe) (l : Str → Nat) : ∀ kvs : List (Str × Node), (∀ k n, (k, n) ∈ kvs → Without coreKeys n) → resolveInD ip l kvs = kvs
  | [], _ => by rw [resolveInD]
  | (k, x) :: r, h => by
    rw [resolveInD, resolveIn_without ip l x (h k x (by simp)), resolveInD_plain ip l r fun k' n hn => h k' n (by simp [hn])]

theorem linkedD_plain (P : Str → Prop) : ∀ kvs : List (Str × Node), (∀ k n, (k, n) ∈ kvs → Without coreKeys n) → LinkedD P kvs
  | [], _ => by rw [LinkedD]; trivial
  | (k, x) :: r, h => by
    rw [LinkedD]; exact ⟨linked_without P x (h k x (by simp)), linkedD_plain P r fun k' n hn => h k' n (by simp [hn])⟩

end Verif.Spec

namespace Verif.Obj
open Verif Verif.Spec

variable {E : Env} {d : Nat} {data data' : List (List (Str × Val))} {A A' : Nat → Nat → Prop} {lib : Str → List (Str × Val) → Prop}

theorem process_plain (E : Env) (d : Nat) {s : St} {n : Node} {p : Option Nat} {k : Str} {lo hi : Nat} (ht : Tree s.mem n p k lo hi) (hw : Without coreKeys n) :
    Runs (fun f => (ops E f).process d [.ref, .anchor, .id] lo) s (.ok lo) s :=
  process_without E d _ s ht fun k hk => Props.Without.sub (fun x hx => by
    simp only [List.mem_cons, List.not_mem_nil, or_false] at hk
    rcases hk with rfl | rfl | rfl <;> exact Props.core_keys _ rfl x hx) n hw

theorem each_plain (E : Env) (d : Nat) {s : St} : ∀ {xs : List (Str × Node)} {self : Nat} {ids : List (Str × Nat)} {lo hi : Nat}, TreeD s.mem xs self ids lo hi →
    (∀ k n, (k, n) ∈ xs → Without coreKeys n) → Runs (fun f => eachD ((ops E f).process d [.ref, .anchor, .id]) ids) s (.ok ids) s
  | [], _, ids, _, _, h, _ => by rw [TreeD] at h; rw [h.1]; exact .pure
  | (k, x) :: xs, _, ids, _, _, h, hw => by
    rw [TreeD] at h; obtain ⟨mid, rest, rfl, h1, h2⟩ := h
    exact eachD_cons (process_plain E d h1 (hw k x (by simp))) (each_plain E d h2 fun k' n hn => hw k' n (by simp [hn]))

/-- A reference to a document that is not there and cannot be read. -/
def GoneRef (E : Env) (gone : Str → Prop) (s : St) (t : Str) : Prop :=
  ∃ u k ptr e, Uri.parse E.ip t = .ok u ∧ Pointer.parse u.fragment = .ok ptr ∧ Store.baseText E.ip u = .ok k ∧ k ≠ [] ∧ dictGet k s.storage = none ∧ gone k ∧ E.file u = .err e

/-- `RefKeyword.apply` of such a reference. -/
theorem applyRef_gone {gone : Str → Prop} {x : Schema} {s : St} (hs : s.docs[d]? = some x) {lo : Nat} {c : Cell} {ids : List (Str × Nat)} (hc : s.mem[lo]? = some c)
    (hsh : c.shape = .obj ids) {t : Str} {y : Nat} {q : Option Nat} {p : Str} (hy : dictGet c!"$ref" ids = some y) (hyc : s.mem[y]? = some ⟨.str t, q, p⟩)
    (hk : GoneRef E gone s t) : ∃ e, Runs (fun f => applyCore E (ops E f) d lo .ref) s (.err e) s := by
  obtain ⟨u, k, ptr, e, h1, h2, h3, h4, h5, -, h6⟩ := hk
  obtain ⟨b, hb⟩ : ∃ b, Uri.baseUri E.ip u = .ok b := ⟨_, Uri.baseUri_eq _ _⟩
  have hkb : k = Uri.text b := by
    unfold Store.baseText at h3; rw [hb] at h3; cases h3; rfl
  have ht : Uri.truth b = true := by
    cases h : Uri.truth b with
    | true => rfl
    | false => exact absurd (hkb.trans ((Uri.truth_text b).1 h)) h4
  have hbt : (lift (Store.baseText E.ip u) : M Str) s = (.ok k, s) := by rw [h3]; rfl
  have hl : ∃ e', storeLoad E u x.vocabulary s = (.err e', s) := by
    unfold storeLoad
    rw [M.bind_ok hbt, M.bind_ok (state_apply s)]
    simp only [h5, h6]
    cases e <;> exact ⟨_, rfl⟩
  obtain ⟨e', hl⟩ := hl
  refine ⟨e', ?_⟩
  change Runs (fun f => applyRef E (ops E f) d lo) _ _ _
  unfold applyRef
  refine Runs.bind (itemText_runs E (members_runs E hc hsh) hy hyc) ?_
  refine Runs.bind (a := u) (s1 := s) (.const (by rw [h1]; rfl)) ?_
  refine Runs.bind (a := ptr) (s1 := s) (.const (by rw [h2]; rfl)) ?_
  refine Runs.bind (a := b) (s1 := s) (.const (by rw [hb]; rfl)) ?_
  refine Runs.bind (.const (cell_apply hc)) ?_
  simp only [ht, Bool.not_true, Bool.false_eq_true, if_false]
  exact Runs.bind (.const (schema_apply hs)) (Runs.bind_err (.const hl))

/-- What is gone stays so while other documents are found. -/
theorem GoneRef.mono {gone : Str → Prop} {s s' : St} (hl : ∀ k kvs, lib k kvs → ¬gone k) (hg : Grow lib d data A s data' A' s') {t : Str} (h : GoneRef E gone s t) : GoneRef E gone s' t := by
  obtain ⟨u, k, ptr, e, h1, h2, h3, h4, h5, h6, h7⟩ := h
  refine ⟨u, k, ptr, e, h1, h2, h3, h4, ?_, h6, h7⟩
  cases hs : dictGet k s'.storage with
  | none => rfl
  | some i =>
    rcases hg.new k i hs with h | ⟨-, v, -, hv⟩
    · rw [h5] at h; cases h
    · exact absurd h6 (hl k v hv)

/-- One member of the root. -/
def ShallowMember (n : Node) : Prop := Without coreKeys n ∨ ∃ m, n = .obj m ∧ c!"$ref" ∈ m.map Prod.fst ∧ ∀ k' n', (k', n') ∈ m → Without coreKeys n'

/-- The members of the root, one of which refers to a document that cannot be read. -/
theorem kids_gone {gone : Str → Prop} (hlg : ∀ k kvs, lib k kvs → ¬gone k) {x : Schema} : ∀ (xs : List (Str × Node)) {self : Nat} {ids : List (Str × Nat)} {lo hi : Nat}
    {data : List (List (Str × Val))} {A : Nat → Nat → Prop} {s : St},
    TreeD s.mem xs self ids lo hi → hi ≤ s.mem.length → Doing E.ip d data A x s → (∀ k n, (k, n) ∈ xs → ShallowMember n) →
    LinkedD (fun t => NextRef E lib data s t ∨ GoneRef E gone s t) xs → ¬LinkedD (fun t => ¬GoneRef E gone s t) xs →
    ∃ e data' A' s', Runs (fun f => eachD ((ops E f).process d [.ref, .anchor, .id]) ids) s (.err e) s' ∧ Doing E.ip d data' A' x s' ∧ Grow lib d data A s data' A' s' ∧
      ∀ j, j < s.mem.length → s'.mem[j]? = s.mem[j]?
  | [], self, ids, lo, hi, data, A, s, _, _, _, _, _, hb => absurd (by rw [LinkedD]; trivial) hb
  | (k, n) :: xs, self, ids, lo, hi, data, A, s, ht, hhi, hs, hsm, hl, hb => by
    rw [TreeD] at ht; obtain ⟨mid, rest, rfl, h1, h2⟩ := ht
    rw [LinkedD] at hl hb
    have hlt := h1.lt; have hle := h2.le
    rcases hsm k n (by simp) with hw | ⟨m, rfl, hR, hm⟩
    · obtain ⟨e, data', A', s', r1, r2, r3, r4⟩ := kids_gone hlg xs h2 hhi hs (fun k' n' hn => hsm k' n' (by simp [hn])) hl.2 fun h => hb ⟨linked_without _ n hw, h⟩
      exact ⟨e, data', A', s', eachD_later (process_plain E d h1 hw) r1, r2, r3, r4⟩
    · have hlm := hl.1
      rw [Linked] at hlm
      rw [Tree] at h1; obtain ⟨mids, c1, c2⟩ := h1
      obtain ⟨hna, t, htx, hor⟩ := hlm.2.1.ref hR
      have hkids := each_plain E d c2 hm
      have hset : ({ s with mem := s.mem.set lo ⟨.obj mids, some self, k⟩ } : St) = s := by rw [set_self c1]
      have hsd : ShowsD s.mem (resolveInD E.ip (fun _ => 0) m) mids := by rw [resolveInD_plain _ _ _ hm]; exact c2.shows
      have hbody : ∀ y s', Runs (fun f => applyAll E (ops E f) d [.ref, .anchor, .id] lo) s y s' → Runs (fun f => (ops E f).process d [.ref, .anchor, .id] lo) s y s' :=
        fun y s' h => process_obj E c1 rfl hkids c1 rfl (by rw [hset]; exact h)
      by_cases hg : GoneRef E gone s t
      · obtain ⟨y, q, p, hy, hyc⟩ := hsd.text htx
        obtain ⟨e, he⟩ := applyRef_gone hs.self c1 rfl hy hyc hg
        refine ⟨e, data, A, s, eachD_err (hbody _ _ ?_), hs, Grow.refl _ _ _ _ _, fun _ _ => rfl⟩
        exact applyAll_fail E (members_runs E c1 rfl) ((any_ref mids).2 (List.mem_map.2 ⟨_, dictGet_mem hy, rfl⟩)) he
      · have hnx : NextRef E lib data s t := hor.resolve_right hg
        obtain ⟨data1, A1, s1, r, a1, a2, a3, -, -, a4, -⟩ := core_next hs c1 rfl hsd hlm.1 hna htx hnx
        have hlen := a3.mem
        have hmono : ∀ t, GoneRef E gone s t → GoneRef E gone s1 t := fun t h => h.mono hlg a3
        have hhead : Linked (fun t => ¬GoneRef E gone s t) (.obj m) := by
          rw [Linked]
          refine ⟨hlm.1, ⟨fun _ => ⟨hna, t, htx, hg⟩, hlm.2.1.anchor⟩, linkedD_plain _ m hm⟩
        obtain ⟨e, data', A', s', r1, r2, r3, r4⟩ := kids_gone hlg xs (data := data1) (A := A1) (s := s1) (h2.keep fun j _ b => a4 j (by omega)) (by omega) a2
          (fun k' n' hn => hsm k' n' (by simp [hn]))
          (LinkedD.mono (fun t ht => ht.imp (fun h => h.mono hs.web a3 fun y hy => by rw [a2.self] at hy; cases hy; exact a2.ready) (hmono t)) _ hl.2)
          fun h => hb ⟨hhead, LinkedD.mono (fun t ht h' => ht (hmono t h')) _ h⟩
        exact ⟨e, data', A', s', eachD_later (hbody _ _ a1) r1, r2, a3.trans hs.lt r3, fun j hj => by rw [r4 j (by omega), a4 j hj]⟩

variable {voc : List Kw} {made : List (Nat × List (Str × Val))}

/-- The books are kept when documents of the library have been added. -/
theorem WebHolds.grown {s s' : St} (h : WebHolds E voc lib made data A s) (hw : Web E.ip none data' A' s')
    (keyed : ∀ e kvs, data'[e]? = some kvs → data[e]? = some kvs ∨ ∃ k, dictGet k s'.storage = some e ∧ lib k kvs) (hdata : ∃ more, data' = data ++ more)
    (store : ∀ k e, dictGet k s.storage = some e → dictGet k s'.storage = some e)
    (new : ∀ k e, dictGet k s'.storage = some e → dictGet k s.storage = some e ∨ ∃ kvs, data'[e]? = some kvs ∧ lib k kvs)
    (room : s'.docs.length + s.storage.length ≤ s.docs.length + s'.storage.length)
    (nodup : (s.storage.map Prod.fst).Nodup → (s'.storage.map Prod.fst).Nodup)
    (hv : ∀ v, (∀ y ∈ s.docs, y.vocabulary = v) → ∀ y ∈ s'.docs, y.vocabulary = v) : WebHolds E voc lib made data' A' s' := by
  obtain ⟨more, rfl⟩ := hdata
  have hold : ∀ (e : Nat) kvs, data[e]? = some kvs → (data ++ more)[e]? = some kvs := fun e v hv => by
    rw [List.getElem?_append_left (List.getElem?_eq_some_iff.1 hv).1]; exact hv
  refine ⟨hw, fun k e he => ?_, fun d v hv => ⟨hold d v (h.created d v hv).1, (h.created d v hv).2⟩, fun e v hv => ?_, ?_, nodup h.nodup, hv _ h.words⟩
  · rcases new k e he with h' | h'
    · obtain ⟨v, hv, hl⟩ := h.stored k e h'
      exact ⟨v, hold e v hv, hl⟩
    · exact h'
  · rcases keyed e v hv with h' | h'
    · rcases h.origin e v h' with h' | ⟨k, h', hl⟩
      · exact .inl h'
      · exact .inr ⟨k, store k e h', hl⟩
    · exact .inr h'
  · have := h.room
    omega

/-- An attempt while some files cannot be read returns or raises, and afterwards the state is one from which everything can be loaded. -/
theorem WebHolds.attempt (hlib : ∀ k kvs, lib k kvs → WebDoc E.ip E.file lib kvs) {s : St} (h : WebHolds E voc lib made data A s) {kvs : List (Str × Val)}
    (hd : (d, kvs) ∈ made) (hsh : Shallow (wrapDict kvs)) {E0 : Env} (hE : Lacks E E0) :
    ∃ x data' A' s', Runs (fun f => (ops E0 f).load d) s x s' ∧ (x = .ok () ∨ ∃ e, x = .err e) ∧ WebHolds E voc lib made data' A' s' := by
  obtain ⟨ip, w0, file0⟩ := E0
  obtain ⟨hip, gone, hgone⟩ := hE
  change ip = E.ip at hip
  subst hip
  change ∀ u k, _ → (_ → ∃ e, file0 u = .err e) ∧ (_ → file0 u = E.file u) at hgone
  obtain ⟨hk, hdoc⟩ := h.created d kvs hd
  have hlen := h.web.length
  have hlt : d < s.docs.length := by rw [← hlen]; exact (List.getElem?_eq_some_iff.1 hk).1
  obtain ⟨x, hx⟩ : ∃ x, s.docs[d]? = some x := ⟨_, List.getElem?_eq_getElem hlt⟩
  cases hr : x.ready with
  | true => exact ⟨_, data, A, s, .next fun f => load_again hx hr, .inl rfl, h⟩
  | false =>
    let E1 : Env := ⟨E.ip, w0, file0⟩
    let lib0 : Str → List (Str × Val) → Prop := fun k v => lib k v ∧ ¬gone k
    have hmay : ∀ t, WebRef E.ip E.file lib t → NextRef E1 lib0 data s t ∨ GoneRef E1 gone s t := by
      intro t ht
      rcases h.next ht with h' | ⟨u, k, ptr, h1, h2, h3, h4, h5⟩
      · exact .inl (.inl h')
      · rcases h5 with h5 | ⟨h5, v, h6, h7⟩
        · exact .inl (.inr ⟨u, k, ptr, h1, h2, h3, h4, .inl h5⟩)
        · by_cases hg : gone k
          · obtain ⟨e, he⟩ := (hgone u k h3).1 hg
            exact .inr ⟨u, k, ptr, e, h1, h2, h3, h4, h5, hg, he⟩
          · exact .inl (.inr ⟨u, k, ptr, h1, h2, h3, h4, .inr ⟨h5, v, by rw [← h6]; exact (hgone u k h3).2 hg, h7, hg⟩⟩)
    have hroot : LinkedRoot E.ip (fun t => NextRef E1 lib0 data s t ∨ GoneRef E1 gone s t) (wrapDict kvs) := hdoc.root.mono hmay
    by_cases hall : LinkedD (fun t => ¬GoneRef E1 gone s t) (wrapDict kvs)
    · have hnext : LinkedRoot E.ip (NextRef E1 lib0 data s) (wrapDict kvs) :=
        ⟨LinkedD.mono (fun t ht => ht.1.resolve_right ht.2) _ (LinkedD.both _ hroot.kids hall), ⟨fun h' => absurd h' hsh.1, hroot.core.anchor⟩, hroot.name⟩
      obtain ⟨data', A', s', h1, h2, h3, -⟩ := load_next (E := E1) (lib := lib0) h.web hx hr hk hnext
      refine ⟨_, data', A', s', h1, .inl rfl, h.grown h2 (fun e v hv => (h3.keyed e v hv).imp id fun ⟨k, a, b⟩ => ⟨k, a, b.1⟩) h3.data h3.store (fun k e he => ?_) h3.room h3.nodup h3.voc⟩
      rcases h3.new k e he with h' | ⟨-, v, hv, hl⟩ | ⟨rfl, v, hv, hn⟩
      · exact .inl h'
      · exact .inr ⟨v, hv, hl.1⟩
      · refine .inr ⟨v, hv, ?_⟩
        obtain ⟨more, hmore⟩ := h3.data
        have hk' : data'[e]? = some kvs := by
          rw [hmore, List.getElem?_append_left (List.getElem?_eq_some_iff.1 hk).1]; exact hk
        rw [hk'] at hv; cases hv
        exact hdoc.name k hn
    · obtain ⟨hcore, ⟨h0, -⟩ | ⟨-, hanch, hi, ht, hB⟩⟩ := h.web.doc d x kvs hx hk (by simp)
      · rw [hr] at h0; cases h0
      have hs : Doing E1.ip d data A x s := ⟨⟨h.web.length, fun e y v h1 h2 _ => h.web.doc e y v h1 h2 (by simp), h.web.apart, h.web.room, h.web.store⟩, hx, hr, hcore⟩
      have hhi : hi ≤ s.mem.length := by
        have := ht.lt
        have := (h.web.room d (hi - 1) (hB _ (by omega) (by omega))).1
        omega
      have ht' := ht
      rw [Tree] at ht'; obtain ⟨ids, c1, c2⟩ := ht'
      obtain ⟨e, data', A', s', h1, h2, h3, h4⟩ := kids_gone (E := E1) (lib := lib0) (gone := gone) (fun k v hv => hv.2) _ c2 hhi hs (fun k n hn => hsh.2 k n hn) hroot.kids hall
      have hk' : data'[d]? = some kvs := by
        obtain ⟨more, hmore⟩ := h3.data
        rw [hmore, List.getElem?_append_left (List.getElem?_eq_some_iff.1 hk).1]; exact hk
      have hweb : Web E.ip none data' A' s' := by
        refine ⟨h2.web.length, fun e y v hy hv _ => ?_, h2.web.apart, h2.web.room, h2.web.store⟩
        by_cases hed : e = d
        · subst hed
          rw [h2.self] at hy; rw [hk'] at hv
          cases hy; cases hv
          exact ⟨hcore, .inr ⟨hr, hanch, hi, ht.keep fun j _ b => h4 j (by omega), fun j a b => h3.own _ j (hB j a b)⟩⟩
        · exact h2.web.doc e y v hy hv (by simpa using Ne.symm hed)
      refine ⟨.err e, data', A', s', ?_, .inr ⟨e, rfl⟩, h.grown hweb (fun e v hv => (h3.keyed e v hv).imp id fun ⟨k, a, b⟩ => ⟨k, a, b.1⟩) h3.data h3.store
        (fun k e he => (h3.new k e he).imp id fun ⟨_, v, a, b⟩ => ⟨v, a, b.1⟩) h3.room h3.nodup h3.voc⟩
      refine Runs.shift (g := fun f => loadS (ops E1 f) d) ?_ (fun f => rfl)
      unfold loadS
      refine Runs.bind (.const (schema_apply hx)) ?_
      simp only [hr, Bool.false_eq_true, if_false, hcore]
      exact Runs.bind_err (process_obj_err E1 c1 rfl h1)

end Verif.Obj
