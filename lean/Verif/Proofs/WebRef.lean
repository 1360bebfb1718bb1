import Verif.Proofs.Web
import Verif.Proofs.OpsMono
/-! # References to documents which are not loaded -/

namespace Verif.Obj
open Verif Verif.Spec

variable {E : Env} {d : Nat} {data data' data'' : List (List (Str × Val))} {A A' A'' : Nat → Nat → Prop} {lib : Str → List (Str × Val) → Prop}

/-- `d` is being loaded. -/
structure Doing (ip : Rfc3986.IpRe) (d : Nat) (data : List (List (Str × Val))) (A : Nat → Nat → Prop) (x : Schema) (s : St) : Prop where
  web : Web ip (some d) data A s
  self : s.docs[d]? = some x
  ready : x.ready = false
  core : (x.vocabulary.filter fun k => !k.isAssertion) = [.ref, .anchor, .id]

theorem Doing.lt {ip : Rfc3986.IpRe} {x : Schema} {s : St} (h : Doing ip d data A x s) : d < s.docs.length := (List.getElem?_eq_some_iff.1 h.self).1

/-- A query that passes no reference. -/
theorem plain_query (E : Env) {s : St} {e : Nat} {x : Schema} {D : Doc} {ptr : List Str} {m : List (Str × Node)} (hx : s.docs[e]? = some x) (hr : x.ready = true)
    (h1 : Shows s.mem D.root x.value) (h2 : ShowsD s.mem D.anchors x.anchors) {f : Nat} (hq : queryDoc (view [] f) D ptr = .ok (.obj m)) :
    ∃ i, Runs (fun f => (ops E f).query e ptr) s (.ok i) s ∧ Shows s.mem (.obj m) i := by
  let s0 : St := ⟨s.mem, [], []⟩
  have hm : Mirrors s0 [] := ⟨rfl, fun d x D h => by simp [s0] at h⟩
  have hpre : Prefix s0 s := ⟨rfl, fun d x h => by simp [s0] at h⟩
  have hwalk : ∀ ks, queryLoop (view [] f) D.root ks = .ok (.obj m) → ∃ i, Runs (fun f => walk (ops E f) x.value ks) s (.ok i) s ∧ Shows s.mem (.obj m) i := by
    intro ks hks
    obtain ⟨g, hg⟩ := walk_alike (s := s0) (vw := view [] f) (fun n i hn hs => reads hm f n i hn hs) (fun n hn ht => view_self hn ht)
      (fun n own d p h => view_not_ref h own d p rfl) ks D.root x.value (by rw [hks]; simp) h1
    rw [hks] at hg
    obtain ⟨i, hi, hs⟩ := (hg g (Nat.le_refl _)).of_ok
    refine ⟨i, ⟨g, fun h hh => ?_⟩, hs⟩
    obtain ⟨i', hi', -⟩ := (hg h hh).of_ok
    have a := walk_sub hpre (ropsOf_sub E hpre g) ks x.value i hi
    have b := walk_sub hpre (ropsOf_sub E hpre h) ks x.value i' hi'
    have : i = i' := by
      have hmono := walk_le (ops_mono E hh) ks x.value
      have := hmono s (by rw [a]; simp)
      rw [a, b] at this
      cases this; rfl
    rw [this]; exact b
  have key : ∀ {i : Nat}, Runs (fun f => (match (generalizing := false) ptr with
      | [k] => match dictGet k x.anchors with
        | some n => pure n
        | none => if k = [] then pure x.value else walk (ops E f) x.value [k]
      | _ => walk (ops E f) x.value ptr : M Nat)) s (.ok i) s → Runs (fun f => (ops E f).query e ptr) s (.ok i) s := by
    intro i h
    refine Runs.shift (g := fun f => queryS (ops E f) e ptr) ?_ (fun f => rfl)
    unfold queryS
    refine Runs.bind (.next fun f => load_again hx hr) (Runs.bind (.const (schema_apply hx)) ?_)
    exact h
  match ptr, hq, @key with
  | [], hq, key => obtain ⟨i, a, b⟩ := hwalk _ hq; exact ⟨i, key a, b⟩
  | a :: b :: c, hq, key => obtain ⟨i, a, b⟩ := hwalk _ hq; exact ⟨i, key a, b⟩
  | [k], hq, key =>
    simp only [queryDoc] at hq
    rcases h2.get k with ⟨e1, e2⟩ | ⟨n, i, e1, e2, hn⟩
    · rw [e1] at hq
      simp only at hq
      by_cases hk : k = []
      · rw [if_pos hk] at hq
        cases hq' : D.root with
        | obj m' =>
          rw [hq'] at hq; cases hq
          rw [hq'] at h1
          exact ⟨x.value, key (by simp only [e2, if_pos hk]; exact .pure), h1⟩
        | _ => rw [hq'] at hq; cases hq
      · rw [if_neg hk] at hq
        obtain ⟨i, a, b⟩ := hwalk _ hq
        exact ⟨i, key (by simp only [e2, if_neg hk]; exact a), b⟩
    · rw [e1] at hq
      simp only [Res.ok.injEq] at hq
      rw [hq] at hn
      exact ⟨i, key (by simp only [e2]; exact .pure), hn⟩

theorem overlayIds_keys {own theirs : List (Str × Nat)} {k : Str} (h : k ∈ (overlayIds own theirs).map Prod.fst) :
    k ∈ own.map Prod.fst ∨ k ∈ theirs.map Prod.fst := by
  unfold overlayIds at h
  have key : ∀ (xs acc : List (Str × Nat)), k ∈ (xs.foldl (fun d p => dictSet p.1 p.2 d) acc).map Prod.fst → k ∈ acc.map Prod.fst ∨ k ∈ xs.map Prod.fst := by
    intro xs
    induction xs with
    | nil => exact fun acc h => .inl h
    | cons p xs ih =>
      intro acc h
      rcases ih _ h with h | h
      · rw [keys_set] at h
        split at h
        · exact .inl h
        · rw [List.mem_append, List.mem_singleton] at h
          rcases h with h | h
          · exact .inl h
          · exact .inr (by simp [h])
      · exact .inr (by simp only [List.map_cons, List.mem_cons]; exact .inr h)
  rcases key _ _ h with h | h
  · left
    obtain ⟨q, hq, rfl⟩ := List.mem_map.1 h
    exact List.mem_map.2 ⟨q, (List.mem_filter.1 hq).1, rfl⟩
  · exact .inr h

/-- The members of a reference to an object of a loaded document. -/
theorem plain_members (E : Env) {s : St} {i n e : Nat} {c cn : Cell} {x : Schema} {D : Doc} {ptr : List Str} {ids : List (Str × Nat)} (hc : s.mem[i]? = some c) (hsh : c.shape = .ref n e ptr)
    (hcn : s.mem[n]? = some cn) (hshn : cn.shape = .obj ids) (hx : s.docs[e]? = some x) (hr : x.ready = true) (h1 : Shows s.mem D.root x.value)
    (h2 : ShowsD s.mem D.anchors x.anchors) (hp : PlainLeads D ptr) :
    ∃ ms, Runs (fun f => (ops E f).members i) s (.ok ms) s ∧ ∀ k ∈ [c!"$anchor", c!"$id", c!"id"], k ∉ ids.map Prod.fst → k ∉ ms.map Prod.fst := by
  obtain ⟨f, m, hq, hk⟩ := hp
  obtain ⟨j, hj, hs⟩ := plain_query E hx hr h1 h2 hq
  rw [Shows] at hs
  obtain ⟨cj, jds, g1, g2, g3⟩ := hs
  refine ⟨overlayIds ids jds, ?_, fun k hk1 hk2 hk3 => ?_⟩
  · refine Runs.shift (g := fun f => membersS (ops E f) i) ?_ (fun f => rfl)
    unfold membersS
    refine Runs.bind (.const (cell_apply hc)) ?_
    simp only [hsh]
    refine Runs.bind (.const (schema_apply hx)) ?_
    simp only [hr, Bool.not_true, Bool.false_eq_true, if_false]
    refine Runs.bind hj (Runs.bind (.next fun f => kind_plain E g1 (by rw [g2]; rfl)) ?_)
    simp only [g2, Shape.kind, ne_eq, not_true_eq_false, if_false]
    exact Runs.bind (members_runs E hcn hshn) (Runs.bind (members_runs E g1 g2) .pure)
  · rcases overlayIds_keys hk3 with h | h
    · exact hk2 h
    · rw [g3.keys] at h; exact hk k hk1 h

theorem keys_nodup {α : Type} {k : Str} {x : α} {d : List (Str × α)} (h : (d.map Prod.fst).Nodup) : ((dictSet k x d).map Prod.fst).Nodup := by
  rw [keys_set]
  split
  · exact h
  · rename_i hk
    exact List.nodup_append.2 ⟨h, by simp, fun a ha b hb => by rw [List.mem_singleton.1 hb]; rintro rfl; exact hk ha⟩

/-- A document found by the loader. -/
theorem doing_found {ip : Rfc3986.IpRe} {x : Schema} {s : St} (hs : Doing ip d data A x s) (kvs : List (Str × Val)) (k : Str) (hk : dictGet k s.storage = none) (hl : lib k kvs) :
    ∃ ext A', newDocument (.dict kvs) x.vocabulary s =
        (.ok s.docs.length, { s with mem := s.mem ++ ext, docs := s.docs ++ [⟨s.mem.length, false, x.vocabulary, [], none⟩] }) ∧
      Doing ip d (data ++ [kvs]) A' x
        { s with mem := s.mem ++ ext, docs := s.docs ++ [⟨s.mem.length, false, x.vocabulary, [], none⟩], storage := dictSet k s.docs.length s.storage } ∧
      Grow lib d data A s (data ++ [kvs]) A'
        { s with mem := s.mem ++ ext, docs := s.docs ++ [⟨s.mem.length, false, x.vocabulary, [], none⟩], storage := dictSet k s.docs.length s.storage } ∧
      A' d = A d := by
  obtain ⟨ext, ht, e⟩ := newDocument_spec (.inr ⟨kvs, rfl⟩) x.vocabulary s
  have hlen := hs.web.length
  have hlt := hs.lt
  have hstore : ∀ k' e, dictGet k' s.storage = some e → dictGet k' (dictSet k s.docs.length s.storage) = some e := by
    intro k' e he
    by_cases hkk : k = k'
    · subst hkk; rw [hk] at he; cases he
    · rw [dictGet_set, if_neg hkk]; exact he
  have hnew : ∀ k' e, dictGet k' (dictSet k s.docs.length s.storage) = some e → dictGet k' s.storage = some e ∨ (e = s.docs.length ∧ k = k') := by
    intro k' e he
    by_cases hkk : k = k'
    · subst hkk; rw [dictGet_set, if_pos rfl] at he; cases he; exact .inr ⟨rfl, rfl⟩
    · rw [dictGet_set, if_neg hkk] at he; exact .inl he
  let A' : Nat → Nat → Prop := fun e j => A e j ∨ (e = s.docs.length ∧ s.mem.length ≤ j ∧ j < s.mem.length + ext.length)
  have hA : ∀ e, e ≠ s.docs.length → A' e = A e := fun e he => by
    funext j; simp [A', he]
  refine ⟨ext, A', e, ⟨⟨by simp [hlen], fun e y v hy hv hc => ?_, fun e f j h1 h2 => ?_, fun e j h => ?_, fun k' e he => ?_⟩, ?_, hs.ready, hs.core⟩,
    ⟨fun e v hv => ?_, ⟨[kvs], rfl⟩, fun e j h => .inl h, fun e y he hy => ?_, fun e y he hy => ?_, by simp, hstore, fun k' e he => ?_, by simp, ?_, fun hn => keys_nodup hn, fun v hv y hy => ?_⟩, hA d (by omega)⟩
  · by_cases he : e < s.docs.length
    · change (s.docs ++ _)[e]? = _ at hy
      rw [List.getElem?_append_left he] at hy
      rw [List.getElem?_append_left (by omega)] at hv
      refine (hs.web.doc e y v hy hv hc).keep hstore (fun j h => .inl h) fun j h => ?_
      exact List.getElem?_append_left (hs.web.room e j h).1
    · change (s.docs ++ _)[e]? = _ at hy
      have := (List.getElem?_eq_some_iff.1 hy).1
      simp only [List.length_append, List.length_singleton] at this
      obtain rfl : e = s.docs.length := by omega
      simp only [List.getElem?_concat_length, Option.some.injEq] at hy
      rw [← hlen] at hv
      simp only [List.getElem?_concat_length, Option.some.injEq] at hv
      subst hy hv
      refine ⟨hs.core, .inr ⟨rfl, rfl, s.mem.length + ext.length, ?_, fun j a b => .inr ⟨rfl, a, b⟩⟩⟩
      rw [wrap] at ht; exact ht
  · rcases h1 with h1 | ⟨rfl, h1, h1'⟩ <;> rcases h2 with h2 | ⟨rfl, h2, h2'⟩
    · exact hs.web.apart e f j h1 h2
    · have := (hs.web.room e j h1).1; omega
    · have := (hs.web.room f j h2).1; omega
    · rfl
  · change j < (s.mem ++ ext).length ∧ _
    simp only [List.length_append, List.length_singleton]
    rcases h with h | ⟨rfl, h, h'⟩
    · have := hs.web.room e j h; omega
    · omega
  · simp only [List.length_append, List.length_singleton]
    rcases hnew k' e he with h | h
    · have := hs.web.store k' e h; omega
    · omega
  · change (s.docs ++ _)[d]? = _
    rw [List.getElem?_append_left hlt]; exact hs.self
  · by_cases he : e < data.length
    · rw [List.getElem?_append_left he] at hv; exact .inl hv
    · have := (List.getElem?_eq_some_iff.1 hv).1
      simp only [List.length_append, List.length_singleton] at this
      obtain rfl : e = data.length := by omega
      simp only [List.getElem?_concat_length, Option.some.injEq] at hv
      subst hv
      refine .inr ⟨k, ?_, hl⟩
      simp only [dictGet_set, if_true, hlen]
  · change (s.docs ++ _)[e]? = _
    rw [List.getElem?_append_left (List.getElem?_eq_some_iff.1 hy).1]; exact hy
  · change (s.docs ++ _)[e]? = _ at hy
    have := (List.getElem?_eq_some_iff.1 hy).1
    simp only [List.length_append, List.length_singleton] at this
    obtain rfl : e = s.docs.length := by omega
    simp only [List.getElem?_concat_length, Option.some.injEq] at hy
    subst hy; rfl
  · rcases hnew k' e he with h | h
    · exact .inl h
    · obtain ⟨rfl, rfl⟩ := h
      exact .inr ⟨Nat.le_refl _, kvs, by rw [← hlen]; simp, hl⟩
  · have : (dictSet k s.docs.length s.storage).length = s.storage.length + 1 := by
      have h : ((dictSet k s.docs.length s.storage).map Prod.fst).length = (s.storage.map Prod.fst).length + 1 := by
        rw [keys_set, if_neg (Verif.dictGet_none.1 hk)]; simp
      simpa using h
    simp only [List.length_append, List.length_singleton, this]; omega
  · simp only [List.mem_append, List.mem_singleton] at hy
    rcases hy with hy | rfl
    · exact hv y hy
    · exact hv x (List.mem_of_getElem? hs.self)

end Verif.Obj
