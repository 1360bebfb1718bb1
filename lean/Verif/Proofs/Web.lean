import Verif.Spec.Web
import Verif.Proofs.Linked
/-! # Loading documents that refer to documents which are not loaded -/

namespace Verif.Spec
open Verif

mutual
theorem Linked.mono {P Q : Str → Prop} (h : ∀ t, P t → Q t) : ∀ n : Node, Linked P n → Linked Q n
  | .obj kvs, hl => by
    rw [Linked] at hl ⊢
    exact ⟨hl.1, ⟨fun hr => ⟨(hl.2.1.ref hr).1, by obtain ⟨t, h1, h2⟩ := (hl.2.1.ref hr).2; exact ⟨t, h1, h t h2⟩⟩, hl.2.1.anchor⟩, LinkedD.mono h kvs hl.2.2⟩
  | .null, _ => by rw [Linked]; trivial; simp
  | .bool _, _ => by rw [Linked]; trivial; simp
  | .num _, _ => by rw [Linked]; trivial; simp
  | .str _, _ => by rw [Linked]; trivial; simp
  | .arr _, _ => by rw [Linked]; trivial; simp
  | .ref .., _ => by rw [Linked]; trivial; simp
theorem LinkedD.mono {P Q : Str → Prop} (h : ∀ t, P t → Q t) : ∀ kvs : List (Str × Node), LinkedD P kvs → LinkedD Q kvs
  | [], _ => by rw [LinkedD]; trivial
  | (k, x) :: r, hl => by rw [LinkedD] at hl ⊢; exact ⟨Linked.mono h x hl.1, LinkedD.mono h r hl.2⟩
end

theorem CoreObject.mono {P Q : Str → Prop} (h : ∀ t, P t → Q t) {kvs : List (Str × Node)} (hc : CoreObject P kvs) : CoreObject Q kvs :=
  ⟨fun hr => ⟨(hc.ref hr).1, by obtain ⟨t, h1, h2⟩ := (hc.ref hr).2; exact ⟨t, h1, h t h2⟩⟩, hc.anchor⟩

theorem LinkedRoot.mono {ip : Rfc3986.IpRe} {P Q : Str → Prop} (h : ∀ t, P t → Q t) {kvs : List (Str × Node)} (hl : LinkedRoot ip P kvs) : LinkedRoot ip Q kvs :=
  ⟨LinkedD.mono h _ hl.kids, hl.core.mono h, hl.name⟩

/-! ## Where references lead matters only for the references -/

section
variable {ip : Rfc3986.IpRe} {P : Str → Prop} {l l' : Str → Nat}

theorem resolve_object (h : ∀ t, P t → l t = l' t) {kvs : List (Str × Node)} (hc : CoreObject P kvs) (hk : resolveInD ip l kvs = resolveInD ip l' kvs) :
    resolveIn ip l (.obj kvs) = resolveIn ip l' (.obj kvs) := by
  rw [resolveIn, resolveIn, hk]
  by_cases hR : c!"$ref" ∈ kvs.map Prod.fst
  · obtain ⟨-, t, ht, hp⟩ := hc.ref hR
    simp only [ht, h t hp]
  · simp only [Obj.dictGet_none hR]

mutual
theorem resolveIn_congr (h : ∀ t, P t → l t = l' t) : ∀ n : Node, Linked P n → resolveIn ip l n = resolveIn ip l' n
  | .obj kvs, hl => by
    rw [Linked] at hl
    exact resolve_object h hl.2.1 (resolveInD_congr h kvs hl.2.2)
  | .null, _ => by rw [resolveIn, resolveIn] <;> simp
  | .bool _, _ => by rw [resolveIn, resolveIn] <;> simp
  | .num _, _ => by rw [resolveIn, resolveIn] <;> simp
  | .str _, _ => by rw [resolveIn, resolveIn] <;> simp
  | .arr _, _ => by rw [resolveIn, resolveIn] <;> simp
  | .ref .., _ => by rw [resolveIn, resolveIn] <;> simp
theorem resolveInD_congr (h : ∀ t, P t → l t = l' t) : ∀ kvs : List (Str × Node), LinkedD P kvs → resolveInD ip l kvs = resolveInD ip l' kvs
  | [], _ => by rw [resolveInD, resolveInD]
  | (k, x) :: r, hl => by
    rw [LinkedD] at hl
    rw [resolveInD, resolveInD, resolveIn_congr h x hl.1, resolveInD_congr h r hl.2]
end

mutual
theorem anchoredIn_congr (h : ∀ t, P t → l t = l' t) : ∀ n : Node, Linked P n → anchoredIn ip l n = anchoredIn ip l' n
  | .obj kvs, hl => by
    rw [anchoredIn, anchoredIn, resolveIn_congr h _ hl]
    rw [Linked] at hl
    rw [anchoredInD_congr h kvs hl.2.2]
  | .null, _ => by rw [anchoredIn, anchoredIn] <;> simp
  | .bool _, _ => by rw [anchoredIn, anchoredIn] <;> simp
  | .num _, _ => by rw [anchoredIn, anchoredIn] <;> simp
  | .str _, _ => by rw [anchoredIn, anchoredIn] <;> simp
  | .arr _, _ => by rw [anchoredIn, anchoredIn] <;> simp
  | .ref .., _ => by rw [anchoredIn, anchoredIn] <;> simp
theorem anchoredInD_congr (h : ∀ t, P t → l t = l' t) : ∀ kvs : List (Str × Node), LinkedD P kvs → anchoredInD ip l kvs = anchoredInD ip l' kvs
  | [], _ => by rw [anchoredInD, anchoredInD]
  | (k, x) :: r, hl => by
    rw [LinkedD] at hl
    rw [anchoredInD, anchoredInD, anchoredIn_congr h x hl.1, anchoredInD_congr h r hl.2]
end

theorem docIn_congr (h : ∀ t, P t → l t = l' t) {kvs : List (Str × Node)} (hc : CoreObject P kvs) (hk : LinkedD P kvs) : docIn ip l (.obj kvs) = docIn ip l' (.obj kvs) := by
  unfold docIn
  have e := resolve_object (ip := ip) h hc (resolveInD_congr h kvs hk)
  rw [anchoredIn, anchoredIn, e, anchoredInD_congr h kvs hk]
end

theorem refDoc_known {ip : Rfc3986.IpRe} {store store' : List (Str × Nat)} (hg : ∀ k e, dictGet k store = some e → dictGet k store' = some e) (d : Nat) {t : Str}
    (hk : Known ip store t) : refDoc ip store d t = refDoc ip store' d t := by
  unfold refDoc
  cases hu : Uri.parse ip t with
  | err e => rfl
  | timeout => rfl
  | ok u =>
    simp only
    cases hb : Store.baseText ip u with
    | err e => rfl
    | timeout => rfl
    | ok k =>
      simp only
      by_cases hk0 : k = []
      · simp [hk0]
      · obtain ⟨e, he⟩ := hk u k hu hb hk0
        rw [if_neg hk0, if_neg hk0, he, hg k e he]

theorem Known.mono {ip : Rfc3986.IpRe} {store store' : List (Str × Nat)} (hg : ∀ k e, dictGet k store = some e → dictGet k store' = some e) {t : Str}
    (hk : Known ip store t) : Known ip store' t := fun u k hu hb hk0 => by
  obtain ⟨e, he⟩ := hk u k hu hb hk0
  exact ⟨e, hg k e he⟩

end Verif.Spec

namespace Verif.Obj
open Verif Verif.Spec

/-! ## Documents, loaded or not -/

/-- The document `d` with the data `kvs`, whose objects are among `B`: loaded, with all references known, or as it was created. -/
def DocAt (ip : Rfc3986.IpRe) (store : List (Str × Nat)) (mem : Mem) (B : Nat → Prop) (d : Nat) (kvs : List (Str × Val)) (x : Schema) : Prop :=
  (x.vocabulary.filter fun k => !k.isAssertion) = [.ref, .anchor, .id] ∧
  ((x.ready = true ∧ CoreObject (Known ip store) (wrapDict kvs) ∧ LinkedD (Known ip store) (wrapDict kvs) ∧
      ShowsOn B mem (docIn ip (refDoc ip store d) (wrap (.dict kvs))).root x.value ∧
      ShowsDOn B mem (docIn ip (refDoc ip store d) (wrap (.dict kvs))).anchors x.anchors) ∨
    (x.ready = false ∧ x.anchors = [] ∧ ∃ hi, Tree mem (.obj (wrapDict kvs)) none [] x.value hi ∧ ∀ j, x.value ≤ j → j < hi → B j))

/-- The state holds documents with the data, each with objects of its own; of `cur`, which is being loaded, nothing is said. -/
structure Web (ip : Rfc3986.IpRe) (cur : Option Nat) (data : List (List (Str × Val))) (A : Nat → Nat → Prop) (s : St) : Prop where
  length : data.length = s.docs.length
  doc : ∀ (d : Nat) (x : Schema) kvs, s.docs[d]? = some x → data[d]? = some kvs → cur ≠ some d → DocAt ip s.storage s.mem (A d) d kvs x
  apart : ∀ d e j, A d j → A e j → d = e
  room : ∀ d j, A d j → j < s.mem.length ∧ d < data.length
  store : ∀ k e, dictGet k s.storage = some e → e < data.length

/-- A reference that can be loaded in the state `s`: into the same document, or to a document that is there – if it is loaded, to an object of it –,
or to data the loader finds. -/
def NextRef (E : Env) (lib : Str → List (Str × Val) → Prop) (data : List (List (Str × Val))) (s : St) (t : Str) : Prop :=
  LocalRef E.ip t ∨ ∃ u k ptr, Uri.parse E.ip t = .ok u ∧ Pointer.parse u.fragment = .ok ptr ∧ Store.baseText E.ip u = .ok k ∧ k ≠ [] ∧
    ((∃ e, dictGet k s.storage = some e ∧ ∀ (x : Schema) kvs, s.docs[e]? = some x → x.ready = true → data[e]? = some kvs →
        ∀ link, PlainLeads (docIn E.ip link (wrap (.dict kvs))) ptr) ∨
      (dictGet k s.storage = none ∧ ∃ kvs, E.file u = .ok (.dict kvs) ∧ lib k kvs))

/-- What happens to the rest while `d` is loaded. -/
structure Grow (lib : Str → List (Str × Val) → Prop) (d : Nat) (data : List (List (Str × Val))) (A : Nat → Nat → Prop) (s : St) (data' : List (List (Str × Val))) (A' : Nat → Nat → Prop) (s' : St) : Prop where
  keyed : ∀ e kvs, data'[e]? = some kvs → data[e]? = some kvs ∨ ∃ k, dictGet k s'.storage = some e ∧ lib k kvs
  data : ∃ more, data' = data ++ more
  own : ∀ e j, A e j → A' e j
  docs : ∀ (e : Nat) (x : Schema), e ≠ d → s.docs[e]? = some x → s'.docs[e]? = some x
  fresh : ∀ (e : Nat) (x : Schema), s.docs.length ≤ e → s'.docs[e]? = some x → x.ready = false
  count : s.docs.length ≤ s'.docs.length
  store : ∀ k e, dictGet k s.storage = some e → dictGet k s'.storage = some e
  new : ∀ k e, dictGet k s'.storage = some e → dictGet k s.storage = some e ∨ (s.docs.length ≤ e ∧ ∃ kvs, data'[e]? = some kvs ∧ lib k kvs)
  mem : s.mem.length ≤ s'.mem.length
  room : s'.docs.length + s.storage.length ≤ s.docs.length + s'.storage.length
  nodup : (s.storage.map Prod.fst).Nodup → (s'.storage.map Prod.fst).Nodup
  voc : ∀ v, (∀ y ∈ s.docs, y.vocabulary = v) → ∀ y ∈ s'.docs, y.vocabulary = v

variable {E : Env} {d : Nat} {data data' data'' : List (List (Str × Val))} {A A' A'' : Nat → Nat → Prop} {lib : Str → List (Str × Val) → Prop}

theorem Grow.refl (lib : Str → List (Str × Val) → Prop) (d : Nat) (data : List (List (Str × Val))) (A : Nat → Nat → Prop) (s : St) : Grow lib d data A s data A s :=
  ⟨fun _ _ h => .inl h, ⟨[], by simp⟩, fun _ _ h => h, fun _ _ _ h => h, fun e x h h' => (by have := (List.getElem?_eq_some_iff.1 h').1; omega), Nat.le_refl _, fun _ _ h => h, fun _ _ h => .inl h, Nat.le_refl _, Nat.le_refl _, fun h => h, fun _ h => h⟩

theorem Grow.trans {s s' s'' : St} (hd : d < s.docs.length) (h : Grow lib d data A s data' A' s') (h' : Grow lib d data' A' s' data'' A'' s'') : Grow lib d data A s data'' A'' s'' := by
  refine ⟨fun e kvs x => ?_, ?_, fun e j x => h'.own e j (h.own e j x), fun e x he hx => h'.docs e x he (h.docs e x he hx), fun e x he hx => ?_,
    Nat.le_trans h.count h'.count, fun k e x => h'.store k e (h.store k e x), fun k e x => ?_, Nat.le_trans h.mem h'.mem,
    by have := h.room; have := h'.room; omega, fun x => h'.nodup (h.nodup x), fun v x => h'.voc v (h.voc v x)⟩
  · rcases h'.keyed e kvs x with x | x
    · rcases h.keyed e kvs x with x | ⟨k, x, hl⟩
      · exact .inl x
      · exact .inr ⟨k, h'.store k e x, hl⟩
    · exact .inr x
  · obtain ⟨m, rfl⟩ := h.data
    obtain ⟨m', rfl⟩ := h'.data
    exact ⟨m ++ m', by simp⟩
  · by_cases hlt : e < s'.docs.length
    · have hy := h'.docs e _ (by omega) (List.getElem?_eq_getElem hlt)
      rw [hx] at hy; cases hy
      exact h.fresh e _ he (List.getElem?_eq_getElem hlt)
    · exact h'.fresh e x (by omega) hx
  · have := h.count
    rcases h'.new k e x with x | x
    · rcases h.new k e x with x | ⟨x, kvs, hk, hl⟩
      · exact .inl x
      · obtain ⟨m', rfl⟩ := h'.data
        exact .inr ⟨x, kvs, by rw [List.getElem?_append_left (List.getElem?_eq_some_iff.1 hk).1]; exact hk, hl⟩
    · exact .inr ⟨by omega, x.2⟩

theorem NextRef.mono {s s' : St} (hw : Web E.ip (some d) data A s) (hg : Grow lib d data A s data' A' s') (hd : ∀ x : Schema, s'.docs[d]? = some x → x.ready = false)
    {t : Str} (h : NextRef E lib data s t) : NextRef E lib data' s' t := by
  rcases h with h | ⟨u, k, ptr, h1, h2, h3, h4, h5⟩
  · exact .inl h
  refine .inr ⟨u, k, ptr, h1, h2, h3, h4, ?_⟩
  rcases h5 with ⟨e, he, hp⟩ | ⟨hn, kvs, hf⟩
  · refine .inl ⟨e, hg.store k e he, fun x kvs hx hr hk link => ?_⟩
    have hed : e ≠ d := by rintro rfl; rw [hd x hx] at hr; cases hr
    have hlt := hw.store k e he
    have hlen := hw.length
    have hy := hg.docs e _ hed (List.getElem?_eq_getElem (by omega))
    rw [hx] at hy; cases hy
    obtain ⟨more, rfl⟩ := hg.data
    rw [List.getElem?_append_left hlt] at hk
    exact hp _ kvs (List.getElem?_eq_getElem (by omega)) hr hk link
  · cases hs : dictGet k s'.storage with
    | none => exact .inr ⟨rfl, kvs, hf⟩
    | some e =>
      refine .inl ⟨e, rfl, fun x kvs hx hr hk link => ?_⟩
      rcases hg.new k e hs with h | h
      · rw [hn] at h; cases h
      · rw [hg.fresh e x h.1 hx] at hr; cases hr

theorem DocAt.keep {ip : Rfc3986.IpRe} {store store' : List (Str × Nat)} {mem mem' : Mem} {B B' : Nat → Prop} {d : Nat} {kvs : List (Str × Val)} {x : Schema}
    (h : DocAt ip store mem B d kvs x) (hs : ∀ k e, dictGet k store = some e → dictGet k store' = some e) (hB : ∀ j, B j → B' j)
    (hm : ∀ j, B j → mem'[j]? = mem[j]?) : DocAt ip store' mem' B' d kvs x := by
  refine ⟨h.1, ?_⟩
  rcases h.2 with ⟨h1, h2, h3, h4, h5⟩ | ⟨h1, h2, hi, h3, h4⟩
  · left
    have e : docIn ip (refDoc ip store d) (wrap (.dict kvs)) = docIn ip (refDoc ip store' d) (wrap (.dict kvs)) := by
      rw [wrap]; exact docIn_congr (fun t ht => refDoc_known hs d ht) h2 h3
    rw [e] at h4 h5
    exact ⟨h1, h2.mono fun t ht => ht.mono hs, LinkedD.mono (fun t ht => ht.mono hs) _ h3, h4.keep hB hm, h5.keep hB hm⟩
  · right
    exact ⟨h1, h2, hi, h3.keep fun j a b => hm j (h4 j a b), fun j a b => hB j (h4 j a b)⟩

/-- Changes to the document that is being loaded. -/
theorem Web.keep {ip : Rfc3986.IpRe} {s s' : St} (hw : Web ip (some d) data A s) (hl : s'.docs.length = s.docs.length)
    (hd : ∀ (e : Nat) (x : Schema), e ≠ d → s'.docs[e]? = some x → s.docs[e]? = some x) (hs : s'.storage = s.storage)
    (hm : ∀ e j, e ≠ d → A e j → s'.mem[j]? = s.mem[j]?) (hA : ∀ e, e ≠ d → A' e = A e) (hA' : ∀ j, A' d j → (A d j ∨ s.mem.length ≤ j) ∧ j < s'.mem.length ∧ d < data.length)
    (hlen : s.mem.length ≤ s'.mem.length) : Web ip (some d) data A' s' := by
  refine ⟨by rw [hw.length, hl], fun e x kvs hx hk hc => ?_, fun e f j h1 h2 => ?_, fun e j h => ?_, fun k e h => hw.store k e (by rw [← hs]; exact h)⟩
  · have hed : e ≠ d := fun h => hc (by rw [h])
    rw [hA e hed, hs]
    exact (hw.doc e x kvs (hd e x hed hx) hk hc).keep (fun _ _ h => h) (fun _ h => h) fun j hj => hm e j hed hj
  · by_cases he : e = d
    · by_cases hf : f = d
      · rw [he, hf]
      · subst he
        rw [hA f hf] at h2
        rcases (hA' j h1).1 with h | h
        · exact hw.apart _ _ _ h h2
        · have := (hw.room f j h2).1; omega
    · by_cases hf : f = d
      · subst hf
        rw [hA e he] at h1
        rcases (hA' j h2).1 with h | h
        · exact hw.apart _ _ _ h1 h
        · have := (hw.room e j h1).1; omega
      · rw [hA e he] at h1; rw [hA f hf] at h2
        exact hw.apart _ _ _ h1 h2
  · by_cases he : e = d
    · subst he; exact (hA' j h).2
    · rw [hA e he] at h
      have := hw.room e j h
      exact ⟨by omega, this.2⟩

end Verif.Obj
