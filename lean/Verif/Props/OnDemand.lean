import Verif.Proofs.OnDemand
import Verif.Props.Web
/-!
# Property C94: schemas that are loaded while objects are read
-/

namespace Verif.Props
open Verif Verif.Spec Verif.Obj

section
variable (E : Env) (voc : List Kw) (hvoc : (voc.filter fun k => !k.isAssertion) = [.ref, .anchor, .id]) (lib : Str → List (Str × Val) → Prop)
  (hlib : ∀ k kvs, lib k kvs → WebDoc E.ip E.file lib kvs) (ks : List Str) (hks : ∀ k kvs, lib k kvs → k ∈ ks)
include hvoc hlib hks

/-- C94: with the documents of a library as in C93, some of them loaded: `schema.query(ptr)` loads some schemas – those it needs – and then does what it does
when these, or these and any others, were loaded before: it returns the same object, raises the same exception or does not end.  Nothing else changes. -/
theorem C94_query {made : List (Nat × List (Str × Val))} {s : St} (h : Reached E voc lib made s) {d : Nat} (hd : d < s.docs.length) (ptr : List Str) :
    ∃ s1, LoadsSome E s s1 ∧ Reached E voc lib made s1 ∧ ∃ h0, ∀ h, h0 ≤ h → ∀ s2, LoadsSome E s1 s2 →
      (ops E h).query d ptr s = (((ops E h).query d ptr s2).1, s1) ∧ ((ops E h).query d ptr s2).2 = s2 := by
  obtain ⟨s1, h1, h2, h0, h3⟩ := loads_then hvoc hlib _ (fun s hs => reached_bound hvoc hlib hks hs) (fun h => (ops E h).query d ptr) InView (fun s f => (wopsOf s f).query d ptr) s
    (fun s' hs' hl f => by
      obtain ⟨data, A, hh⟩ := reached_holds hvoc hlib hs'
      exact (does_all hh.web.whole f).query d ptr (Nat.lt_of_lt_of_le hd (loadsSome_length hvoc hlib hl h))) _ s (Nat.le_refl _) h (.nil s)
  exact ⟨s1, h1, h2, h0, fun h hle s2 hs2 => ⟨(h3 h hle s2 hs2).1, (h3 h hle s2 hs2).2.1⟩⟩

/-- C94: and so does the type of what the query returns. -/
theorem C94_kind {made : List (Nat × List (Str × Val))} {s : St} (h : Reached E voc lib made s) {d : Nat} (hd : d < s.docs.length) (ptr : List Str) :
    ∃ s1, LoadsSome E s s1 ∧ Reached E voc lib made s1 ∧ ∃ h0, ∀ h, h0 ≤ h → ∀ s2, LoadsSome E s1 s2 →
      ((ops E h).query d ptr >>= (ops E h).kind) s = ((((ops E h).query d ptr >>= (ops E h).kind) s2).1, s1) ∧ (((ops E h).query d ptr >>= (ops E h).kind) s2).2 = s2 := by
  obtain ⟨s1, h1, h2, h0, h3⟩ := loads_then hvoc hlib _ (fun s hs => reached_bound hvoc hlib hks hs) (fun h => (ops E h).query d ptr >>= (ops E h).kind) (fun _ _ => True)
    (fun s f => (wopsOf s f).query d ptr >>= (wopsOf s f).kind) s
    (fun s' hs' hl f => by
      obtain ⟨data, A, hh⟩ := reached_holds hvoc hlib hs'
      have hw := does_all (E := E) hh.web.whole f
      exact (hw.query d ptr (Nat.lt_of_lt_of_le hd (loadsSome_length hvoc hlib hl h))).bind fun i hi _ => hw.kind i hi) _ s (Nat.le_refl _) h (.nil s)
  exact ⟨s1, h1, h2, h0, fun h hle s2 hs2 => ⟨(h3 h hle s2 hs2).1, (h3 h hle s2 hs2).2.1⟩⟩

/-- C94: so the answer is what the data says, in which references lead to the documents that have the identifiers: loading the rest as well makes the
objects those of the data, and the query on the state as it was, with nothing loaded perhaps, returns the object that stands for what the data has at the place, or raises the exception
the data says. -/
theorem C94_says {made : List (Nat × List (Str × Val))} {s : St} (h : Reached E voc lib made s) {d : Nat} (hd : d < s.docs.length) (ptr : List Str) :
    ∃ s1 s2, LoadsSome E s s1 ∧ LoadsSome E s1 s2 ∧ (∀ x ∈ s2.docs, x.ready = true) ∧ ∃ data : List (List (Str × Val)),
      (∀ d kvs, (d, kvs) ∈ made → data[d]? = some kvs) ∧ (∀ d kvs, data[d]? = some kvs → (d, kvs) ∈ made ∨ ∃ k, dictGet k s2.storage = some d ∧ lib k kvs) ∧
      (∀ k e, dictGet k s2.storage = some e → ∃ kvs, data[e]? = some kvs ∧ lib k kvs) ∧
      (∀ (d : Nat) kvs, data[d]? = some kvs → LinkedRoot E.ip (Known E.ip s2.storage) (wrapDict kvs)) ∧
      Mirrors s2 (docsIn E.ip s2.storage data) ∧ ∃ D, (docsIn E.ip s2.storage data)[d]? = some D ∧
      ((∃ g, ((ops E g).query d ptr s).1 ≠ .timeout) → ∃ f, queryDoc (view (docsIn E.ip s2.storage data) f) D ptr ≠ .timeout) ∧
      ∀ f, queryDoc (view (docsIn E.ip s2.storage data) f) D ptr ≠ .timeout → ∃ g0, ∀ g, g0 ≤ g →
        Alike (Shows s2.mem) (queryDoc (view (docsIn E.ip s2.storage data) f) D ptr) ((ops E g).query d ptr s).1 ∧ ((ops E g).query d ptr s).2 = s1 := by
  obtain ⟨s1, h1, h2, h0, h3⟩ := C94_query E voc hvoc lib hlib ks hks h hd ptr
  obtain ⟨s2, g1, g2, g3⟩ := C93_completes E voc hvoc lib hlib ks hks h2
  obtain ⟨data, d1, d2, d3, -, d5⟩ := C93_mirrors E voc hvoc lib hlib g2
  obtain ⟨hm, d6⟩ := d5 g3
  have hlen := Nat.le_trans (loadsSome_length hvoc hlib h1 h) (loadsSome_length hvoc hlib g1 h2)
  obtain ⟨D, hD⟩ : ∃ D, (docsIn E.ip s2.storage data)[d]? = some D := ⟨_, List.getElem?_eq_getElem (by rw [hm.length]; omega)⟩
  obtain ⟨q1, q2⟩ := C65_query E s2 _ hm d D hD ptr
  refine ⟨s1, s2, h1, g1, g3, data, d1, d2, d3, d6, hm, D, hD, fun ⟨g, hg⟩ => q1.1 ⟨max g h0, ?_⟩, fun f hf => ?_⟩
  · have e := (h3 (max g h0) (by omega) s2 g1).1
    rw [(ops_mono E (by omega : g ≤ max g h0)).query d ptr s hg] at e
    rw [e] at hg
    exact hg
  · obtain ⟨g0, hg⟩ := q2 f hf
    refine ⟨max g0 h0, fun g hle => ?_⟩
    obtain ⟨e, -⟩ := h3 g (by omega) s2 g1
    rw [e]
    exact ⟨(hg g (by omega)).1, rfl⟩

end

/-- The two documents of C93 that refer to each other.  Asked for the first, the store makes it; nothing is loaded.  `query("/n/z/y/z/y/z/v")` loads both on its way and
finds the `true` of the second. -/
example (ip : Rfc3986.IpRe) (w : World) : ∃ s s1 s2 : St,
    storeLoad ⟨ip, w, webFile⟩ ⟨c!"http", ⟨[], c!"x", []⟩, c!"/a", [], []⟩ draft2020Vocabulary St.empty = (.ok 0, s) ∧ s.docs.map Schema.ready = [false] ∧
    LoadsSome ⟨ip, w, webFile⟩ s s1 ∧ LoadsSome ⟨ip, w, webFile⟩ s1 s2 ∧
    ∃ g0, ∀ g, g0 ≤ g → ∃ i, (ops ⟨ip, w, webFile⟩ g).query 0 [c!"n", c!"z", c!"y", c!"z", c!"y", c!"z", c!"v"] s = (.ok i, s1) ∧ Shows s2.mem (.bool true) i := by
  have hvoc : (draft2020Vocabulary.filter fun k => !k.isAssertion) = [.ref, .anchor, .id] := by decide
  have hks : ∀ k kvs, webLib k kvs → k ∈ [c!"http://x/a", c!"http://x/b"] := by rintro k kvs (⟨rfl, -⟩ | ⟨rfl, -⟩) <;> simp
  have h0 := web_start ip w
  have hr := web_reached ip w
  have hready : (webStart ip w).docs.map Schema.ready = [false] := rfl
  obtain ⟨s1, h1, h2, k0, h3⟩ := C94_query ⟨ip, w, webFile⟩ draft2020Vocabulary hvoc webLib (web_library ip) _ hks hr (d := 0)
    (by have := congrArg List.length hready; simp only [List.length_map, List.length_singleton] at this; omega) [c!"n", c!"z", c!"y", c!"z", c!"y", c!"z", c!"v"]
  obtain ⟨s2, g1, g2, g3⟩ := C93_completes ⟨ip, w, webFile⟩ draft2020Vocabulary hvoc webLib (web_library ip) _ hks h2
  obtain ⟨g0, q⟩ := web_answer ip w (h1.trans g1) g2 g3
  refine ⟨_, s1, s2, h0, hready, h1, g1, max g0 k0, fun g hle => ?_⟩
  obtain ⟨i, e, hi⟩ := q g (by omega)
  refine ⟨i, ?_, hi⟩
  rw [(h3 g (by omega) s2 g1).1, e]

end Verif.Props
