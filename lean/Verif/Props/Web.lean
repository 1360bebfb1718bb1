import Verif.Proofs.WebRoot
import Verif.Props.Whole
/-!
# Property C93: documents of a library that refer to one another in any way
-/

namespace Verif.Props
open Verif Verif.Spec Verif.Obj

section
variable (E : Env) (voc : List Kw) (hvoc : (voc.filter fun k => !k.isAssertion) = [.ref, .anchor, .id]) (lib : Str → List (Str × Val) → Prop)
  (hlib : ∀ k kvs, lib k kvs → WebDoc E.ip E.file lib kvs)
include hvoc hlib

/-- C93: `lib` is a library all documents of which refer to objects of themselves and of each other.  Whatever a program has created, asked the store
for and loaded: creating a schema from such data returns, the store returns every document of the library, and every schema there is loads. -/
theorem C93_loads {made : List (Nat × List (Str × Val))} {s : St} (h : Reached E voc lib made s) :
    (∀ kvs, WebDoc E.ip E.file lib kvs → ∃ s', newDocument (.dict kvs) voc s = (.ok s.docs.length, s')) ∧
    (∀ u k kvs, Store.baseText E.ip u = .ok k → E.file u = .ok (.dict kvs) → lib k kvs → ∃ d s', storeLoad E u voc s = (.ok d, s') ∧ dictGet k s'.storage = some d) ∧
    (∀ d, d < s.docs.length → ∃ s', (∃ f0, ∀ f, f0 ≤ f → (ops E f).load d s = (.ok (), s')) ∧ ∃ x : Schema, s'.docs[d]? = some x ∧ x.ready = true) := by
  obtain ⟨data, A, hh⟩ := reached_holds hvoc hlib h
  refine ⟨fun kvs hk => ?_, fun u k kvs hb hf hl => ?_, fun d hd => ?_⟩
  · obtain ⟨A', s', h1, -⟩ := hh.create hvoc hk
    rw [hh.web.length] at h1
    exact ⟨s', h1⟩
  · obtain ⟨d, data', A', s', h1, -, h3⟩ := hh.find hvoc hb hf hl
    exact ⟨d, s', h1, h3⟩
  · obtain ⟨data', A', s', h1, -, h3, -⟩ := hh.load hlib hd
    exact ⟨s', h1, h3⟩

/-- C93: every schema has been made from the data it was created from, or from data of the library that stands under an identifier of it in the store; and the store
has nothing else.  When all are loaded, the objects are those of the data, in which a reference leads to the document that has the identifier, and all identifiers
in references are known.  So C65_query
and C65_node say what reading them returns. -/
theorem C93_mirrors {made : List (Nat × List (Str × Val))} {s : St} (h : Reached E voc lib made s) : ∃ data : List (List (Str × Val)),
    (∀ d kvs, (d, kvs) ∈ made → data[d]? = some kvs) ∧
    (∀ d kvs, data[d]? = some kvs → (d, kvs) ∈ made ∨ ∃ k, dictGet k s.storage = some d ∧ lib k kvs) ∧
    (∀ k e, dictGet k s.storage = some e → ∃ kvs, data[e]? = some kvs ∧ lib k kvs) ∧
    data.length = s.docs.length ∧ ((∀ x ∈ s.docs, x.ready = true) → Mirrors s (docsIn E.ip s.storage data) ∧
      ∀ (d : Nat) kvs, data[d]? = some kvs → LinkedRoot E.ip (Known E.ip s.storage) (wrapDict kvs)) := by
  obtain ⟨data, A, hh⟩ := reached_holds hvoc hlib h
  refine ⟨data, fun d kvs hd => (hh.created d kvs hd).1, hh.origin, hh.stored, hh.web.length, fun hr => ⟨hh.web.mirrors hr, fun d kvs hd => ?_⟩⟩
  obtain ⟨x, hx⟩ : ∃ x, s.docs[d]? = some x := ⟨_, List.getElem?_eq_getElem (by rw [← hh.web.length]; exact (List.getElem?_eq_some_iff.1 hd).1)⟩
  obtain ⟨-, ⟨-, h2, h3, -⟩ | ⟨h0, -⟩⟩ := hh.web.doc d x kvs hx hd (by simp)
  · exact ⟨h3, h2, (hh.doc hlib hd).root.name⟩
  · rw [hr x (List.mem_of_getElem? hx)] at h0; cases h0

/-- C93: when the library has finitely many identifiers, loading comes to an end: there is an order in which loading leaves no schema that is not loaded. -/
theorem C93_completes (ks : List Str) (hks : ∀ k kvs, lib k kvs → k ∈ ks) {made : List (Nat × List (Str × Val))} {s : St} (h : Reached E voc lib made s) :
    ∃ s', LoadsSome E s s' ∧ Reached E voc lib made s' ∧ ∀ x ∈ s'.docs, x.ready = true := by
  have bound : ∀ {s : St}, Reached E voc lib made s → s.docs.length ≤ made.length + ks.length := by
    intro s h
    obtain ⟨data, A, hh⟩ := reached_holds hvoc hlib h
    have := hh.room
    have h2 : s.storage.length ≤ ks.length := by
      have := hh.nodup.length_le_of_subset (l₂ := ks) fun k hk => by
        obtain ⟨⟨k', e⟩, hp, rfl⟩ := List.mem_map.1 hk
        obtain ⟨v, -, hv⟩ := hh.stored k' e (dictGet_of_mem hh.nodup hp)
        exact hks _ _ hv
      simpa using this
    omega
  have key : ∀ n, ∃ s', LoadsSome E s s' ∧ Reached E voc lib made s' ∧ ∀ (d : Nat) (x : Schema), d < n → s'.docs[d]? = some x → x.ready = true := by
    intro n
    induction n with
    | zero => exact ⟨s, .nil s, h, fun d x hd => by omega⟩
    | succ n ih =>
      obtain ⟨s1, h1, h2, h3⟩ := ih
      by_cases hn : n < s1.docs.length
      · obtain ⟨data, A, hh⟩ := reached_holds hvoc hlib h2
        obtain ⟨data', A', s2, g1, g2, ⟨y, hy, hry⟩, g3, -⟩ := hh.load hlib hn
        refine ⟨s2, ?_, .load h2 hn g1, fun d x hd hx => ?_⟩
        · have trans : ∀ {a b c : St}, LoadsSome E a b → LoadsSome E b c → LoadsSome E a c := by
            intro a b c hab
            induction hab with
            | nil => exact fun h => h
            | cons there load _ ih => exact fun h => .cons there load (ih h)
          exact trans h1 (.cons hn g1 (.nil _))
        · by_cases hdn : d = n
          · subst hdn; rw [hx] at hy; cases hy; exact hry
          · have hd1 : d < s1.docs.length := by omega
            have hr := h3 d _ (by omega) (List.getElem?_eq_getElem hd1)
            have := g3 d _ (List.getElem?_eq_getElem hd1) hr
            rw [hx] at this; cases this
            exact hr
      · exact ⟨s1, h1, h2, fun d x hd hx => h3 d x (by have := (List.getElem?_eq_some_iff.1 hx).1; omega) hx⟩
  obtain ⟨s', h1, h2, h3⟩ := key (made.length + ks.length)
  refine ⟨s', h1, h2, fun x hx => ?_⟩
  obtain ⟨d, hd⟩ := List.getElem?_of_mem hx
  have := (List.getElem?_eq_some_iff.1 hd).1
  have := bound h2
  exact h3 d x (by omega) hd

/-- C93: and then each of them judges values as JSON Schema says of the data, as in C72. -/
theorem C93_judged_partial (hp : VocPaired voc) {made : List (Nat × List (Str × Val))} {s : St} (h : Reached E voc lib made s) (hr : ∀ x ∈ s.docs, x.ready = true) :
    ∃ data : List (List (Str × Val)), (∀ d kvs, (d, kvs) ∈ made → data[d]? = some kvs) ∧
      (∀ d kvs, data[d]? = some kvs → (d, kvs) ∈ made ∨ ∃ k, dictGet k s.storage = some d ∧ lib k kvs) ∧
      ∀ docs, docs = docsIn E.ip s.storage data → ∀ d D, docs[d]? = some D →
      ∀ see, Truthful docs see → ∀ k items, unfold see k D.root = .obj items → ∀ v, Fits E.w voc (.obj items) v → v.NoBraces →
        ∃ g, ∀ h, g ≤ h → ((validate E h d v s).1 = .ok () ↔ Sat E.w voc (.obj items) v) ∧ Decides (validate E h d v s).1 ∧
          (validate E h d v s).2 = s := by
  obtain ⟨data, A, hh⟩ := reached_holds hvoc hlib h
  have hm := hh.web.mirrors hr
  refine ⟨data, fun d kvs hd => (hh.created d kvs hd).1, hh.origin, fun docs hdocs d D hD see hsee k items hu v hf hv => ?_⟩
  rw [← hdocs] at hm
  obtain ⟨x, hx⟩ : ∃ x, s.docs[d]? = some x := ⟨_, List.getElem?_eq_getElem (by rw [← hm.length]; exact (List.getElem?_eq_some_iff.1 hD).1)⟩
  exact mirrors_judged E hp hm hx (hh.words x (List.mem_of_getElem? hx)) hD hsee hu hf hv

/-- C70, where the store has the document before it is loaded: a document asked for by its identifier, as the documents that are referred to are.  Then
all references to the identifier, those of the document itself too, lead to it, in the state and in all states reached after it. -/
theorem C70_partial {made : List (Nat × List (Str × Val))} {s s' : St} (h : Reached E voc lib made s) {u : Uri} {k : Str} {kvs : List (Str × Val)} {d : Nat}
    (hb : Store.baseText E.ip u = .ok k) (hf : E.file u = .ok (.dict kvs)) (hl : lib k kvs) (hk : k ≠ []) (hs : storeLoad E u voc s = (.ok d, s')) :
    (∀ t v e, Uri.parse E.ip t = .ok v → Store.baseText E.ip v = .ok k → refDoc E.ip s'.storage e t = d) ∧
    ∀ s'', LoadsSome E s' s'' → ∀ t v e, Uri.parse E.ip t = .ok v → Store.baseText E.ip v = .ok k → refDoc E.ip s''.storage e t = d := by
  obtain ⟨data, A, hh⟩ := reached_holds hvoc hlib h
  obtain ⟨d', data', A', s1, h1, -, h3⟩ := hh.find hvoc hb hf hl
  rw [hs] at h1; cases h1
  have hreach : Reached E voc lib made s' := .find h hb hf hl hs
  have point : ∀ {s : St}, dictGet k s.storage = some d → ∀ t v e, Uri.parse E.ip t = .ok v → Store.baseText E.ip v = .ok k → refDoc E.ip s.storage e t = d := by
    intro s hs t v e h1 h2
    unfold refDoc
    rw [h1]
    simp only [h2, if_neg hk, hs, Option.getD_some]
  refine ⟨point h3, fun s'' hls => point ?_⟩
  have keep : ∀ {a b : St}, LoadsSome E a b → Reached E voc lib made a → dictGet k a.storage = some d → dictGet k b.storage = some d := by
    intro a b hab
    induction hab with
    | nil => exact fun _ h => h
    | cons there load _ ih =>
      intro hr ha
      refine ih (.load hr there load) ?_
      obtain ⟨data, A, hh⟩ := reached_holds hvoc hlib hr
      obtain ⟨data', A', s2, g1, g2, g3⟩ := hh.load hlib there
      obtain ⟨-, rfl⟩ := Runs.det load g1
      exact g3.2.2.1 k d ha
  exact keep hls hreach h3

end

/-! ## Two documents that refer to each other -/

/-- `{"$id": "http://x/a", "n": {"$ref": "http://x/a#/p"}, "p": {"z": {"$ref": "http://x/b#/m"}}}` -/
def webA : List (Str × Val) :=
  [(c!"$id", .str c!"http://x/a"), (c!"n", .dict [(c!"$ref", .str c!"http://x/a#/p")]), (c!"p", .dict [(c!"z", .dict [(c!"$ref", .str c!"http://x/b#/m")])])]
/-- `{"m": {"y": {"$ref": "http://x/a#/p"}, "v": true}}` -/
def webB : List (Str × Val) := [(c!"m", .dict [(c!"y", .dict [(c!"$ref", .str c!"http://x/a#/p")]), (c!"v", .bool true)])]

def webLib (k : Str) (kvs : List (Str × Val)) : Prop := (k = c!"http://x/a" ∧ kvs = webA) ∨ (k = c!"http://x/b" ∧ kvs = webB)

/-- The loader finds them, whatever the fragment. -/
def webFile (u : Uri) : Res Val :=
  if u.path = c!"/a" then .ok (.dict webA) else if u.path = c!"/b" then .ok (.dict webB) else .err .fileNotFound

theorem web_to_a (ip : Rfc3986.IpRe) : WebRef ip webFile webLib c!"http://x/a#/p" := by
  refine .inr ⟨⟨c!"http", ⟨[], c!"x", []⟩, c!"/a", [], c!"/p"⟩, c!"http://x/a", [c!"p"], webA, by cbv, by decide, by cbv, by decide, rfl, .inl ⟨rfl, rfl⟩, ?_⟩
  rintro kvs' (⟨-, rfl⟩ | ⟨h, -⟩) link
  · exact ⟨3, _, rfl, by change ∀ k ∈ _, k ∉ [c!"z"]; decide⟩
  · exact absurd h (by decide)

theorem web_to_b (ip : Rfc3986.IpRe) : WebRef ip webFile webLib c!"http://x/b#/m" := by
  refine .inr ⟨⟨c!"http", ⟨[], c!"x", []⟩, c!"/b", [], c!"/m"⟩, c!"http://x/b", [c!"m"], webB, by cbv, by decide, by cbv, by decide, rfl, .inr ⟨rfl, rfl⟩, ?_⟩
  rintro kvs' (⟨h, -⟩ | ⟨-, rfl⟩) link
  · exact absurd h (by decide)
  · exact ⟨3, _, rfl, by change ∀ k ∈ _, k ∉ [c!"y", c!"v"]; decide⟩

theorem web_library (ip : Rfc3986.IpRe) (k : Str) (kvs : List (Str × Val)) (h : webLib k kvs) : WebDoc ip webFile webLib kvs := by
  have plain : ∀ {P : Str → Prop} {m : List (Str × Node)}, c!"$ref" ∉ m.map Prod.fst → c!"$anchor" ∉ m.map Prod.fst → CoreObject P m :=
    fun h1 h2 => ⟨fun h => absurd h h1, fun h => absurd h h2⟩
  rcases h with ⟨rfl, rfl⟩ | ⟨rfl, rfl⟩
  · refine ⟨⟨⟨trivial, ⟨⟨by decide, by decide⟩, ⟨fun _ => ⟨by decide, _, rfl, web_to_a ip⟩, fun h => absurd h (by decide)⟩, trivial, trivial⟩,
      ⟨⟨by decide, by decide⟩, plain (by decide) (by decide), ⟨⟨by decide, by decide⟩, ⟨fun _ => ⟨by decide, _, rfl, web_to_b ip⟩, fun h => absurd h (by decide)⟩, trivial, trivial⟩, trivial⟩,
      trivial⟩, plain (by decide) (by decide), .inr ⟨by decide, c!"http://x/a", rfl, ⟨⟨c!"http", ⟨[], c!"x", []⟩, c!"/a", [], []⟩, by cbv, rfl, by cbv⟩⟩⟩, ?_⟩
    intro k hk
    have : nameOf ip (wrapDict webA) = some c!"http://x/a" := by cbv
    rw [this] at hk; cases hk
    exact .inl ⟨rfl, rfl⟩
  · refine ⟨⟨⟨⟨⟨by decide, by decide⟩, plain (by decide) (by decide), ⟨⟨by decide, by decide⟩, ⟨fun _ => ⟨by decide, _, rfl, web_to_a ip⟩, fun h => absurd h (by decide)⟩, trivial, trivial⟩,
      trivial, trivial⟩, trivial⟩, plain (by decide) (by decide), .inl ⟨by decide, by decide⟩⟩, ?_⟩
    intro k hk
    have : nameOf ip (wrapDict webB) = none := by cbv
    rw [this] at hk; cases hk

/-- After asking the store for the first. -/
def webStart (ip : Rfc3986.IpRe) (w : World) : St := (storeLoad ⟨ip, w, webFile⟩ ⟨c!"http", ⟨[], c!"x", []⟩, c!"/a", [], []⟩ draft2020Vocabulary St.empty).2

theorem web_start (ip : Rfc3986.IpRe) (w : World) :
    storeLoad ⟨ip, w, webFile⟩ ⟨c!"http", ⟨[], c!"x", []⟩, c!"/a", [], []⟩ draft2020Vocabulary St.empty = (.ok 0, webStart ip w) := Prod.ext rfl rfl

theorem web_name (ip : Rfc3986.IpRe) : Store.baseText ip ⟨c!"http", ⟨[], c!"x", []⟩, c!"/a", [], []⟩ = .ok c!"http://x/a" := by cbv

theorem web_reached (ip : Rfc3986.IpRe) (w : World) : Reached ⟨ip, w, webFile⟩ draft2020Vocabulary webLib [] (webStart ip w) :=
  .find .empty (web_name ip) rfl (.inl ⟨rfl, rfl⟩) (web_start ip w)

/-- When all is loaded, `query("/n/z/y/z/y/z/v")` of the first goes to and fro between the two and finds the `true` of the second. -/
theorem web_answer (ip : Rfc3986.IpRe) (w : World) {s' : St} (h1 : LoadsSome ⟨ip, w, webFile⟩ (webStart ip w) s')
    (h2 : Reached ⟨ip, w, webFile⟩ draft2020Vocabulary webLib [] s') (h3 : ∀ x ∈ s'.docs, x.ready = true) :
    ∃ g0, ∀ g, g0 ≤ g → ∃ i, (ops ⟨ip, w, webFile⟩ g).query 0 [c!"n", c!"z", c!"y", c!"z", c!"y", c!"z", c!"v"] s' = (.ok i, s') ∧ Shows s'.mem (.bool true) i := by
  have hvoc : (draft2020Vocabulary.filter fun k => !k.isAssertion) = [.ref, .anchor, .id] := by decide
  obtain ⟨-, own⟩ := C70_partial ⟨ip, w, webFile⟩ draft2020Vocabulary hvoc webLib (web_library ip) .empty (web_name ip) rfl (.inl ⟨rfl, rfl⟩) (by decide) (web_start ip w)
  obtain ⟨data, -, -, d3, d4, d5⟩ := C93_mirrors ⟨ip, w, webFile⟩ draft2020Vocabulary hvoc webLib (web_library ip) h2
  obtain ⟨hm, hk⟩ := d5 h3
  have hA : dictGet c!"http://x/a" s'.storage = some 0 := by
    have := own s' h1 c!"http://x/a#/p" ⟨c!"http", ⟨[], c!"x", []⟩, c!"/a", [], c!"/p"⟩ 1 (by cbv) (by cbv)
    have e : refDoc ip s'.storage 1 c!"http://x/a#/p" = (dictGet c!"http://x/a" s'.storage).getD 1 := by cbv
    rw [e] at this
    cases h : dictGet c!"http://x/a" s'.storage with
    | none => rw [h] at this; cases this
    | some x => rw [h] at this; cases this; rfl
  have dA : data[0]? = some webA := by
    obtain ⟨v, hv, ⟨-, rfl⟩ | ⟨h, -⟩⟩ := d3 _ _ hA
    · exact hv
    · exact absurd h (by decide)
  obtain ⟨e, hB⟩ : ∃ e, dictGet c!"http://x/b" s'.storage = some e := by
    have := (hk 0 webA dA).kids
    simp only [webA, wrapDict, wrap, LinkedD, Linked] at this
    obtain ⟨t, ht, hkn⟩ := (this.2.2.1.2.2.1.2.1.ref (by decide)).2
    cases ht
    exact hkn ⟨c!"http", ⟨[], c!"x", []⟩, c!"/b", [], c!"/m"⟩ c!"http://x/b" (by cbv) (by cbv) (by decide)
  have dB : data[e]? = some webB := by
    obtain ⟨v, hv, ⟨h, -⟩ | ⟨-, rfl⟩⟩ := d3 _ _ hB
    · exact absurd h (by decide)
    · exact hv
  have rA : ∀ x, refDoc ip s'.storage x c!"http://x/a#/p" = 0 := fun x => by
    have e : refDoc ip s'.storage x c!"http://x/a#/p" = (dictGet c!"http://x/a" s'.storage).getD x := by cbv
    rw [e, hA]; rfl
  have rB : ∀ x, refDoc ip s'.storage x c!"http://x/b#/m" = e := fun x => by
    have e : refDoc ip s'.storage x c!"http://x/b#/m" = (dictGet c!"http://x/b" s'.storage).getD x := by cbv
    rw [e, hB]; rfl
  have pA : refPointer ip c!"http://x/a#/p" = [c!"p"] := by cbv
  have pB : refPointer ip c!"http://x/b#/m" = [c!"m"] := by cbv
  have eA : ∀ link, docIn ip link (wrap (.dict webA)) = ⟨.obj [(c!"$id", .str c!"http://x/a"),
      (c!"n", .ref [(c!"$ref", .str c!"http://x/a#/p")] (link c!"http://x/a#/p") (refPointer ip c!"http://x/a#/p")),
      (c!"p", .obj [(c!"z", .ref [(c!"$ref", .str c!"http://x/b#/m")] (link c!"http://x/b#/m") (refPointer ip c!"http://x/b#/m"))])], []⟩ := fun _ => rfl
  have eB : ∀ link, docIn ip link (wrap (.dict webB)) = ⟨.obj [(c!"m", .obj [
      (c!"y", .ref [(c!"$ref", .str c!"http://x/a#/p")] (link c!"http://x/a#/p") (refPointer ip c!"http://x/a#/p")), (c!"v", .bool true)])], []⟩ := fun _ => rfl
  have D0 : (docsIn ip s'.storage data)[0]? = some ⟨.obj [(c!"$id", .str c!"http://x/a"), (c!"n", .ref [(c!"$ref", .str c!"http://x/a#/p")] 0 [c!"p"]),
      (c!"p", .obj [(c!"z", .ref [(c!"$ref", .str c!"http://x/b#/m")] e [c!"m"])])], []⟩ := by
    simp only [docsIn, List.getElem?_mapIdx, dA, Option.map_some, eA, rA, rB, pA, pB]
  have De : (docsIn ip s'.storage data)[e]? = some ⟨.obj [(c!"m", .obj [(c!"y", .ref [(c!"$ref", .str c!"http://x/a#/p")] 0 [c!"p"]), (c!"v", .bool true)])], []⟩ := by
    simp only [docsIn, List.getElem?_mapIdx, dB, Option.map_some, eB, rA, pA]
  generalize hdocs : docsIn ip s'.storage data = docs at hm D0 De
  obtain ⟨-, q⟩ := C65_query ⟨ip, w, webFile⟩ s' _ hm 0 _ D0 [c!"n", c!"z", c!"y", c!"z", c!"y", c!"z", c!"v"]
  have hq : queryDoc (view docs 9) ⟨.obj [(c!"$id", .str c!"http://x/a"), (c!"n", .ref [(c!"$ref", .str c!"http://x/a#/p")] 0 [c!"p"]),
      (c!"p", .obj [(c!"z", .ref [(c!"$ref", .str c!"http://x/b#/m")] e [c!"m"])])], []⟩ [c!"n", c!"z", c!"y", c!"z", c!"y", c!"z", c!"v"] = .ok (.bool true) := by
    have vo : ∀ f kvs, view docs (f + 1) (.obj kvs) = .ok (.obj kvs) := fun _ _ => rfl
    have vA : view docs 9 (.ref [(c!"$ref", .str c!"http://x/a#/p")] 0 [c!"p"]) = .ok (.obj [(c!"z", .ref [(c!"$ref", .str c!"http://x/b#/m")] e [c!"m"])]) := by
      rw [view, D0]
      rfl
    have vB : view docs 9 (.ref [(c!"$ref", .str c!"http://x/b#/m")] e [c!"m"]) = .ok (.obj [(c!"y", .ref [(c!"$ref", .str c!"http://x/a#/p")] 0 [c!"p"]), (c!"v", .bool true)]) := by
      rw [view, De]
      rfl
    simp [queryDoc, queryLoop, queryStep, vo, vA, vB, dictGet]
  obtain ⟨g0, q⟩ := q 9 (by rw [hq]; simp)
  rw [hq] at q
  refine ⟨g0, fun g hg => ?_⟩
  obtain ⟨a, b⟩ := q g hg
  obtain ⟨i, e, hi⟩ := Alike.of_ok a
  exact ⟨i, Prod.ext e b, hi⟩

/-- Asked for the first, the store makes it; loading what there is leads to such a state. -/
example (ip : Rfc3986.IpRe) (w : World) : ∃ s s' : St,
    storeLoad ⟨ip, w, webFile⟩ ⟨c!"http", ⟨[], c!"x", []⟩, c!"/a", [], []⟩ draft2020Vocabulary St.empty = (.ok 0, s) ∧ LoadsSome ⟨ip, w, webFile⟩ s s' ∧
    ∃ g0, ∀ g, g0 ≤ g → ∃ i, (ops ⟨ip, w, webFile⟩ g).query 0 [c!"n", c!"z", c!"y", c!"z", c!"y", c!"z", c!"v"] s' = (.ok i, s') ∧ Shows s'.mem (.bool true) i := by
  obtain ⟨s', h1, h2, h3⟩ := C93_completes ⟨ip, w, webFile⟩ draft2020Vocabulary (by decide) webLib (web_library ip) [c!"http://x/a", c!"http://x/b"]
    (by rintro k kvs (⟨rfl, -⟩ | ⟨rfl, -⟩) <;> simp) (web_reached ip w)
  exact ⟨_, s', web_start ip w, h1, web_answer ip w h1 h2 h3⟩

end Verif.Props
