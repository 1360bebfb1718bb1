import Verif.Proofs.BridgeLoad
import Verif.Proofs.LocalRef
import Verif.Model.Vocabulary
/-!
# Property C65: loaded documents are read as their data says

`docsFrom` and `view` speak about the data alone: trees, in which a reference is its own members and a pointer.  The theorems
relate them to the objects the library makes, which refer to each other and are modified while loading.
-/

namespace Verif.Props
open Verif Verif.Spec Verif.Obj

theorem loads_from (E : Env) (voc : List Kw) (hvoc : (voc.filter fun k => !k.isAssertion) = [.ref, .anchor, .id]) :
    ∀ (vs : List (List (Str × Val))), (∀ kvs ∈ vs, LocalDoc E.ip (wrap (.dict kvs))) → ∀ (s : St) (docs : List Doc), Mirrors s docs → s.storage = [] →
      (∃ s', LoadsAll E voc s vs s') ∧ ∀ s', LoadsAll E voc s vs s' → Mirrors s' (docs ++ docsFrom E.ip docs.length vs) := by
  intro vs
  induction vs with
  | nil =>
    intro _ s docs hm _
    refine ⟨⟨s, .nil s⟩, fun s' h => ?_⟩
    cases h
    simpa [docsFrom] using hm
  | cons kvs vs ih =>
    intro hl s docs hm hst
    obtain ⟨s1, s2, h1, h2, h3, h4⟩ := load_mirrors E hm hst hvoc (hl kvs (by simp))
    have := ih (fun kvs hk => hl kvs (by simp [hk])) s2 _ h4 h3
    simp only [List.length_append, List.length_singleton, List.append_assoc, List.singleton_append] at this
    obtain ⟨⟨s', h5⟩, h6⟩ := this
    refine ⟨⟨s', .cons h1 h2 h5⟩, fun s'' h => ?_⟩
    cases h with
    | cons new load rest =>
      rw [h1] at new
      cases new
      obtain ⟨f0, hf⟩ := h2
      obtain ⟨f1, hf'⟩ := load
      have e := (hf (max f0 f1) (by omega)).symm.trans (hf' (max f0 f1) (by omega))
      cases e
      exact h6 _ rest

/-- C65, loading: any number of documents that refer only to themselves load one after the other, and the objects then are those of the data. -/
theorem C65_loads (E : Env) (voc : List Kw) (hvoc : (voc.filter fun k => !k.isAssertion) = [.ref, .anchor, .id])
    (vs : List (List (Str × Val))) (hl : ∀ kvs ∈ vs, LocalDoc E.ip (wrap (.dict kvs))) :
    (∃ s, LoadsAll E voc St.empty vs s) ∧ ∀ s, LoadsAll E voc St.empty vs s → Mirrors s (docsFrom E.ip 0 vs) := by
  have := loads_from E voc hvoc vs hl St.empty [] ⟨rfl, fun d x D h _ => by simp [St.empty] at h⟩ rfl
  simpa using this

theorem mirrors_ready {s : St} {docs : List Doc} (hm : Mirrors s docs) : AllReady s := by
  intro x hx
  obtain ⟨d, hd, e⟩ := List.getElem_of_mem hx
  have hs : s.docs[d]? = some x := by rw [List.getElem?_eq_getElem hd, e]
  exact (hm.doc d x _ hs (List.getElem?_eq_getElem (by rw [hm.length]; exact hd))).1

/-- C65 for `query`: it ends on the objects exactly if it ends on the data; then it finds an object of the tree the data has there, or raises
the same exception, and modifies nothing. -/
theorem C65_query (E : Env) (s : St) (docs : List Doc) (hm : Mirrors s docs) (d : Nat) (D : Doc) (hd : docs[d]? = some D) (p : List Str) :
    ((∃ g, ((ops E g).query d p s).1 ≠ .timeout) ↔ ∃ f, queryDoc (view docs f) D p ≠ .timeout) ∧
    ∀ f, queryDoc (view docs f) D p ≠ .timeout → ∃ g0, ∀ g, g0 ≤ g →
      Alike (Shows s.mem) (queryDoc (view docs f) D p) ((ops E g).query d p s).1 ∧ ((ops E g).query d p s).2 = s := by
  have he : ∀ g, (ops E g).query d p s = ((ropsOf s g).query d p, s) := fun g => (ropsOf_eq E (mirrors_ready hm) g).query d p
  refine ⟨⟨fun ⟨g, hg⟩ => ?_, fun ⟨f, hf⟩ => ?_⟩, fun f hf => ?_⟩
  · rw [he] at hg
    exact (ends hm g).2 d D p hd hg
  · obtain ⟨g, hg⟩ := query_reads hm f hd p hf
    exact ⟨g, by rw [he]; exact (hg g (Nat.le_refl _)).right_ne hf⟩
  · obtain ⟨g, hg⟩ := query_reads hm f hd p hf
    exact ⟨g, fun h hh => by rw [he]; exact ⟨hg h hh, rfl⟩⟩

/-- C65 for one node: its type is found out exactly if what the tree shows is found out; it is the type of what the tree shows, or the
same exception; and the members of an object are those the tree shows, in the same order. -/
theorem C65_node (E : Env) (s : St) (docs : List Doc) (hm : Mirrors s docs) (n : Node) (i : Nat) (hs : Shows s.mem n i) :
    ((∃ g, ((ops E g).kind i s).1 ≠ .timeout) ↔ ∃ f, view docs f n ≠ .timeout) ∧
    ∀ f, view docs f n ≠ .timeout → ∃ g0, ∀ g, g0 ≤ g →
      Alike (fun v k => k = v.kind) (view docs f n) ((ops E g).kind i s).1 ∧ ((ops E g).kind i s).2 = s ∧
      ∀ kvs, view docs f n = .ok (.obj kvs) → ∃ ids, (ops E g).members i s = (.ok ids, s) ∧ ShowsD s.mem kvs ids := by
  have hk : ∀ g, (ops E g).kind i s = ((ropsOf s g).kind i, s) := fun g => (ropsOf_eq E (mirrors_ready hm) g).kind i
  have hM : ∀ g, (ops E g).members i s = ((ropsOf s g).members i, s) := fun g => (ropsOf_eq E (mirrors_ready hm) g).members i
  refine ⟨⟨fun ⟨g, hg⟩ => ?_, fun ⟨f, hf⟩ => ?_⟩, fun f hf => ?_⟩
  · rw [hk] at hg
    exact (ends hm g).1 n i hs hg
  · obtain ⟨g, hg⟩ := reads hm f n i hf hs
    exact ⟨g, by rw [hk]; exact (hg.kind g (Nat.le_refl _)).right_ne hf⟩
  · obtain ⟨g, hg⟩ := reads hm f n i hf hs
    refine ⟨g, fun h hh => ⟨by rw [hk]; exact hg.kind h hh, by rw [hk], fun kvs e => ?_⟩⟩
    obtain ⟨ids, h1, h2⟩ := hg.members kvs e
    exact ⟨ids, by rw [hM, h1 h hh], h2⟩

/-- `{"a": {"$ref": "#/b", "title": "t"}, "b": {"$anchor": "here", "x": true}}` -/
def bridgeDoc : List (Str × Val) :=
  [(c!"a", .dict [(c!"$ref", .str c!"#/b"), (c!"title", .str c!"t")]), (c!"b", .dict [(c!"$anchor", .str c!"here"), (c!"x", .bool true)])]

theorem bridge_local (ip : Rfc3986.IpRe) : LocalDoc ip (wrap (.dict bridgeDoc)) := by
  have e : wrap (.dict bridgeDoc) = .obj [(c!"a", .obj [(c!"$ref", .str c!"#/b"), (c!"title", .str c!"t")]),
    (c!"b", .obj [(c!"$anchor", .str c!"here"), (c!"x", .bool true)])] := rfl
  rw [e]
  simp only [LocalDoc, LocalDocD, and_true]
  refine ⟨⟨by decide, fun h => absurd h (by decide), fun h => absurd h (by decide)⟩, ⟨by decide, fun _ => ⟨by decide, _, rfl, ?_⟩, fun h => absurd h (by decide)⟩,
    ⟨by decide, fun h => absurd h (by decide), fun _ => ⟨_, rfl⟩⟩⟩
  obtain ⟨u, b, h⟩ := local_fragment ip (fr := c!"/b") (ptr := [c!"b"]) (by decide) rfl
  exact ⟨u, b, _, h⟩

theorem bridge_doc (ip : Rfc3986.IpRe) : docsFrom ip 0 [bridgeDoc] =
    [⟨.obj [(c!"a", .ref [(c!"$ref", .str c!"#/b"), (c!"title", .str c!"t")] 0 [c!"b"]), (c!"b", .obj [(c!"x", .bool true)])],
      [(c!"here", .obj [(c!"x", .bool true)])]⟩] := by
  have e : refPointer ip c!"#/b" = [c!"b"] := by
    obtain ⟨u, b, h1, h2, -⟩ := local_fragment ip (fr := c!"/b") (ptr := [c!"b"]) (by decide) rfl
    simp only [refPointer, h1, h2]
  have w : wrap (.dict bridgeDoc) = .obj [(c!"a", .obj [(c!"$ref", .str c!"#/b"), (c!"title", .str c!"t")]),
    (c!"b", .obj [(c!"$anchor", .str c!"here"), (c!"x", .bool true)])] := rfl
  simp [docsFrom, docOf, w, resolve, resolveD, anchored, anchoredD, dictGet, dictDel, dictSet, e]

/-- After loading it, `query("/a/x")`, through the reference, finds `true`; `query("/here")` finds the object with the anchor; `query("/a/y")` raises
`KeyError`. -/
example (E : Env) : ∃ s, LoadsAll E draft2020Vocabulary St.empty [bridgeDoc] s ∧ ∃ g0, ∀ g, g0 ≤ g →
    (∃ i, (ops E g).query 0 [c!"a", c!"x"] s = (.ok i, s) ∧ Shows s.mem (.bool true) i) ∧
    (∃ i, (ops E g).query 0 [c!"here"] s = (.ok i, s) ∧ Shows s.mem (.obj [(c!"x", .bool true)]) i) ∧
    (ops E g).query 0 [c!"a", c!"y"] s = (.err .keyError, s) := by
  obtain ⟨⟨s, h1⟩, h2⟩ := C65_loads E draft2020Vocabulary (by decide) [bridgeDoc] (by simpa using bridge_local E.ip)
  refine ⟨s, h1, ?_⟩
  have hm := h2 s h1
  rw [bridge_doc] at hm
  obtain ⟨-, q1⟩ := C65_query E s _ hm 0 _ rfl [c!"a", c!"x"]
  obtain ⟨-, q2⟩ := C65_query E s _ hm 0 _ rfl [c!"here"]
  obtain ⟨-, q3⟩ := C65_query E s _ hm 0 _ rfl [c!"a", c!"y"]
  obtain ⟨g1, q1⟩ := q1 3 (by intro e; cases e)
  obtain ⟨g2, q2⟩ := q2 3 (by intro e; cases e)
  obtain ⟨g3, q3⟩ := q3 3 (by intro e; cases e)
  refine ⟨max g1 (max g2 g3), fun g hg => ⟨?_, ?_, ?_⟩⟩
  · obtain ⟨a, b⟩ := q1 g (by omega)
    obtain ⟨i, e, hi⟩ := Alike.of_ok (a := Node.bool true) a
    exact ⟨i, Prod.ext e b, hi⟩
  · obtain ⟨a, b⟩ := q2 g (by omega)
    obtain ⟨i, e, hi⟩ := Alike.of_ok (a := Node.obj [(c!"x", .bool true)]) a
    exact ⟨i, Prod.ext e b, hi⟩
  · obtain ⟨a, b⟩ := q3 g (by omega)
    exact Prod.ext (Alike.of_err (e := .keyError) a) b

end Verif.Props
