import Verif.Proofs.Linked
import Verif.Proofs.OpsMono
import Verif.Props.Bridge
/-!
# Properties C68–C71: documents that refer to each other
-/

namespace Verif.Props
open Verif Verif.Spec Verif.Obj

/-! ## C68: documents loaded in turn -/

theorem linked_from (E : Env) (voc : List Kw) (hvoc : (voc.filter fun k => !k.isAssertion) = [.ref, .anchor, .id]) :
    ∀ (vs : List (List (Str × Val))) (s : St) (docs : List Doc), Mirrors s docs → LinkedAll E.ip docs s.storage vs →
      (∃ s', LoadsAll E voc s vs s') ∧
      ∀ s', LoadsAll E voc s vs s' → Mirrors s' (linkAll E.ip docs s.storage vs).1 ∧ s'.storage = (linkAll E.ip docs s.storage vs).2 := by
  intro vs
  induction vs with
  | nil =>
    intro s docs hm _
    refine ⟨⟨s, .nil s⟩, fun s' h => ?_⟩
    cases h
    exact ⟨hm, rfl⟩
  | cons kvs vs ih =>
    intro s docs hm hl
    obtain ⟨s1, s2, h1, h2, h3, h4⟩ := load_linked E hm hvoc hl.1
    obtain ⟨⟨s', h5⟩, h6⟩ := ih s2 _ h4 (by rw [h3]; exact hl.2)
    rw [h3] at h6
    refine ⟨⟨s', .cons h1 h2 h5⟩, fun s'' h => ?_⟩
    cases h with
    | cons new load rest =>
      rw [h1] at new
      cases new
      obtain ⟨f0, hf⟩ := h2
      obtain ⟨f1, hf'⟩ := load
      have e := (hf (max f0 f1) (by omega)).symm.trans (hf' (max f0 f1) (by omega))
      cases e
      exact h6 _ rest

/-- C68: documents that refer to themselves and to objects of documents loaded before load one after the other; then the objects are those of the
data, in which a reference leads to the document that has the identifier, and the store has each document under its identifier, the first of those with
the same.  So C65_query and C65_node say what reading them returns. -/
theorem C68_loads (E : Env) (voc : List Kw) (hvoc : (voc.filter fun k => !k.isAssertion) = [.ref, .anchor, .id])
    (vs : List (List (Str × Val))) (hl : LinkedAll E.ip [] [] vs) :
    (∃ s, LoadsAll E voc St.empty vs s) ∧
    ∀ s, LoadsAll E voc St.empty vs s → Mirrors s (linkAll E.ip [] [] vs).1 ∧ s.storage = (linkAll E.ip [] [] vs).2 :=
  linked_from E voc hvoc vs St.empty [] ⟨rfl, fun d x D h _ => by simp [St.empty] at h⟩ hl

/-- The base of a URI is empty exactly if `bool` of it is false. -/
theorem C68_truth (u : Uri) : Uri.truth u = false ↔ Uri.text u = [] := Uri.truth_text u

/-- `{"$id": "http://x/a", "defs": {"n": {"x": true}}}` -/
def linkedTo : List (Str × Val) := [(c!"$id", .str c!"http://x/a"), (c!"defs", .dict [(c!"n", .dict [(c!"x", .bool true)])])]
/-- `{"v": {"$ref": "http://x/a#/defs/n", "title": "t"}, "w": {"$ref": "#/v"}}` -/
def linkedFrom : List (Str × Val) :=
  [(c!"v", .dict [(c!"$ref", .str c!"http://x/a#/defs/n"), (c!"title", .str c!"t")]), (c!"w", .dict [(c!"$ref", .str c!"#/v")])]

def linkedDocs : List Doc :=
  [⟨.obj [(c!"$id", .str c!"http://x/a"), (c!"defs", .obj [(c!"n", .obj [(c!"x", .bool true)])])], []⟩,
   ⟨.obj [(c!"v", .ref [(c!"$ref", .str c!"http://x/a#/defs/n"), (c!"title", .str c!"t")] 0 [c!"defs", c!"n"]),
      (c!"w", .ref [(c!"$ref", .str c!"#/v")] 1 [c!"v"])], []⟩]

theorem linked_docs (ip : Rfc3986.IpRe) : linkAll ip [] [] [linkedTo, linkedFrom] = (linkedDocs, [(c!"http://x/a", 0)]) := by cbv

theorem linked_all (ip : Rfc3986.IpRe) : LinkedAll ip [] [] [linkedTo, linkedFrom] := by
  have e1 : docIn ip (refDoc ip [] 0) (wrap (.dict linkedTo)) = linkedDocs[0] := by cbv
  have e2 : named ip [] 0 (wrapDict linkedTo) = [(c!"http://x/a", 0)] := by cbv
  refine ⟨?_, ?_, trivial⟩
  · refine ⟨⟨trivial, ⟨?_, ?_, ⟨?_, ?_, trivial, trivial⟩, trivial⟩, trivial⟩, ?_, .inr ⟨by decide, c!"http://x/a", rfl, ?_⟩⟩
    · exact ⟨by decide, by decide⟩
    · exact ⟨fun h => absurd h (by decide), fun h => absurd h (by decide)⟩
    · exact ⟨by decide, by decide⟩
    · exact ⟨fun h => absurd h (by decide), fun h => absurd h (by decide)⟩
    · exact ⟨fun h => absurd h (by decide), fun h => absurd h (by decide)⟩
    · exact ⟨⟨c!"http", ⟨[], c!"x", []⟩, c!"/a", [], []⟩, by cbv, rfl, by cbv⟩
  · simp only [List.length_nil, e1, e2, List.nil_append]
    refine ⟨⟨⟨?_, ?_, trivial, trivial, trivial⟩, ⟨⟨?_, ?_, trivial, trivial⟩, trivial⟩⟩, ?_, .inl ⟨by decide, by decide⟩⟩
    · exact ⟨by decide, by decide⟩
    · refine ⟨fun _ => ⟨by decide, _, rfl, .inr ?_⟩, fun h => absurd h (by decide)⟩
      exact ⟨⟨c!"http", ⟨[], c!"x", []⟩, c!"/a", [], c!"/defs/n"⟩, ⟨c!"http", ⟨[], c!"x", []⟩, c!"/a", [], []⟩, [c!"defs", c!"n"], 0, [(c!"x", .bool true)],
        by cbv, by decide, by cbv, by decide, by decide, ⟨_, 3, .obj [(c!"x", .bool true)], rfl, rfl, rfl⟩, by decide⟩
    · exact ⟨by decide, by decide⟩
    · refine ⟨fun _ => ⟨by decide, _, rfl, .inl ?_⟩, fun h => absurd h (by decide)⟩
      obtain ⟨u, b, h⟩ := local_fragment ip (fr := c!"/v") (ptr := [c!"v"]) (by decide) rfl
      exact ⟨u, b, _, h⟩
    · exact ⟨fun h => absurd h (by decide), fun h => absurd h (by decide)⟩

/-- After loading both, `query("/w/x")` of the second finds the `true` of the first, through two references. -/
example (E : Env) : ∃ s, LoadsAll E draft2020Vocabulary St.empty [linkedTo, linkedFrom] s ∧ dictGet c!"http://x/a" s.storage = some 0 ∧
    ∃ g0, ∀ g, g0 ≤ g → ∃ i, (ops E g).query 1 [c!"w", c!"x"] s = (.ok i, s) ∧ Shows s.mem (.bool true) i := by
  obtain ⟨⟨s, h1⟩, h2⟩ := C68_loads E draft2020Vocabulary (by decide) _ (linked_all E.ip)
  obtain ⟨hm, hst⟩ := h2 s h1
  rw [linked_docs] at hm hst
  refine ⟨s, h1, by rw [hst]; rfl, ?_⟩
  obtain ⟨-, q⟩ := C65_query E s _ hm 1 _ rfl [c!"w", c!"x"]
  obtain ⟨g0, q⟩ := q 5 (by intro e; cases e)
  refine ⟨g0, fun g hg => ?_⟩
  obtain ⟨a, b⟩ := q g hg
  obtain ⟨i, e, hi⟩ := Alike.of_ok (a := Node.bool true) a
  exact ⟨i, Prod.ext e b, hi⟩

/-! ## C69: loading does not depend on what has been loaded -/

/-- What a program returns when the loader finds the data `file` in the place of every URI. -/
def returns (ip : Rfc3986.IpRe) (w : World) (file : Res Val) (cs : List Call) (rs : List (Res Ans)) : Prop :=
  ∃ f0, ∀ f, f0 ≤ f → (calls ⟨ip, w, fun _ => file⟩ f cs St.empty).1 = rs

theorem returns_of {ip : Rfc3986.IpRe} {w : World} {file : Res Val} {cs : List Call} {rs : List (Res Ans)} (f0 : Nat)
    (h : (calls ⟨ip, w, fun _ => file⟩ f0 cs St.empty).1 = rs) (ht : .timeout ∉ rs) : returns ip w file cs rs :=
  ⟨f0, fun f hf => by rw [calls_mono _ hf cs _ (by rw [h]; exact ht), h]⟩

/-- `{"$id": "http://a/", "x": true}` -/
def againTarget : Val := .dict [(c!"$id", .str c!"http://a/"), (c!"x", .bool true)]
/-- `{"p": {"$ref": "http://a/"}}` -/
def againDoc : Val := .dict [(c!"p", .dict [(c!"$ref", .str c!"http://a/")])]

/-- C69 is false: a document that loads does not load again from equal data, after a query has loaded what it refers to. -/
theorem C69_violated (ip : Rfc3986.IpRe) (w : World) :
    returns ip w (.ok againTarget) [.create againDoc draft2020Vocabulary, .load 0, .query 0 c!"/p/x"] [.ok (.schema 0), .ok .none, .ok (.object 5)] ∧
    returns ip w (.ok againTarget) [.create againDoc draft2020Vocabulary, .load 0, .query 0 c!"/p/x", .create againDoc draft2020Vocabulary, .load 2]
      [.ok (.schema 0), .ok .none, .ok (.object 5), .ok (.schema 2), .err .valueError] := by
  refine ⟨returns_of 30 ?_ (by decide), returns_of 30 ?_ (by decide)⟩ <;> cbv

/-- C69 where a document refers to objects without the members `$anchor`, `$id` and `id` of documents loaded before: it loads whatever else has been loaded. -/
theorem C69_partial (E : Env) (voc : List Kw) (hvoc : (voc.filter fun k => !k.isAssertion) = [.ref, .anchor, .id]) (s : St) (docs : List Doc)
    (hm : Mirrors s docs) (kvs : List (Str × Val)) (hl : LinkedRoot E.ip (KnownRef E.ip docs s.storage) (wrapDict kvs)) :
    ∃ s', LoadsAll E voc s [kvs] s' := by
  obtain ⟨s1, s2, h1, h2, -⟩ := load_linked E hm hvoc hl
  exact ⟨s2, .cons h1 h2 (.nil _)⟩

/-! ## C70: a document can refer to itself by its identifier -/

/-- `{"$id": "http://a/", "p": {"$ref": "http://a/#/q"}, "q": {"x": true}}` -/
def selfNamed : Val :=
  .dict [(c!"$id", .str c!"http://a/"), (c!"p", .dict [(c!"$ref", .str c!"http://a/#/q")]), (c!"q", .dict [(c!"x", .bool true)])]

/-- C70 is false: the identifier is not known yet when the reference is met.  Without a file the load fails; with a file, the reference leads to the
document made from the file, even if both have the same data: `/p/x` and `/q/x` are different objects. -/
theorem C70_violated (ip : Rfc3986.IpRe) (w : World) :
    returns ip w (.err .fileNotFound) [.create selfNamed draft2020Vocabulary, .load 0] [.ok (.schema 0), .err .jsonLoadError] ∧
    returns ip w (.ok selfNamed) [.create selfNamed draft2020Vocabulary, .query 0 c!"/p/x", .query 0 c!"/q/x"]
      [.ok (.schema 0), .ok (.object 11), .ok (.object 5)] := by
  refine ⟨returns_of 30 ?_ (by decide), returns_of 30 ?_ (by decide)⟩ <;> cbv

/-! ## C71: an object with an identifier is a document of its own -/

/-- `{"$id": "http://a/", "p": {"$id": "b", "q": {"x": true}, "r": {"$ref": t}}}` -/
def embedded (t : Str) : Val :=
  .dict [(c!"$id", .str c!"http://a/"),
    (c!"p", .dict [(c!"$id", .str c!"b"), (c!"q", .dict [(c!"x", .bool true)]), (c!"r", .dict [(c!"$ref", .str t)])])]
/-- `{"s": {"$ref": "http://a/b#/q"}}` -/
def toEmbedded : Val := .dict [(c!"s", .dict [(c!"$ref", .str c!"http://a/b#/q")])]
/-- `{"$id": "http://a/", "p": {"$id": "b", "q": {"x": true}}}` -/
def embeddedPlain : Val := .dict [(c!"$id", .str c!"http://a/"), (c!"p", .dict [(c!"$id", .str c!"b"), (c!"q", .dict [(c!"x", .bool true)])])]

/-- C71 is false: a reference in an object with an identifier is read in the document around it; and if it leads somewhere there, no reference to the
object by its identifier can be followed. -/
theorem C71_violated (ip : Rfc3986.IpRe) (w : World) :
    returns ip w (.err .fileNotFound) [.create (embedded c!"#/q") draft2020Vocabulary, .query 0 c!"/p/q/x", .query 0 c!"/p/r/x"]
      [.ok (.schema 0), .ok (.object 5), .err .keyError] ∧
    returns ip w (.err .fileNotFound) [.create (embedded c!"#/p/q") draft2020Vocabulary, .query 0 c!"/p/r/x",
        .create toEmbedded draft2020Vocabulary, .load 2, .query 2 c!"/s/x"]
      [.ok (.schema 0), .ok (.object 5), .ok (.schema 2), .ok .none, .err .attributeError] := by
  refine ⟨returns_of 30 ?_ (by decide), returns_of 30 ?_ (by decide)⟩ <;> cbv

/-- What has an identifier after a program, when there are no files. -/
def names (ip : Rfc3986.IpRe) (w : World) (cs : List Call) (k : Str) (d : Nat) : Prop :=
  ∃ f0, ∀ f, f0 ≤ f → dictGet k (calls ⟨ip, w, fun _ => .err .fileNotFound⟩ f cs St.empty).2.storage = some d

theorem names_of {ip : Rfc3986.IpRe} {w : World} {cs : List Call} {k : Str} {d : Nat} (f0 : Nat) (rs : List (Res Ans))
    (h : (calls ⟨ip, w, fun _ => .err .fileNotFound⟩ f0 cs St.empty).1 = rs) (ht : .timeout ∉ rs)
    (hd : dictGet k (calls ⟨ip, w, fun _ => .err .fileNotFound⟩ f0 cs St.empty).2.storage = some d) : names ip w cs k d :=
  ⟨f0, fun f hf => by rw [calls_mono _ hf cs _ (by rw [h]; exact ht), hd]⟩

/-- What has an identifier changes when the document is loaded: the schema `1` has the identifier; after loading it, another schema, the `2`, has it, not
loaded, and so on. -/
theorem C71_renamed_violated (ip : Rfc3986.IpRe) (w : World) :
    names ip w [.create embeddedPlain draft2020Vocabulary, .load 0] c!"http://a/b" 1 ∧
    names ip w [.create embeddedPlain draft2020Vocabulary, .load 0, .load 1] c!"http://a/b" 2 ∧
    names ip w [.create embeddedPlain draft2020Vocabulary, .load 0, .load 1, .load 2] c!"http://a/b" 3 := by
  refine ⟨names_of 30 [.ok (.schema 0), .ok .none] ?_ (by decide) ?_, names_of 30 [.ok (.schema 0), .ok .none, .ok .none] ?_ (by decide) ?_,
    names_of 30 [.ok (.schema 0), .ok .none, .ok .none, .ok .none] ?_ (by decide) ?_⟩ <;> cbv

end Verif.Props
