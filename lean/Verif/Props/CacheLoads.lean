import Verif.Props.Cache
/-!
# C11: queries alone can change a loaded schema

`load` walks through the references it meets to the objects they lead to.  A document has no references before it is loaded, but it has some after a load that raised; then
the next try walks into the objects of other schemas, which are loaded, and puts references of its own there.
-/

namespace Verif.Props
open Verif Verif.Obj

/-- `{"t": {"u": {"v": {"$ref": "#/z"}}}}` -/
def walkedA : Val := .dict [(c!"t", .dict [(c!"u", .dict [(c!"v", .dict [(c!"$ref", .str c!"#/z")])])])]
/-- `{"p": {"q": {"$ref": "http://x/a#/t"}}, "r": {"$ref": "http://x/none"}}` -/
def walkedB : Val := .dict [(c!"p", .dict [(c!"q", .dict [(c!"$ref", .str c!"http://x/a#/t")])]), (c!"r", .dict [(c!"$ref", .str c!"http://x/none")])]

/-- The loader finds the first under `http://x/a`, and nothing else. -/
def walkedFile (u : Uri) : Res Val := if u.path = c!"/a" then .ok walkedA else .err .fileNotFound

/-- The objects of both documents, but for the members of `u` of the first and of `p` of the second; `more` are the references made. -/
def walkedState (u p : Nat) (ready : Bool) (more : List Obj.Cell) : St where
  mem := ([⟨.obj [(c!"t", 1)], none, []⟩, ⟨.obj [(c!"u", 2)], some 0, c!"t"⟩, ⟨.obj [(c!"v", u)], some 1, c!"u"⟩, ⟨.obj [(c!"$ref", 4)], some 2, c!"v"⟩,
    ⟨.str c!"#/z", some 3, c!"$ref"⟩, ⟨.obj [(c!"p", 6), (c!"r", 9)], none, []⟩, ⟨.obj [(c!"q", p)], some 5, c!"p"⟩, ⟨.obj [(c!"$ref", 8)], some 6, c!"q"⟩,
    ⟨.str c!"http://x/a#/t", some 7, c!"$ref"⟩, ⟨.obj [(c!"$ref", 10)], some 5, c!"r"⟩, ⟨.str c!"http://x/none", some 9, c!"$ref"⟩] : List Obj.Cell) ++ more
  docs := [⟨0, ready, [], [], none⟩, ⟨5, false, coreVocabulary, [], none⟩]
  storage := [(c!"http://x/a", 0)]

/-- The reference that stands for `q` of the second document after its first load. -/
def walkedQ : Obj.Cell := ⟨.ref 7 0 [c!"t"], some 6, c!"q"⟩
/-- The reference its second load puts into the first document. -/
def walkedV : Obj.Cell := ⟨.ref 3 1 [c!"z"], some 2, c!"v"⟩

/-- C11 fails.  A program gets `http://x/a` from the store, without a vocabulary (the default), and makes a schema of the second document.  Then it makes queries and does
nothing else: `a.query("/t/u/v")` returns an object; `b.query("/p")` raises, twice, since there is no `http://x/none`; and then `a.query("/t/u/v")` returns the first
object, from the table, where a fresh evaluation returns another, a reference of the second schema. -/
theorem C11_violated (ip : Rfc3986.IpRe) (w : World) : ∃ s0 s1 s2 s3 s4 f0,
    storeLoad ⟨ip, w, walkedFile⟩ ⟨c!"http", ⟨[], c!"x", []⟩, c!"/a", [], []⟩ [] St.empty = (.ok 0, s0) ∧ newDocument walkedB coreVocabulary s0 = (.ok 1, s1) ∧
    ∀ f, f0 ≤ f → useFresh ⟨ip, w, walkedFile⟩ (fun _ => []) f (.query 0 (.text c!"/t/u/v")) s1 = (.ok (.object 3), s2) ∧
      useFresh ⟨ip, w, walkedFile⟩ (fun _ => []) f (.query 1 (.text c!"/p")) s2 = (.err .jsonLoadError, s3) ∧
      useFresh ⟨ip, w, walkedFile⟩ (fun _ => []) f (.query 1 (.text c!"/p")) s3 = (.err .attributeError, s4) ∧
      (usesC 128 (fun _ => []) f [(s2, .query 0 (.text c!"/t/u/v")), (s4, .query 0 (.text c!"/t/u/v"))] Caches.empty).1 = [.ok (.object 3), .ok (.object 3)] ∧
      (useFresh ⟨ip, w, walkedFile⟩ (fun _ => []) f (.query 0 (.text c!"/t/u/v")) s4).1 = .ok (.object 12) := by
  refine ⟨⟨(walkedState 3 7 false []).mem.take 5, [⟨0, false, [], [], none⟩], [(c!"http://x/a", 0)]⟩, walkedState 3 7 false [], walkedState 3 7 true [],
    walkedState 3 11 true [walkedQ], walkedState 12 11 true [walkedQ, walkedV], 16, by cbv, by cbv, fun f hf => ?_⟩
  obtain ⟨g, rfl⟩ := Nat.exists_eq_add_of_le' hf
  refine ⟨by cbv, by cbv, by cbv, by cbv, by cbv⟩

end Verif.Props
