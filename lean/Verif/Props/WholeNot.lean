import Verif.Props.Whole
/-!
# C72: what data given to `JsonSchema` does not mean

What refutes C36 on trees, from the data on: the schema is made, loaded and asked.
-/

namespace Verif.Props
open Verif Verif.Spec Verif.Obj

/-- `{"properties": {"a": {"$ref": "#/d"}}, "patternProperties": {"a": {"type": "null"}}, "d": {"type": "string"}}` -/
def bothData : List (Str × Val) := [(c!"properties", .dict [(c!"a", .dict [(c!"$ref", .str c!"#/d")])]),
  (c!"patternProperties", .dict [(c!"a", .dict [(c!"type", .str c!"null")])]), (c!"d", .dict [(c!"type", .str c!"string")])]

/-- Loaded (`r = 9`), or just made (`r = 2`). -/
def bothState (r : Nat) (ready : Bool) (more : List Obj.Cell) : St where
  mem := ([⟨.obj [(c!"properties", 1), (c!"patternProperties", 4), (c!"d", 7)], none, []⟩, ⟨.obj [(c!"a", r)], some 0, c!"properties"⟩,
    ⟨.obj [(c!"$ref", 3)], some 1, c!"a"⟩, ⟨.str c!"#/d", some 2, c!"$ref"⟩, ⟨.obj [(c!"a", 5)], some 0, c!"patternProperties"⟩, ⟨.obj [(c!"type", 6)], some 4, c!"a"⟩,
    ⟨.str c!"null", some 5, c!"type"⟩, ⟨.obj [(c!"type", 8)], some 0, c!"d"⟩, ⟨.str c!"string", some 7, c!"type"⟩] : List Obj.Cell) ++ more
  docs := [⟨0, ready, draft2020Vocabulary, [], none⟩]
  storage := []

theorem both_loads (E : Env) : LoadsAll E draft2020Vocabulary St.empty [bothData] (bothState 9 true [⟨.ref 2 0 [c!"d"], some 1, c!"a"⟩]) := by
  refine .cons (s1 := bothState 2 false []) (d := 0) (by cbv) ⟨12, fun f hf => ?_⟩ (.nil _)
  obtain ⟨g, rfl⟩ := Nat.exists_eq_add_of_le' hf
  cbv

theorem both_linked (ip : Rfc3986.IpRe) : LinkedAll ip [] [] [bothData] := by
  have no : ∀ P kvs, c!"$ref" ∉ kvs.map Prod.fst → c!"$anchor" ∉ kvs.map Prod.fst → CoreObject P kvs := fun P kvs h1 h2 => ⟨fun h => absurd h h1, fun h => absurd h h2⟩
  refine ⟨⟨⟨⟨⟨by decide, by decide⟩, no _ _ (by decide) (by decide), ⟨⟨by decide, by decide⟩, ⟨fun _ => ⟨by decide, c!"#/d", rfl, .inl ?_⟩, fun h => absurd h (by decide)⟩, trivial, trivial⟩, trivial⟩,
    ⟨⟨by decide, by decide⟩, no _ _ (by decide) (by decide), ⟨⟨by decide, by decide⟩, no _ _ (by decide) (by decide), trivial, trivial⟩, trivial⟩,
    ⟨⟨by decide, by decide⟩, no _ _ (by decide) (by decide), trivial, trivial⟩, trivial⟩, no _ _ (by decide) (by decide), .inl ⟨by decide, by decide⟩⟩, trivial⟩
  obtain ⟨u, b, h⟩ := local_fragment ip (fr := c!"/d") (ptr := [c!"d"]) (by decide) rfl
  exact ⟨u, b, _, h⟩

/-- The members of the document, with what stands for `a` under `properties`. -/
def bothItems (a : Node) : List (Str × Node) := [(c!"properties", .obj [(c!"a", a)]), (c!"patternProperties", .obj [(c!"a", .obj [(c!"type", .str c!"null")])]),
  (c!"d", .obj [(c!"type", .str c!"string")])]

/-- The document. -/
def bothRoot (a : Node) : Node := .obj (bothItems a)

theorem both_docs (ip : Rfc3986.IpRe) : (linkAll ip [] [] [bothData]).1 = [⟨bothRoot (.ref [(c!"$ref", .str c!"#/d")] 0 [c!"d"]), []⟩] := by cbv

/-- C72 fails, with the vocabulary of draft 2020-12: the member `a` is named in `properties`, so that its pattern is passed over, and the text is accepted that the
pattern requires to be null. -/
theorem C72_violated (E : Env) (m : Str → Bool) (hm : E.w.search c!"a" = some m) (ha : m c!"a" = true) : ∃ vs s docs D see k items v, LinkedAll E.ip [] [] vs ∧
    LoadsAll E draft2020Vocabulary St.empty vs s ∧ docs = (linkAll E.ip [] [] vs).1 ∧ docs[0]? = some D ∧ Truthful docs see ∧ unfold see k D.root = .obj items ∧
    v.NoBraces ∧ ¬ Sat E.w draft2020Vocabulary (.obj items) v ∧ ∃ g, ∀ h, g ≤ h → validate E h 0 v s = (.ok (), s) := by
  refine ⟨[bothData], _, _, _, seen [⟨bothRoot (.ref [(c!"$ref", .str c!"#/d")] 0 [c!"d"]), []⟩] 3, 4, bothItems (.obj [(c!"type", .str c!"string")]), .dict [(c!"a", .str c!"x")], both_linked E.ip, both_loads E, (both_docs E.ip).symm, rfl,
    seen_truthful _ _, by cbv, by simp [Val.NoBraces, Val.NoBracesD], ?_, 16, fun h hh => ?_⟩
  · rw [C36_meaning]
    intro L
    have h1 := L.patternProperties _ rfl c!"a" (.str c!"x") (.obj [(c!"type", .str c!"null")]) (by simp) ⟨_, c!"a", m, rfl, by simp, hm, ha⟩
    rw [C36_meaning] at h1
    have h2 := h1.type _ rfl
    revert h2
    decide
  · obtain ⟨g, rfl⟩ := Nat.exists_eq_add_of_le' hh
    cbv

end Verif.Props
