import Verif.Props.Applicators
import Verif.Props.Refs
import Verif.Props.Core
import Verif.Props.Store
import Verif.Props.Resolver
import Verif.Props.Compare
import Verif.Props.PointerSeq
import Verif.Props.Microseconds
/-!
# Cases that meet the hypotheses of theorems in `Props`

For theorems that have no such case beside them.
-/

namespace Verif.Check
open Verif Verif.Spec Verif.Props

/-! ## C04 -/

example : Pointer.print [] = Pointer.print [[]] ∧ ([] : List Str) ≠ [[]] := ⟨rfl, by simp⟩

/-! ## C13 and C28 -/

example (w : World) (v : Val) : validateN w [] [.not] 2 (.obj [(c!"not", .bool true)]) v [] = .err .schemaParse :=
  C13_object_only w [] [.not] 0 _ v [] true .not (by simp) ⟨by decide, by decide⟩ rfl

example (w : World) (v : Val) : validateN w [] [.oneOf] 2 (.obj [(c!"oneOf", .arr [])]) v [] = .err .typeError :=
  C28_empty w [] [.oneOf] 0 _ v [] (.inr ⟨⟨by decide, by decide⟩, rfl⟩)

/-! ## C81 and C82 -/

example : nodeCmp .lt (.str c!"a") (.num (.fin 1)) = .err .typeError :=
  C81_kinds .lt _ _ (by simp [Node.RefFree]) (by simp [Node.RefFree]) (.inl (by decide)) (by decide)

example : Pointer.parse (Pointer.print (Pointer.fromList [[], c!"a/b"])) = .ok [[], c!"a/b"] := C82_from_list _ (by simp)

example : Pointer.print ([c!"a"] ++ [[], c!"~"]) = Pointer.print [c!"a"] ++ Pointer.print [[], c!"~"] := C82_parts _ _ (by simp) (by simp)

/-! ## C39: `{"a": {"$ref": "#/b", "title": "t", "x": false}, "b": {"x": true}}`, loaded -/

/-- The objects; 1 is the reference, 2 the object it was made of. -/
def mergedState : Obj.St where
  mem := [⟨.obj [(c!"a", 1), (c!"b", 6)], none, []⟩, ⟨.ref 2 0 [c!"b"], some 0, c!"a"⟩,
    ⟨.obj [(c!"$ref", 3), (c!"title", 4), (c!"x", 5)], some 0, c!"a"⟩, ⟨.str c!"#/b", some 2, c!"$ref"⟩, ⟨.str c!"t", some 2, c!"title"⟩,
    ⟨.bool false, some 2, c!"x"⟩, ⟨.obj [(c!"x", 7)], some 0, c!"b"⟩, ⟨.bool true, some 6, c!"x"⟩]
  docs := [⟨0, true, draft2020Vocabulary, [], none⟩]
  storage := []

example (E : Obj.Env) : ∃ all, (Obj.ops E 3).members 1 mergedState = (.ok all, mergedState) ∧
    Merged [(c!"$ref", 3), (c!"title", 4), (c!"x", 5)] [(c!"x", 7)] all :=
  C39_objects E mergedState 2 1 2 0 6 [c!"b"] _ _ _ _ _ rfl rfl rfl rfl rfl rfl (by cbv) (by cbv) (by cbv) (by decide) (by decide)

/-! ## C44 -/

example (E : Obj.Env) : ∃ d s1 x,
    Obj.newDocument (.dict [(c!"properties", .dict [(c!"id", .dict [(c!"type", .str c!"string")])])]) [.ref, .anchor, .type, .properties] Obj.St.empty =
      (.ok d, s1) ∧ s1.docs[d]? = some x ∧ ∃ f0, ∀ f, f0 ≤ f →
        (Obj.ops E f).load d s1 = (.ok (), { s1 with docs := s1.docs.set d { x with ready := true } }) :=
  C44_partial E _ _ _ (by decide) (by simp [wrap, wrapDict, Without, WithoutD])

/-! ## C46, C50 -/

/-- `http://a/s` -/
def someUri : Uri := ⟨c!"http", ⟨[], c!"a", []⟩, c!"/s", [], []⟩

theorem someUri_made : Made exampleIp someUri := .parse (parse_http exampleIp (p := c!"/s") (by decide) (by decide))

example : answer exampleIp (V := Unit) (D := Nat) (L := Unit) (fun _ _ l => (.err .fileNotFound, l)) ()
    [.get (.uri { someUri with fragment := c!"f" }), .add someUri 7] (.get (.uri someUri)) = .ok (.doc 7) := by
  rw [C46_get]
  · rfl
  · intro op h
    simp only [List.mem_cons, List.not_mem_nil, or_false] at h
    rcases h with rfl | rfl
    · exact .copy (a := none) (b := none) (c := none) (d := none) (e := some c!"f") someUri_made rfl
    · exact someUri_made
  · exact someUri_made

example : Uri.isAbsolute exampleIp someUri = .ok true ∧ Uri.text someUri = baseOf someUri := ⟨rfl, rfl⟩

/-! ## C53 -/

open Resolver in
example (r : Uri → Res Str) : ¬ Asked someUri [.register c!"http" r] ∧
    (resolve someUri (exec ([.resolve someUri, .register c!"ftp" r] ++ [.register c!"http" r]))).1 = r someUri := by
  have h : ¬ Asked someUri [.register c!"http" r] := by simp [Asked]
  refine ⟨h, (C53_current_partial [.resolve someUri, .register c!"ftp" r] [.register c!"http" r] someUri h ?_).trans rfl⟩
  intro op hop
  simp only [List.mem_cons, List.not_mem_nil, or_false] at hop
  rcases hop with rfl | rfl <;> simp [Registers, someUri]

end Verif.Check
