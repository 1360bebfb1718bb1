import Verif.Proofs.Cache
import Verif.Props.Core
/-!
# C11: cached queries equal fresh queries

The full claim is about every program.  Proved for histories of queries (and reads of references) on loaded schemas; not for what is
remembered while a schema is being loaded.
-/

namespace Verif.Props
open Verif Verif.Obj

theorem uses_right (E : Env) (cap : Nat) (made : Nat → List Str) (f : Nat) : ∀ (us : List (St × Use)) (s : St) (c : Caches),
    Right made s c → History s us → ∀ (j : Nat) (s' : St) (u : Use) (y : Res Seen), us[j]? = some (s', u) →
      (usesC cap made (f + 1) us c).1[j]? = some y →
      ((useFresh E made (f + 1) u s').1 ≠ .timeout → y = (useFresh E made (f + 1) u s').1) ∧
      (y ≠ .timeout → ∃ g, ∀ h, g ≤ h → useFresh E made h u s' = (y, s'))
  | [], _, _, _, _ => fun j s' u y h => by simp at h
  | (s1, u1) :: us, s, c, hc, hh => by
    cases hh with
    | cons grows ready rest =>
      obtain ⟨h1, h2, h3⟩ := useC_ag E cap made ready f u1 (hc.grows grows)
      intro j s' u y hu hy
      cases j with
      | zero =>
        simp only [List.getElem?_cons_zero, Option.some.injEq, Prod.mk.injEq, usesC] at hu hy
        obtain ⟨rfl, rfl⟩ := hu
        subst hy
        exact ⟨h2, h3⟩
      | succ j =>
        simp only [List.getElem?_cons_succ, usesC] at hu hy
        exact uses_right E cap made f us s1 _ h1 rest j s' u y hu hy

/-- C11: in every history on unmodified, loaded schemas, with a table of any size, every query and every read of a reference returns or raises what
the uncached evaluation on the same objects does: whenever the latter ends within the stack, and whenever the former ends. -/
theorem C11_partial (E : Env) (cap : Nat) (made : Nat → List Str) (f : Nat) (s : St) (us : List (St × Use)) (hh : History s us)
    (j : Nat) (s' : St) (u : Use) (y : Res Seen) (hu : us[j]? = some (s', u)) (hy : (usesC cap made (f + 1) us Caches.empty).1[j]? = some y) :
    ((useFresh E made (f + 1) u s').1 ≠ .timeout → y = (useFresh E made (f + 1) u s').1) ∧
      (y ≠ .timeout → ∃ g, ∀ h, g ≤ h → useFresh E made h u s' = (y, s')) :=
  uses_right E cap made f us s Caches.empty (Right.empty made s) hh j s' u y hu hy

/-- Every use is answered. -/
theorem C11_answers (cap : Nat) (made : Nat → List Str) (f : Nat) (us : List (St × Use)) (c : Caches) :
    (usesC cap made f us c).1.length = us.length := by
  induction us generalizing c with
  | nil => rfl
  | cons u us ih => simp [usesC, ih]

/-- The loaded document `{"a": {"x": true}, "b": {"$ref": "#/a"}}`. -/
def twoState : St where
  mem := [⟨.obj [(c!"a", 1), (c!"b", 5)], none, []⟩, ⟨.obj [(c!"x", 2)], some 0, c!"a"⟩, ⟨.bool true, some 1, c!"x"⟩,
    ⟨.obj [(c!"$ref", 4)], some 0, c!"b"⟩, ⟨.str c!"#/a", some 3, c!"$ref"⟩, ⟨.ref 3 0 [c!"a"], some 0, c!"b"⟩]
  docs := [⟨0, true, coreVocabulary, [], none⟩]
  storage := []

/-- A history with repeated queries, one of them through the reference. -/
def twoUses : List (St × Use) :=
  [(twoState, .query 0 (.text c!"/b/x")), (twoState, .kind 5), (twoState, .query 0 (.text c!"/b/x")), (twoState, .query 0 (.text c!"/c")),
    (twoState, .query 0 (.ptr (.own 5)))]

theorem two_history : History twoState twoUses := by
  have hr : AllReady twoState := by simp [AllReady, twoState]
  have hg : Grows twoState twoState := ⟨fun _ _ h => h, fun _ _ h => h⟩
  exact .cons hg hr (.cons hg hr (.cons hg hr (.cons hg hr (.cons hg hr (.nil _)))))

/-- The answers, with a table of a single entry. -/
example : (usesC 1 (fun _ => []) 9 twoUses Caches.empty).1 =
    [.ok (.object 2), .ok (.kind .object), .ok (.object 2), .err .keyError, .ok (.object 1)] := by decide

/-- Without `Grows` the claim is false: after `schema.value["a"] = False`, the first answer is given again. -/
theorem C11_modified : ∃ s s' : St, AllReady s ∧ AllReady s' ∧ ∀ E : Env,
    (usesC 128 (fun _ => []) 9 [(s, .query 0 (.text c!"/a")), (s', .query 0 (.text c!"/a"))] Caches.empty).1 = [.ok (.object 1), .ok (.object 1)] ∧
      (useFresh E (fun _ => []) 9 (.query 0 (.text c!"/a")) s').1 = .ok (.object 2) :=
  ⟨⟨[⟨.obj [(c!"a", 1)], none, []⟩, ⟨.bool true, some 0, c!"a"⟩], [⟨0, true, [], [], none⟩], []⟩,
    ⟨[⟨.obj [(c!"a", 2)], none, []⟩, ⟨.bool true, some 0, c!"a"⟩, ⟨.bool false, some 0, c!"a"⟩], [⟨0, true, [], [], none⟩], []⟩,
    by simp [AllReady], by simp [AllReady], fun _ => ⟨by decide, by rfl⟩⟩

end Verif.Props
