import Verif.Proofs.Placed
import Verif.Spec.Placed
import Verif.Props.Linked
import Verif.Props.Load
/-!
# Property C06 for every program: paths of nodes in documents with any keywords, loaded in any order
-/

namespace Verif.Props
open Verif Verif.Spec Verif.Obj

theorem Inv.inside {s : St} (hs : Inv s) {i j : Nat} {ks : List Str} (h : Inside s.mem i ks j) :
    ∀ {pre : List Str} {top : Nat}, Up s.mem i pre top → ∃ top', Up s.mem j (pre ++ ks) top' := by
  induction h with
  | here i => intro pre top hu; exact ⟨top, by simpa using hu⟩
  | member hc hsh hk h ih =>
    intro pre top hu
    obtain ⟨t, h⟩ := ih (hs.step hu (((hs.cells _ _ hc).obj _ hsh).2 _ _ hk))
    exact ⟨t, by simpa using h⟩
  | elem hc hsh hk h ih =>
    intro pre top hu
    obtain ⟨t, h⟩ := ih (hs.step hu ((hs.cells _ _ hc).arr _ hsh _ _ hk))
    exact ⟨t, by simpa using h⟩
  | own hc hsh hc' hsh' hk h ih =>
    intro pre top hu
    obtain ⟨t', hu', -⟩ := Inv.beside hu ⟨_, hc, rfl, rfl⟩ ((hs.cells _ _ hc).ref _ _ _ hsh) hs
    obtain ⟨t, h⟩ := ih (hs.step hu' (((hs.cells _ _ hc').obj _ hsh').2 _ _ hk))
    exact ⟨t, by simpa using h⟩

theorem Inv.empty : Inv St.empty := ⟨fun i c h => by simp [St.empty] at h, fun d x h => by simp [St.empty] at h⟩

/-- C06 for every program: whatever schemas were made from plain data with whatever vocabularies, loaded, read and queried, with whatever files
and whatever failed meanwhile.  The path of every object inside a schema is the path of the schema's value followed by the tokens walked, where the
path of the value of a schema that was created is empty; if no reference was passed, its root is that of the schema's value, and if the schema is loaded,
`query` of the tokens returns the very object and changes nothing.
Missing: `query` where an anchor has the name of a member (refuted above) and through own members of references (refuted below); the single
empty token, and indices of more than 4300 digits. -/
theorem C06_programs_partial (E : Env) (hE : ∀ u v, E.file u = .ok v → v.Plain) (f : Nat) (cs : List Call)
    (hcs : ∀ v voc, Call.create v voc ∈ cs → v.Plain) (rs : List (Res Ans)) (s : St) (hr : calls E f cs St.empty = (rs, s)) (d : Nat) (x : Schema)
    (hx : s.docs[d]? = some x) :
    ∃ pre top, path s.mem x.value = .ok pre ∧ root s.mem x.value = .ok top ∧ (.ok (.schema d) ∈ rs → pre = [] ∧ top = x.value) ∧
      ∀ i ks, (Inside s.mem x.value ks i → path s.mem i = .ok (pre ++ ks)) ∧
        (Steps s.mem x.value ks i → root s.mem i = .ok top ∧
          (x.ready = true → ks ≠ [[]] → (∀ k, ks = [k] → dictGet k x.anchors = none) → (∀ k ∈ ks, ∀ i, ArrayIndex k i → k.length ≤ 4300) →
            ∃ f0, ∀ f, f0 ≤ f → (ops E f).query d ks s = (.ok i, s))) := by
  obtain ⟨hs, -, hroot⟩ := calls_good E (fun u v h => wrap_refFree v (hE u v h)) f cs St.empty Inv.empty
    fun v voc h => wrap_refFree v (hcs v voc h)
  rw [hr] at hs hroot
  have hlt : x.value < s.mem.length := by obtain ⟨p, k, c, hc, -⟩ := hs.docs d x hx; exact (List.getElem?_eq_some_iff.1 hc).1
  obtain ⟨pre, top, hu⟩ := hs.up _ x.value (Nat.lt_succ_self _) hlt
  refine ⟨pre, top, hu.path, hu.root, fun h => ?_, fun i ks => ⟨fun h => ?_, fun h => ⟨(hs.steps h hu).root, fun hrd h1 ha hsz => ?_⟩⟩⟩
  · obtain ⟨y, hy, c, hc, hp, -⟩ := hroot d h
    rw [hx] at hy; cases hy
    cases hu with
    | top _ _ => exact ⟨rfl, rfl⟩
    | step h3 h4 _ _ => rw [hc] at h3; cases h3; rw [hp] at h4; cases h4
  · obtain ⟨t, h⟩ := Inv.inside hs h hu
    exact h.path
  · refine Runs.shift (g := fun f => queryS (ops E f) d ks) ?_ (fun f => rfl)
    unfold queryS
    refine Runs.bind (.next fun f => load_again hx hrd) ?_
    refine Runs.bind (.const (schema_apply hx)) ?_
    have hwalk := hs.walk E h hsz
    match ks, h1, ha, hwalk with
    | [], _, _, hwalk => exact hwalk
    | [k], h1, ha, hwalk =>
      have : k ≠ [] := by rintro rfl; exact h1 rfl
      simp only [ha k rfl, if_neg this]
      exact hwalk
    | _ :: _ :: _, _, _, hwalk => exact hwalk

/-- `{"a": {"$ref": "#/b", "x": true}, "b": {"x": false, "y": [null]}}` -/
def ownDoc : Val :=
  .dict [(c!"a", .dict [(c!"$ref", .str c!"#/b"), (c!"x", .bool true)]), (c!"b", .dict [(c!"x", .bool false), (c!"y", .list [.null])])]
/-- Its objects once it is loaded. -/
def ownMem : Mem :=
  [⟨.obj [(c!"a", 8), (c!"b", 4)], none, []⟩, ⟨.obj [(c!"$ref", 2), (c!"x", 3)], some 0, c!"a"⟩, ⟨.str c!"#/b", some 1, c!"$ref"⟩,
   ⟨.bool true, some 1, c!"x"⟩, ⟨.obj [(c!"x", 5), (c!"y", 6)], some 0, c!"b"⟩, ⟨.bool false, some 4, c!"x"⟩, ⟨.arr [7], some 4, c!"y"⟩,
   ⟨.null, some 6, c!"0"⟩, ⟨.ref 1 0 [c!"b"], some 0, c!"a"⟩]

theorem ownDoc_loads (E : Env) (f : Nat) (hf : 30 ≤ f) : calls E f [.create ownDoc [.ref, .anchor, .id], .load 0, .query 0 c!"/a/x"] St.empty =
    ([.ok (.schema 0), .ok .none, .ok (.object 5)], ⟨ownMem, [⟨0, true, [.ref, .anchor, .id], [], none⟩], []⟩) := by
  have h : calls E 30 [.create ownDoc [.ref, .anchor, .id], .load 0, .query 0 c!"/a/x"] St.empty =
      ([.ok (.schema 0), .ok .none, .ok (.object 5)], ⟨ownMem, [⟨0, true, [.ref, .anchor, .id], [], none⟩], []⟩) := by cbv
  exact (calls_mono E hf _ _ (by rw [h]; decide)).trans h

/-- The hypotheses of C06 for it, a way down through the reference, and one that passes none. -/
example : ownDoc.Plain ∧ Inside ownMem 0 [c!"a", c!"x"] 3 ∧ Steps ownMem 0 [c!"b", c!"y", c!"0"] 7 :=
  ⟨by simp [ownDoc, Val.Plain, Val.PlainD, Val.PlainL],
   .member (j := 8) (k := c!"a") (c := ⟨.obj [(c!"a", 8), (c!"b", 4)], none, []⟩) rfl rfl (by simp)
    (.own (j := 3) (k := c!"x") (c := ⟨.ref 1 0 [c!"b"], some 0, c!"a"⟩) (c' := ⟨.obj [(c!"$ref", 2), (c!"x", 3)], some 0, c!"a"⟩)
      rfl rfl rfl rfl (by simp) (.here 3)),
   .member (j := 4) (k := c!"b") (c := ⟨.obj [(c!"a", 8), (c!"b", 4)], none, []⟩) rfl rfl (by simp)
    (.member (j := 6) (k := c!"y") (c := ⟨.obj [(c!"x", 5), (c!"y", 6)], some 0, c!"b"⟩) rfl rfl (by simp)
      (.elem (j := 7) (t := 0) (c := ⟨.arr [7], some 4, c!"y"⟩) rfl rfl rfl (.here 7)))⟩

/-- C06 fails for members beside `$ref` that the object referred to also has: the path of the member `x` beside `$ref` is `/a/x`, and `query` of
that returns the member of the other object. -/
theorem C06_own_violated (E : Env) : ∃ v : Val, v.Plain ∧ ∃ s, (∀ f, 30 ≤ f → calls E f [.create v [.ref, .anchor, .id], .load 0, .query 0 c!"/a/x"] St.empty =
      ([.ok (.schema 0), .ok .none, .ok (.object 5)], s)) ∧
    Inside s.mem 0 [c!"a", c!"x"] 3 ∧ path s.mem 3 = .ok [c!"a", c!"x"] ∧ path s.mem 5 = .ok [c!"b", c!"x"] :=
  ⟨ownDoc, by simp [ownDoc, Val.Plain, Val.PlainD, Val.PlainL], _, ownDoc_loads E,
   .member (j := 8) (k := c!"a") (c := ⟨.obj [(c!"a", 8), (c!"b", 4)], none, []⟩) rfl rfl (by simp)
    (.own (j := 3) (k := c!"x") (c := ⟨.ref 1 0 [c!"b"], some 0, c!"a"⟩) (c' := ⟨.obj [(c!"$ref", 2), (c!"x", 3)], some 0, c!"a"⟩)
      rfl rfl rfl rfl (by simp) (.here 3)), rfl, rfl⟩

end Verif.Props
