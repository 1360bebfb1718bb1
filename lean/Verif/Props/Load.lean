import Verif.Proofs.Later
import Verif.Proofs.Steps
import Verif.Proofs.Types
/-!
# Properties C06, C42 and C43: paths of nodes, repeated loading, documents without core keywords

The state `s` is arbitrary: any other documents, loaded or not, and any store.
-/

namespace Verif.Props
open Verif Verif.Spec Verif.Obj

mutual
theorem wrap_refFree : ∀ v : Val, v.Plain → (wrap v).RefFree
  | .null, _ => by simp [wrap, Node.RefFree]
  | .bool _, _ => by simp [wrap, Node.RefFree]
  | .int _, _ => by simp [wrap, Node.RefFree]
  | .flt _, _ => by simp [wrap, Node.RefFree]
  | .dec _, _ => by simp [wrap, Node.RefFree]
  | .str _, _ => by simp [wrap, Node.RefFree]
  | .list xs, h => by rw [Val.Plain] at h; rw [wrap, Node.RefFree]; exact wrapList_refFree xs h
  | .dict kvs, h => by
    rw [Val.Plain] at h; rw [wrap, Node.RefFree]
    refine ⟨?_, wrapDict_refFree kvs h.2⟩
    rw [wrapDict_eq_map, List.map_map]
    exact h.1
theorem wrapList_refFree : ∀ xs : List Val, Val.PlainL xs → Node.RefFreeL (wrapList xs)
  | [], _ => by simp [wrapList, Node.RefFreeL]
  | x :: xs, h => by rw [Val.PlainL] at h; rw [wrapList, Node.RefFreeL]; exact ⟨wrap_refFree x h.1, wrapList_refFree xs h.2⟩
theorem wrapDict_refFree : ∀ xs : List (Str × Val), Val.PlainD xs → Node.RefFreeD (wrapDict xs)
  | [], _ => by simp [wrapDict, Node.RefFreeD]
  | (k, x) :: xs, h => by rw [Val.PlainD] at h; rw [wrapDict, Node.RefFreeD]; exact ⟨wrap_refFree x h.1, wrapDict_refFree xs h.2⟩
end

mutual
theorem Without.sub {a b : List Str} (h : ∀ k ∈ a, k ∈ b) : ∀ n : Node, Without b n → Without a n
  | .obj kvs, hw => by rw [Without] at hw ⊢; exact WithoutD.sub h kvs hw
  | .null, _ => by simp [Without]
  | .bool _, _ => by simp [Without]
  | .num _, _ => by simp [Without]
  | .str _, _ => by simp [Without]
  | .arr _, _ => by simp [Without]
  | .ref .., _ => by simp [Without]
theorem WithoutD.sub {a b : List Str} (h : ∀ k ∈ a, k ∈ b) : ∀ xs : List (Str × Node), WithoutD b xs → WithoutD a xs
  | [], _ => by simp [WithoutD]
  | (k, x) :: xs, hw => by
    rw [WithoutD] at hw ⊢
    exact ⟨fun h' => hw.1 (h k h'), Without.sub h x hw.2.1, WithoutD.sub h xs hw.2.2⟩
end

/-- The members the applicators of any vocabulary look for. -/
theorem core_keys (k : Kw) (h : k.isAssertion = false) : ∀ x ∈ k.keys, x ∈ coreKeys := by
  cases k <;> revert h <;> decide

/-- The objects below (and including) `i`. -/
def Reach (m : Mem) (i j : Nat) : Prop := ∃ ks, Steps m i ks j

/-- C43: a schema made from data in which no object outside arrays has a member `$ref`, `$anchor`, `$id` or `id` loads, whatever its
vocabulary and whatever else exists; loading changes no object, no other schema and not the store, registers no
anchor and no identifier, and only marks the schema as loaded; the document still shows the data it was made from. -/
theorem C43_unchanged (E : Env) (s : St) (v : Val) (hv : (∃ xs, v = .list xs) ∨ ∃ kvs, v = .dict kvs) (voc : List Kw)
    (hw : Without coreKeys (wrap v)) :
    ∃ d s1 x, newDocument v voc s = (.ok d, s1) ∧ s1.docs[d]? = some x ∧ x.anchors = [] ∧ x.ident = none ∧ s1.storage = s.storage ∧
      ∃ s2, s2 = { s1 with docs := s1.docs.set d { x with ready := true } } ∧
        ∃ f0, ∀ f, f0 ≤ f → (ops E f).load d s1 = (.ok (), s2) ∧ (ops E f).node x.value s2 = (.ok (wrap v), s2) := by
  obtain ⟨ext, ht, e⟩ := newDocument_spec hv voc s
  refine ⟨_, _, ⟨s.mem.length, false, voc, [], none⟩, e, by simp, rfl, rfl, rfl, ?_⟩
  refine ⟨_, rfl, ?_⟩
  obtain ⟨f0, h0⟩ := load_without E (s := { s with mem := s.mem ++ ext, docs := s.docs ++ [⟨s.mem.length, false, voc, [], none⟩] })
    (d := s.docs.length) (x := ⟨s.mem.length, false, voc, [], none⟩) (by simp) ht fun k _ hk => Without.sub (core_keys k hk) _ hw
  obtain ⟨f1, h1⟩ := node_tree E
    (s := { s with
      mem := s.mem ++ ext
      docs := (s.docs ++ [(⟨s.mem.length, false, voc, [], none⟩ : Schema)]).set s.docs.length ⟨s.mem.length, true, voc, [], none⟩ }) ht
  exact ⟨max f0 f1, fun f hf => ⟨h0 f (by omega), h1 f (by omega)⟩⟩

/-- `{"properties": {"a": [{"$ref": "#"}]}}`: members inside arrays do not count. -/
example : Without coreKeys (wrap (.dict [(c!"properties", .dict [(c!"a", .list [.dict [(c!"$ref", .str c!"#")]])])])) := by
  simp [wrap, wrapDict, wrapList, Without, WithoutD, coreKeys]

/-- C42: once `load` or `value` of a schema has returned, then after any further calls – on this and other schemas, succeeding or
failing – loading it again or reading its value returns and changes nothing at all: no object, no schema, no anchor and
not the store. -/
theorem C42_again (E : Env) (f : Nat) (d : Nat) (s : St)
    (h : (∃ a, (call E f (.load d) s).1 = .ok a) ∨ ∃ a, (call E f (.value d) s).1 = .ok a) (c : Call) (hc : c = .load d ∨ c = .value d)
    (cs : List Call) (g g' : Nat) (s' : St) (hs : s' = (calls E g cs (call E f c s).2).2) :
    (∃ x, s'.docs[d]? = some x ∧ x.ready = true) ∧ call E (g' + 1) (.load d) s' = (.ok .none, s') ∧
      ∃ i, call E (g' + 1) (.value d) s' = (.ok (.object i), s') := by
  have hl : ∃ s1, (ops E f).load d s = (.ok (), s1) ∧ (call E f c s).2 = s1 := by
    cases e : (ops E f).load d s with
    | mk r s1 =>
      have key : r = .ok () := by
        rcases h with ⟨a, h⟩ | ⟨a, h⟩
        · cases r with
          | ok u => rfl
          | err e' => rw [call, M.bind_err e] at h; cases h
          | timeout => rw [call, M.bind_timeout e] at h; cases h
        · cases r with
          | ok u => rfl
          | err e' => rw [call, M.bind_err e] at h; cases h
          | timeout => rw [call, M.bind_timeout e] at h; cases h
      subst key
      refine ⟨s1, rfl, ?_⟩
      obtain ⟨x, hx, -⟩ := load_ready e
      rcases hc with rfl | rfl
      · rw [call, M.bind_ok e]; rfl
      · rw [call, M.bind_ok e, M.bind_ok (schema_apply hx)]; rfl
  obtain ⟨s1, e, e1⟩ := hl
  obtain ⟨x, hx, hr⟩ := load_ready e
  obtain ⟨y, hy, -, hr'⟩ := (calls_later E g cs s1).ready d x hx
  rw [e1] at hs
  subst hs
  have la := load_again (E := E) (f := g') hy (hr' hr)
  refine ⟨⟨y, hy, hr' hr⟩, ?_, y.value, ?_⟩
  · rw [call, M.bind_ok la]; rfl
  · rw [call, M.bind_ok la, M.bind_ok (schema_apply hy)]; rfl

/-- Every sequence of `load` and `value` calls after the first one that returned: nothing changes, and `value` is always
the same object. -/
theorem C42_repeated (E : Env) (g : Nat) (d : Nat) (s : St) (x : Schema) (hx : s.docs[d]? = some x) (hr : x.ready = true)
    (cs : List Call) (hcs : ∀ c ∈ cs, c = .load d ∨ c = .value d) :
    (calls E (g + 1) cs s).2 = s ∧ ∀ r ∈ (calls E (g + 1) cs s).1, r = .ok .none ∨ r = .ok (.object x.value) := by
  induction cs with
  | nil => exact ⟨rfl, by simp [calls]⟩
  | cons c cs ih =>
    have la := load_again (E := E) (f := g) hx hr
    have key : call E (g + 1) c s = (.ok .none, s) ∨ call E (g + 1) c s = (.ok (.object x.value), s) := by
      rcases hcs c (by simp) with rfl | rfl
      · left; rw [call, M.bind_ok la]; rfl
      · right; rw [call, M.bind_ok la, M.bind_ok (schema_apply hx)]; rfl
    have ih := ih fun c hc => hcs c (by simp [hc])
    rw [calls]
    rcases key with key | key <;> simp only [key, ih.1, List.mem_cons, true_and] <;> rintro r (rfl | hr) <;>
      first | exact ih.2 r hr | simp

/-- C06 for documents to which no applicator of the vocabulary applies: for every object `i` reached from the
root by the tokens `ks`, `path` is `ks` and `root` is the root, both before and after loading, and `query(path)` is
`i` itself.
Missing: documents with core keywords, where it fails (below); the single empty token, and indices of more than 4300 digits. -/
theorem C06_path_partial (E : Env) (s : St) (v : Val) (hp : v.Plain) (hv : (∃ xs, v = .list xs) ∨ ∃ kvs, v = .dict kvs) (voc : List Kw)
    (hw : ∀ k ∈ voc, k.isAssertion = false → Without k.keys (wrap v)) :
    ∃ d s1 x, newDocument v voc s = (.ok d, s1) ∧ s1.docs[d]? = some x ∧
      ∀ i ks, Steps s1.mem x.value ks i → path s1.mem i = .ok ks ∧ root s1.mem i = .ok x.value ∧
        ((∃ c, s1.mem[i]? = some c ∧ c.parent = none) ↔ i = x.value) ∧
        (ks ≠ [[]] → (∀ k ∈ ks, ∀ i, ArrayIndex k i → k.length ≤ 4300) →
          ∃ s2, s2.mem = s1.mem ∧ ∃ f0, ∀ f, f0 ≤ f → (ops E f).query d ks s1 = (.ok i, s2)) := by
  obtain ⟨ext, ht, e⟩ := newDocument_spec hv voc s
  refine ⟨_, _, ⟨s.mem.length, false, voc, [], none⟩, e, by simp, ?_⟩
  generalize hs1 : ({ s with mem := s.mem ++ ext, docs := s.docs ++ [⟨s.mem.length, false, voc, [], none⟩] } : St) = s1
  have hm : s1.mem = s.mem ++ ext := by rw [← hs1]
  have hd : s1.docs[s.docs.length]? = some ⟨s.mem.length, false, voc, [], none⟩ := by rw [← hs1]; simp
  rw [← hm] at ht
  intro i ks h
  obtain ⟨c, hc, hpar, hkey⟩ := ht.slots
  have hup := Tree.steps h ht (Up.top hc hpar)
  rw [List.nil_append] at hup
  refine ⟨hup.path, hup.root, ⟨?_, ?_⟩, ?_⟩
  · rintro ⟨c', h1, h2⟩
    cases hup with
    | top _ _ => rfl
    | step h3 h4 _ _ => rw [h1] at h3; cases h3; rw [h2] at h4; cases h4
  · rintro rfl; exact ⟨c, hc, hpar⟩
  · intro h1 hsz
    have hl := load_without E hd ht hw
    refine ⟨{ s1 with docs := s1.docs.set s.docs.length { (⟨s.mem.length, false, voc, [], none⟩ : Schema) with ready := true } }, rfl, ?_⟩
    · refine Runs.shift (g := fun f => queryS (ops E f) s.docs.length ks) ?_ (fun f => rfl)
      unfold queryS
      refine Runs.bind hl ?_
      have hd' : (s1.docs.set s.docs.length { (⟨s.mem.length, false, voc, [], none⟩ : Schema) with ready := true })[s.docs.length]? =
          some ⟨s.mem.length, true, voc, [], none⟩ := by
        rw [List.getElem?_set_self (List.getElem?_eq_some_iff.1 hd).1]
      refine Runs.bind (.const (schema_apply hd')) ?_
      have hwalk := walk_steps E
        (s := { s1 with docs := s1.docs.set s.docs.length { (⟨s.mem.length, false, voc, [], none⟩ : Schema) with ready := true } })
        h hsz ht (wrap_refFree v hp)
      match ks, h1, hwalk with
      | [], _, hwalk => exact hwalk
      | [k], h1, hwalk =>
        have : k ≠ [] := by rintro rfl; exact h1 rfl
        simp only [dictGet, if_neg this]
        exact hwalk
      | _ :: _ :: _, _, hwalk => exact hwalk

/-- `{"a": [null, {"": 1}]}`, its objects and a way down. -/
def pathDoc : Val := .dict [(c!"a", .list [.null, .dict [([], .int 1)]])]

example : pathDoc.Plain ∧ ∀ k ∈ [Kw.ref, .anchor, .id, .properties], k.isAssertion = false → Without k.keys (wrap pathDoc) := by
  refine ⟨by simp [pathDoc, Val.Plain, Val.PlainL, Val.PlainD], fun k _ hk => Without.sub (core_keys k hk) _ ?_⟩
  simp [pathDoc, wrap, wrapDict, wrapList, Without, WithoutD, coreKeys]

example : Steps (newDocument pathDoc [] St.empty).2.mem 0 [c!"a", c!"1", []] 4 :=
  .member (j := 1) (k := c!"a") (c := ⟨.obj [(c!"a", 1)], none, []⟩) rfl rfl (by simp)
    (.elem (j := 3) (t := 1) (c := ⟨.arr [2, 3], some 0, c!"a"⟩) rfl rfl rfl
      (.member (j := 4) (k := []) (c := ⟨.obj [([], 4)], some 1, c!"1"⟩) rfl rfl (by simp) (.here 4)))

/-- C06 fails where an anchor has the name of a member: in `{"$anchor": "x", "x": {}}` the path of the member `x` leads
to the root. -/
theorem C06_anchor_violated : ∃ v : Val, v.Plain ∧ ∀ E f, ∃ s1 s2,
    newDocument v [.anchor] St.empty = (.ok 0, s1) ∧ Steps s1.mem 0 [c!"x"] 2 ∧ path s1.mem 2 = .ok [c!"x"] ∧
      (ops E (f + 6)).query 0 [c!"x"] s1 = (.ok 0, s2) :=
  ⟨.dict [(c!"$anchor", .str c!"x"), (c!"x", .dict [])], by simp [Val.Plain, Val.PlainD], fun E f =>
    ⟨_, _, rfl, .member (j := 2) (k := c!"x") (c := ⟨.obj [(c!"$anchor", 1), (c!"x", 2)], none, []⟩) rfl rfl (by simp) (.here 2),
      rfl, rfl⟩⟩

end Verif.Props
