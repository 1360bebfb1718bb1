import Verif.Proofs.LoadAt
import Verif.Props.Load
import Verif.Props.Uri
import Verif.Model.Vocabulary
/-!
# Properties C40, C41 and C44: references, anchors, and properties named `id`

The state `s` before the schema is made is arbitrary, except that the schemas in the store are not loaded yet.
-/

namespace Verif.Props
open Verif Verif.Spec Verif.Obj

/-- No schema in the store is loaded. -/
def StoreNotLoaded (s : St) : Prop := ∀ (t : Str) (e : Nat), dictGet t s.storage = some e → ∃ x, s.docs[e]? = some x ∧ x.ready = false

/-- The applicators of the vocabulary are the core keywords, in the order of `CORE_VOCABULARY`. -/
def CoreFirst (voc : List Kw) : Prop := (voc.filter fun k => !k.isAssertion) = coreVocabulary

example : StoreNotLoaded St.empty ∧ CoreFirst draft2020Vocabulary := ⟨by simp [StoreNotLoaded, St.empty, dictGet], rfl⟩

/-- The object `lo` of the data, found again at its place. -/
theorem up_place {m m' : Mem} {n : Node} {hi lo lo' : Nat} {ks : List Str} (ht : Tree m n none [] lo hi) (hs : Steps m lo ks lo')
    (hm : SameSlots m m') : Up m' lo' ks lo := by
  obtain ⟨c, hc, hpar, -⟩ := ht.slots
  have := Tree.steps hs ht (Up.top hc hpar)
  rw [List.nil_append] at this
  exact this.keep hm

/-- C40 outside arrays: after a schema was made from a dictionary and loading it returned, every object with a member
`$ref` that is a text – wherever it is, but not in an array – is represented by a reference.  The reference has the
path of the object, its `node` is the object itself with all its members, its pointer is the parsed fragment, and
if the text has nothing but a fragment, it points into this very schema.
Missing: arrays, where no reference is resolved (below); that loading returns; what is inside a member `$anchor`, which is
removed. -/
theorem C40_partial (E : Env) (s s1 s2 : St) (kvs : List (Str × Val)) (voc : List Kw) (hvoc : CoreFirst voc) (hst : StoreNotLoaded s)
    (d f : Nat) (hnew : newDocument (.dict kvs) voc s = (.ok d, s1)) (hload : (ops E f).load d s1 = (.ok (), s2))
    (ks : List Str) (its : List (Str × Node)) (t : Str) (hat : At (wrap (.dict kvs)) ks (.obj its)) (hks : c!"$anchor" ∉ ks)
    (href : dictGet c!"$ref" its = some (.str t)) :
    ∃ (x1 x : Schema) (r n e : Nat) (ptr : List Str) (c c' : Cell) (ids : List (Str × Nat)) (u b : Uri),
      s1.docs[d]? = some x1 ∧ s2.docs[d]? = some x ∧ Below s2.mem x.value ks r ∧
      s2.mem[r]? = some c ∧ c.shape = .ref n e ptr ∧ path s2.mem r = .ok ks ∧
      Steps s1.mem x1.value ks n ∧ s2.mem[n]? = some c' ∧ c'.shape = .obj ids ∧ ids.map Prod.fst = its.map Prod.fst ∧
      Uri.parse E.ip t = .ok u ∧ Pointer.parse u.fragment = .ok ptr ∧ Uri.baseUri E.ip u = .ok b ∧ (Uri.truth b = false → e = d) := by
  obtain ⟨hi, r0, L0, x, ht, hd1, hd2, rfl, -, -, hslots, hdone⟩ := load_done rfl hvoc hst hnew hload
  obtain ⟨p', k', lo', hi', r', L', h1, h2, h3, h4, -, -, h6⟩ := hdone.at hat ht
  have hR : c!"$ref" ∈ its.map Prod.fst := by
    by_cases h : c!"$ref" ∈ its.map Prod.fst
    · exact h
    · rw [get_none_key h] at href; cases href
  rw [Done] at h2
  obtain ⟨ids, L1, L2, -, hdd, hc, hr, -⟩ := h2
  obtain ⟨-, t', e, ptr, ht', ⟨u, b, hu, hp, hb, htr⟩, hbase, hcell⟩ := hr hR
  rw [if_pos hR] at hc
  obtain rfl := ht' t href
  have hup := up_place ht h3 hslots
  have hle : lo' ≤ r' := by have := h1.lt; omega
  obtain ⟨top', hup', -⟩ := hup.sibling hc hcell rfl rfl hle
  exact ⟨_, x, r', lo', e, ptr, _, _, ids, u, b, hd1, hd2, h4 hks, hcell, rfl, hup'.path, h3, hc, rfl, hdd.keys, hu, hp, hb, htr⟩

/-- `{"properties": {"a": {"$ref": "#/b", "title": "t"}}, "b": {}}` has such a reference. -/
def refDoc : List (Str × Val) :=
  [(c!"properties", .dict [(c!"a", .dict [(c!"$ref", .str c!"#/b"), (c!"title", .str c!"t")])]), (c!"b", .dict [])]

example : At (wrap (.dict refDoc)) [c!"properties", c!"a"] (.obj [(c!"$ref", .str c!"#/b"), (c!"title", .str c!"t")]) :=
  .member (x := .obj [(c!"a", .obj [(c!"$ref", .str c!"#/b"), (c!"title", .str c!"t")])]) (by simp [wrap, refDoc, wrapDict])
    (.member (by simp) (.here _))

/-- C40 fails in arrays: `{"allOf": [{"$ref": "#/x"}], "x": {}}` loads, and the element of `allOf` is still the plain object with
the member `$ref`. -/
theorem C40_violated : ∃ kvs : List (Str × Val), ∀ E f, ∃ s1 s2 i c,
    newDocument (.dict kvs) draft2020Vocabulary St.empty = (.ok 0, s1) ∧ (ops E (f + 5)).load 0 s1 = (.ok (), s2) ∧
      Steps s2.mem 0 [c!"allOf", c!"0"] i ∧ s2.mem[i]? = some c ∧ c.shape = .obj [(c!"$ref", 3)] ∧ (s2.mem[3]?).map Cell.shape = some (.str c!"#/x") :=
  ⟨[(c!"allOf", .list [.dict [(c!"$ref", .str c!"#/x")]]), (c!"x", .dict [])], fun E f =>
    ⟨_, _, 2, ⟨.obj [(c!"$ref", 3)], some 1, c!"0"⟩, rfl, rfl,
      .member (j := 1) (k := c!"allOf") (c := ⟨.obj [(c!"allOf", 1), (c!"x", 4)], none, []⟩) rfl rfl (by simp)
        (.elem (j := 2) (t := 0) (c := ⟨.arr [2], some 0, c!"allOf"⟩) rfl rfl rfl (.here 2)), rfl, rfl, rfl⟩⟩

/-! ## Anchors -/

/-- C41: after loading returned, for every name `a` of an object outside arrays, `query("/a")` is the object named so which comes last
when every object is counted after the objects inside it.  It is the very object made from the data at that place; it is still at
its place, has the same path, and all its members but `$anchor`.
Missing: the order (below); that loading returns; documents in which a member `$anchor` is no text. -/
theorem C41_partial (E : Env) (s s1 s2 : St) (kvs : List (Str × Val)) (voc : List Kw) (hvoc : CoreFirst voc) (hst : StoreNotLoaded s)
    (d f : Nat) (hnew : newDocument (.dict kvs) voc s = (.ok d, s1)) (hload : (ops E f).load d s1 = (.ok (), s2))
    (hta : TextAnchors (wrap (.dict kvs))) (a : Str) (ks : List Str) (hlast : lastOf a (anchorsUp (wrap (.dict kvs)) []) = some ks) :
    ∃ (x1 x : Schema) (i : Nat) (c : Cell) (ids : List (Str × Nat)) (its : List (Str × Node)),
      s1.docs[d]? = some x1 ∧ s2.docs[d]? = some x ∧ At (wrap (.dict kvs)) ks (.obj its) ∧ dictGet c!"$anchor" its = some (.str a) ∧
      (∀ g t, Pointer.parse t = .ok [a] → call E (g + 2) (.query d t) s2 = (.ok (.object i), s2)) ∧
      Steps s1.mem x1.value ks i ∧ Below s2.mem x.value ks i ∧ path s2.mem i = .ok ks ∧
      s2.mem[i]? = some c ∧ c.shape = .obj ids ∧ ids.map Prod.fst = (its.map Prod.fst).erase c!"$anchor" := by
  obtain ⟨hi, r0, L0, x, ht, hd1, hd2, rfl, hready, hanch, hslots, hdone⟩ := load_done rfl hvoc hst hnew hload
  have hn := hdone.named ht hta (.here _) (.here _) (.here _)
  rcases hn.last (fun p q h => h.1) a with ⟨-, h⟩ | ⟨i, ks', h1, h2, h3⟩
  · rw [hlast] at h; cases h
  · rw [hlast] at h2; cases h2
    obtain ⟨-, hs, hb, its, c, ids, hat, hits, hc, hsh, hkeys⟩ := h3
    have hup := up_place ht hs hslots
    refine ⟨_, x, i, c, ids, its, hd1, hd2, hat, hits, fun g t hp => ?_, hs, hb, hup.path, hc, hsh, hkeys⟩
    have hl : (ops E (g + 1)).load d s2 = (.ok (), s2) := load_again hd2 hready
    have : (ops E (g + 2)).query d [a] s2 = (.ok i, s2) := by
      change queryS (ops E (g + 1)) d [a] s2 = _
      unfold queryS
      rw [M.bind_ok hl, M.bind_ok (schema_apply hd2)]
      simp only [hanch, register_get, h1, Option.some_or]
      rfl
    change (lift (Pointer.parse t) >>= fun p => (ops E (g + 2)).query d p >>= fun i => Pure.pure (Ans.object i)) s2 = _
    rw [hp, M.bind_ok (show lift (Res.ok [a]) s2 = (.ok [a], s2) from rfl), M.bind_ok this]
    rfl

/-- `{"a": {"$anchor": "x", "b": {}}, "c": {"$anchor": "x"}}`: the second one wins, and `"/x"` is the pointer. -/
def anchorDoc : List (Str × Val) :=
  [(c!"a", .dict [(c!"$anchor", .str c!"x"), (c!"b", .dict [])]), (c!"c", .dict [(c!"$anchor", .str c!"x")])]

example : lastOf c!"x" (anchorsUp (wrap (.dict anchorDoc)) []) = some [c!"c"] ∧ Pointer.parse c!"/x" = .ok [c!"x"] := by
  constructor <;> decide

example : TextAnchors (wrap (.dict anchorDoc)) := by
  intro ks its x hat hx
  simp only [wrap, wrapDict, anchorDoc] at hat
  rcases hat with _ | ⟨hm, hat⟩
  · simp at hx
  · simp only [List.mem_cons, Prod.mk.injEq, List.not_mem_nil, or_false] at hm
    rcases hm with ⟨rfl, rfl⟩ | ⟨rfl, rfl⟩
    · rcases hat with _ | ⟨hm, hat⟩
      · simp only [List.mem_cons, Prod.mk.injEq, List.not_mem_nil, or_false] at hx
        rcases hx with ⟨-, rfl⟩ | ⟨h, -⟩
        · exact ⟨_, rfl⟩
        · exact absurd h (by decide)
      · simp only [List.mem_cons, Prod.mk.injEq, List.not_mem_nil, or_false] at hm
        rcases hm with ⟨rfl, rfl⟩ | ⟨rfl, rfl⟩
        · cases hat
        · rcases hat with _ | ⟨hm, hat⟩
          · simp at hx
          · simp at hm
    · rcases hat with _ | ⟨hm, hat⟩
      · simp only [List.mem_cons, Prod.mk.injEq, List.not_mem_nil, or_false] at hx
        obtain ⟨-, rfl⟩ := hx
        exact ⟨_, rfl⟩
      · simp only [List.mem_cons, Prod.mk.injEq, List.not_mem_nil, or_false] at hm
        obtain ⟨rfl, rfl⟩ := hm
        cases hat

/-- C41 fails for the order of the document: in `{"$anchor": "x", "a": {"$anchor": "x"}}` the last object named `x` is the member `a`,
and `query("/x")` is the root. -/
theorem C41_violated : ∃ kvs : List (Str × Val), lastOf c!"x" (anchorsDown (wrap (.dict kvs)) []) = some [c!"a"] ∧ ∀ E f, ∃ s1 s2,
    newDocument (.dict kvs) draft2020Vocabulary St.empty = (.ok 0, s1) ∧ Steps s1.mem 0 [c!"a"] 2 ∧
      (ops E (f + 6)).query 0 [c!"x"] s1 = (.ok 0, s2) :=
  ⟨[(c!"$anchor", .str c!"x"), (c!"a", .dict [(c!"$anchor", .str c!"x")])], by decide, fun E f =>
    ⟨_, _, rfl, .member (j := 2) (k := c!"a") (c := ⟨.obj [(c!"$anchor", 1), (c!"a", 2)], none, []⟩) rfl rfl (by simp) (.here 2), rfl⟩⟩

/-! ## Properties named `id` -/

/-- A text beginning with a brace is no absolute URI. -/
theorem brace_not_absolute {ip : Rfc3986.IpRe} {t : Str} (h : t.head? = some '{') {u : Uri} (hu : Uri.parse ip t = .ok u) : Uri.isAbsolute ip u = .ok false := by
  obtain ⟨t, rfl⟩ : ∃ r, t = '{' :: r := by
    cases t with
    | nil => cases h
    | cons a r => cases h; exact ⟨r, rfl⟩
  obtain ⟨sch, au, p, q, f, hp⟩ := Uri.parts_exist ('{' :: t)
  have hp' := hp
  obtain ⟨r1, r2, r3, r4, h1, h2, -⟩ := hp
  cases sch with
  | some x =>
    obtain ⟨⟨a, r, rfl, ha, -⟩, e⟩ := h1
    cases e
    exact absurd ha (by decide)
  | none =>
    obtain ⟨rfl, -⟩ := h1
    cases au with
    | some x => obtain ⟨e, -⟩ := h2; cases e
    | none =>
      obtain ⟨a, b⟩ := reference ip hp'
      rw [a] at hu; cases hu
      exact b

/-- C44 fails: if the root has neither `$id` nor `id`, and any other object – outside arrays, not below `enum` – has a member `id` that is
an object without `$ref` and no member `$id`, the schema can never be loaded.  The text of an object begins with a
brace, as the `repr` of a dictionary does. -/
theorem C44_violated (E : Env) (hrepr : ∀ ys, (E.w.reprBody (.obj ys)).head? = some '{') (s s1 s2 : St) (kvs : List (Str × Val))
    (voc : List Kw) (hvoc : CoreFirst voc) (hst : StoreNotLoaded s) (d f : Nat) (hnew : newDocument (.dict kvs) voc s = (.ok d, s1))
    (hroot : c!"$id" ∉ kvs.map Prod.fst ∧ c!"id" ∉ kvs.map Prod.fst)
    (ks : List Str) (its sub : List (Str × Node)) (hat : At (wrap (.dict kvs)) ks (.obj its)) (hks : ks ≠ []) (henum : c!"enum" ∉ ks)
    (hid : dictGet c!"id" its = some (.obj sub)) (hno : c!"$id" ∉ its.map Prod.fst) (hsub : c!"$ref" ∉ sub.map Prod.fst) :
    (ops E f).load d s1 ≠ (.ok (), s2) := by
  intro hload
  obtain ⟨hi, r0, L0, x, ht, hd1, hd2, rfl, -, -, hslots, hdone⟩ := load_done rfl hvoc hst hnew hload
  obtain ⟨p', k', lo', hi', r', L', h1, h2, h3, h4, h5, h6⟩ := hdone.at hat ht
  rw [Done] at h2
  obtain ⟨ids, L1, L2, -, -, -, -, -, -, -, hident⟩ := h2
  have hmem : c!"id" ∈ its.map Prod.fst := by
    by_cases h : c!"id" ∈ its.map Prod.fst
    · exact h
    · rw [get_none_key h] at hid; cases hid
  have hk : idKey (its.map Prod.fst) = c!"id" := by unfold idKey; rw [if_neg hno]
  rw [hk, List.nil_append] at hident
  rcases hident (.inr hmem) (h5 (.inr hks)) with h | ⟨-, t, ⟨u, hu, -, ha⟩, -, ho⟩
  · exact henum h
  · obtain ⟨ys, rfl⟩ := ho sub hid hsub
    have hb : (nodeStr E.w (.obj ys)).head? = some '{' := by
      have := hrepr ys
      rw [nodeStr]
      · cases e : E.w.reprBody (.obj ys) with
        | nil => rw [e] at this; cases this
        | cons a r => rw [e] at this; cases this; rfl
      all_goals simp
    rw [brace_not_absolute hb hu] at ha
    rcases ha with ha | ha | ha
    · cases ha
    · exact hroot.1 ha
    · exact hroot.2 ha

/-- `{"properties": {"id": {"type": "string"}}}` is such a schema. -/
example : At (wrap (.dict [(c!"properties", .dict [(c!"id", .dict [(c!"type", .str c!"string")])])])) [c!"properties"]
    (.obj [(c!"id", .obj [(c!"type", .str c!"string")])]) :=
  .member (by simp [wrap, wrapDict]) (.here _)

/-- C44 with a vocabulary that lacks `IdKeyword`: whatever the members named `id` and `$id`, the schema loads if there is no `$ref` and no
`$anchor`, and nothing changes. -/
theorem C44_partial (E : Env) (s : St) (kvs : List (Str × Val)) (voc : List Kw) (hvoc : Kw.id ∉ voc)
    (hw : Without [c!"$ref", c!"$anchor"] (wrap (.dict kvs))) :
    ∃ d s1 x, newDocument (.dict kvs) voc s = (.ok d, s1) ∧ s1.docs[d]? = some x ∧
      ∃ f0, ∀ f, f0 ≤ f → (ops E f).load d s1 = (.ok (), { s1 with docs := s1.docs.set d { x with ready := true } }) := by
  obtain ⟨ext, ht, e⟩ := newDocument_spec (.inr ⟨kvs, rfl⟩) voc s
  refine ⟨_, _, ⟨s.mem.length, false, voc, [], none⟩, e, by simp, ?_⟩
  refine load_without E (s := { s with mem := s.mem ++ ext, docs := s.docs ++ [⟨s.mem.length, false, voc, [], none⟩] })
    (d := s.docs.length) (x := ⟨s.mem.length, false, voc, [], none⟩) (by simp) ht fun k hk ha => Without.sub ?_ _ hw
  cases k <;> first | exact absurd hk hvoc | (revert ha; decide)

end Verif.Props
