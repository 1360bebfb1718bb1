import Verif.Proofs.RefEnds
import Verif.Proofs.LocalRef
import Verif.Proofs.LoadRuns
import Verif.Props.Core
import Verif.Props.Terminates
/-!
# Properties C39 and C45: what references show, and when following them ends
-/

namespace Verif.Props
open Verif Verif.Spec Verif.Obj

/-! ## C39 -/

/-- C39 for reading: where the pointer of a reference leads to an object with the members `theirs`, the reference shows an object,
whose members are `theirs` and its own others. -/
theorem C39_members (docs : List Doc) (own : List (Str × Node)) (d : Nat) (p : List Str) (doc : Doc) (f : Nat) (frag : Node)
    (theirs : List (Str × Node)) (hd : docs[d]? = some doc) (hq : queryDoc (view docs f) doc p = .ok frag)
    (hv : view docs f frag = .ok (.obj theirs)) (ho : (own.map Prod.fst).Nodup) (ht : (theirs.map Prod.fst).Nodup) :
    ∃ all, Merged own theirs all ∧ ∀ g, f < g → view docs g (.ref own d p) = .ok (.obj all) := by
  refine ⟨overlay own theirs, overlay_merged ho ht, fun g hg => ?_⟩
  have h1 : view docs (f + 1) (.ref own d p) = .ok (.obj (overlay own theirs)) := by
    rw [view]; simp only [hd]; rw [hq, Res.ok_bind, hv, Res.ok_bind]
  rw [view_mono docs hg _ (by rw [h1]; simp), h1]

/-- C39 for validation: validating with the reference is validating with any object that has the merged members. -/
theorem C39_validates (w : World) (docs : List Doc) (voc : List Kw) (own : List (Str × Node)) (d : Nat) (p : List Str) (doc : Doc)
    (f : Nat) (frag : Node) (theirs all : List (Str × Node)) (hd : docs[d]? = some doc) (hq : queryDoc (view docs f) doc p = .ok frag)
    (hv : view docs f frag = .ok (.obj theirs)) (ho : (own.map Prod.fst).Nodup) (ht : (theirs.map Prod.fst).Nodup)
    (ha : Merged own theirs all) (g : Nat) (hg : f + 1 < g) (v : Val) (ctx : Ctx) :
    validateN w docs voc g (.ref own d p) v ctx = validateN w docs voc g (.obj all) v ctx := by
  obtain ⟨all', ha', h⟩ := C39_members docs own d p doc f frag theirs hd hq hv ho ht
  obtain ⟨g, rfl⟩ : ∃ h, g = h + 2 := ⟨g - 2, by omega⟩
  rw [validateN, validateN, h (g + 1) (by omega), view_plain_ok (by simp) g, Res.ok_bind, Res.ok_bind]
  simp only
  rw [loadAll_congr w _ _ all' all voc (fun k _ s _ => by rw [ha'.2, ha.2])]

/-- In `{"a": {"$ref": "#/b", "title": "t", "x": false}, "b": {"x": true}}` the member `a` shows `x` of `b` and its own `title`. -/
example : ∃ (own theirs : List (Str × Node)) (doc : Doc), (own.map Prod.fst).Nodup ∧ (theirs.map Prod.fst).Nodup ∧
    queryDoc (view [doc] 1) doc [c!"b"] = .ok (.obj theirs) ∧ view [doc] 1 (.obj theirs) = .ok (.obj theirs) ∧
    Merged own theirs [(c!"title", .str c!"t"), (c!"x", .bool true)] ∧ dictGet c!"x" own = some (.bool false) := by
  refine ⟨[(c!"$ref", .str c!"#/b"), (c!"title", .str c!"t"), (c!"x", .bool false)], [(c!"x", .bool true)],
    ⟨.obj [(c!"a", .ref [(c!"$ref", .str c!"#/b"), (c!"title", .str c!"t"), (c!"x", .bool false)] 0 [c!"b"]),
      (c!"b", .obj [(c!"x", .bool true)])], []⟩, by decide, by decide, rfl, rfl, ?_, rfl⟩
  exact overlay_merged (β := Node) (own := [(c!"$ref", .str c!"#/b"), (c!"title", .str c!"t"), (c!"x", .bool false)])
    (theirs := [(c!"x", .bool true)]) (by decide) (by decide)

/-- C39 on objects: the members of a reference into a loaded schema are the very objects of the target and its own others. -/
theorem C39_objects (E : Env) (s : St) (f r n e t : Nat) (ptr : List Str) (c c' : Cell) (x : Schema) (own theirs : List (Str × Nat))
    (hr : s.mem[r]? = some c) (hc : c.shape = .ref n e ptr) (hn : s.mem[n]? = some c') (hc' : c'.shape = .obj own)
    (he : s.docs[e]? = some x) (hx : x.ready = true) (hq : (ops E f).query e ptr s = (.ok t, s))
    (hk : (ops E f).kind t s = (.ok .object, s)) (ht : (ops E f).members t s = (.ok theirs, s))
    (h1 : (own.map Prod.fst).Nodup) (h2 : (theirs.map Prod.fst).Nodup) :
    ∃ all, (ops E (f + 1)).members r s = (.ok all, s) ∧ Merged own theirs all := by
  refine ⟨overlayIds own theirs, ?_, overlay_merged h1 h2⟩
  obtain ⟨g, rfl⟩ : ∃ g, f = g + 1 := by
    cases f with
    | zero => cases hq
    | succ g => exact ⟨g, rfl⟩
  have ho : (ops E (g + 1)).members n s = (.ok own, s) := by
    change membersS (ops E g) n s = _
    unfold membersS
    rw [M.bind_ok (cell_apply hn), hc']
    rfl
  change membersS (ops E (g + 1)) r s = _
  unfold membersS
  rw [M.bind_ok (cell_apply hr), hc]
  simp only
  rw [M.bind_ok (schema_apply he)]
  simp only [hx, Bool.not_true, Bool.false_eq_true, if_false]
  rw [M.bind_ok hq, M.bind_ok hk]
  simp only [ne_eq, not_true_eq_false, if_false]
  rw [M.bind_ok ho, M.bind_ok ht]
  rfl

/-! ## C45 -/

/-- C45 for looking through a reference, exactly: it ends if and only if there is no infinite chain of references, each of which has to be
followed to see what the one before shows. -/
theorem C45_chains (docs : List Doc) (own : List (Str × Node)) (d : Nat) (p : List Str) :
    (∃ f, view docs f (.ref own d p) ≠ .timeout) ↔ Acc (Needs docs) (d, p) :=
  ⟨fun ⟨_, h⟩ => acc_of_ends (view_own h), fun h => let ⟨f, hf⟩ := ends_of_acc h; ⟨f, view_own hf⟩⟩

/-- C45 for queries: a query ends if the references it meets do. -/
theorem C45_query_partial (docs : List Doc) (d : Nat) (doc : Doc) (hd : docs[d]? = some doc) (p : List Str)
    (h : ∀ x, Needs docs x (d, p) → Acc (Needs docs) x) : ∃ f, queryDoc (view docs f) doc p ≠ .timeout := by
  obtain ⟨f, hf⟩ := look_ends (docs := docs) (n := (startOf doc p).1) (ks := (startOf doc p).2)
    fun x hx => ends_of_acc (h x ⟨doc, hd, hx⟩)
  refine ⟨f, fun e => hf ?_⟩
  rw [queryDoc_start] at e
  rw [e]; rfl

/-- C45 for validation: with a set of schemas closed under subschemas, validation ends if every reference in it shows something, and
the subschemas applied to the value itself are of lower rank.  The others may lead back to where they came from.
Missing: an infinite chain of references, and a cycle of subschemas applied to the value itself (both below). -/
theorem C45_validates_partial {w : World} (hw : FormatsEnd w) (docs : List Doc) (voc : List Kw) (B : Nat) (S : Node → Prop)
    (rank : Node → Nat) (hr : Ranked docs voc B S rank) (n : Node) (hn : S n) (v : Val) (hv : Long B v) : Terminates w docs voc n v :=
  ranked_ends hw hr (long_parts B) (fun xs h => h xs .refl) v.nest (rank n) n v [] hn hv rfl rfl

/-- C45 with the vocabulary that ships with the library: if no chain of references is infinite, validation ends, for every schema node and
value. -/
theorem C45_shipped_partial {w : World} (hw : FormatsEnd w) (docs : List Doc) (h : ∀ x, Acc (Needs docs) x) (n : Node) (v : Val) :
    Terminates w docs draft2020Vocabulary n v := by
  have hs : ∀ n, ∃ f, view docs f n ≠ .timeout := by
    intro n
    cases n with
    | ref own d p => exact (C45_chains docs own d p).2 (h (d, p))
    | _ => exact ⟨1, by simp [view]⟩
  refine C45_validates_partial hw docs _ 0 (fun _ => True) (fun _ => 0) ⟨fun n _ => hs n, fun _ _ _ _ m _ _ _ => hs m,
    fun _ _ _ _ _ _ _ _ => trivial, fun _ _ _ k _ _ _ hk hk' => ?_, fun _ _ _ _ _ k hk hk' => ?_⟩ n trivial v fun _ _ => Nat.zero_le _
  · exfalso; revert k; decide
  · exfalso
    rcases hk' with rfl | rfl <;> exact absurd hk (by decide)

/-- A linked list: `{"properties": {"next": {"$ref": "#"}}}`. -/
def listSchema : Node := .obj [(c!"properties", .obj [(c!"next", .ref [(c!"$ref", .str c!"#")] 0 [])])]

theorem list_view (f : Nat) (n : Node) (h : view [⟨listSchema, []⟩] f (.ref [(c!"$ref", .str c!"#")] 0 []) = .ok n) : n = listSchema := by
  match f with
  | 0 => cases h
  | 1 => cases h
  | f + 2 => cases h; rfl

theorem list_ranked (voc : List Kw) :
    Ranked [⟨listSchema, []⟩] voc 0 (fun n => n = listSchema ∨ n = .ref [(c!"$ref", .str c!"#")] 0 []) fun _ => 0 := by
  have key : ∀ n f items, (n = listSchema ∨ n = .ref [(c!"$ref", .str c!"#")] 0 []) →
      view [⟨listSchema, []⟩] f n = .ok (.obj items) → items = [(c!"properties", .obj [(c!"next", .ref [(c!"$ref", .str c!"#")] 0 [])])] := by
    intro n f items hn hv
    rcases hn with rfl | rfl
    · cases f with
      | zero => cases hv
      | succ f => cases hv; rfl
    · have := list_view f _ hv
      simp only [listSchema, Node.obj.injEq] at this
      exact this
  have get : ∀ k m, dictGet k [(c!"properties", Node.obj [(c!"next", .ref [(c!"$ref", .str c!"#")] 0 [])])] = some m →
      k = c!"properties" ∧ m = .obj [(c!"next", .ref [(c!"$ref", .str c!"#")] 0 [])] := by
    intro k m h
    simp only [dictGet] at h
    split at h
    · rename_i e; cases h; exact ⟨e.symm, rfl⟩
    · cases h
  refine ⟨?_, ?_, ?_, ?_, ?_⟩
  · rintro n (rfl | rfl)
    · exact ⟨1, by simp [listSchema, view]⟩
    · exact ⟨2, fun h => by cases h⟩
  · intro n f items k m hn hv hm
    rw [key n f items hn hv] at hm
    obtain ⟨-, rfl⟩ := get k m hm
    exact ⟨1, by simp [view]⟩
  · rintro n f items k m hn hv ⟨x, hx, hm⟩
    rw [key n f items hn hv] at hx
    obtain ⟨rfl, rfl⟩ := get k x hx
    rcases hm with ⟨h, -⟩ | ⟨h, -⟩ | ⟨-, kvs, s, h, hs⟩
    · exact absurd h (by decide)
    · exact absurd h (by decide)
    · cases f with
      | zero => cases h
      | succ f =>
        cases h
        simp only [List.mem_cons, Prod.mk.injEq, List.not_mem_nil, or_false] at hs
        exact .inr hs.2
  · rintro n f items k m hn hv hk - ⟨x, hx, -⟩
    rw [key n f items hn hv] at hx
    obtain ⟨rfl, -⟩ := get k x hx
    exact absurd hk (by decide)
  · intro n f items hn hv k _ hk m xs hm _
    rw [key n f items hn hv] at hm
    have := (get _ m hm).1
    rcases hk with rfl | rfl <;> exact absurd this (by decide)

/-- So validation with the schema of linked lists ends for every value, though it refers to itself. -/
example (w : World) (hw : FormatsEnd w) (voc : List Kw) (v : Val) : Terminates w [⟨listSchema, []⟩] voc listSchema v :=
  C45_validates_partial hw _ voc 0 _ _ (list_ranked voc) _ (.inl rfl) v fun _ _ => Nat.zero_le _

/-- From every node of that document only the reference to the root is met. -/
theorem list_meets : ∀ (ks : List Str) (n : Node) (x : Nat × List Str),
    (n = listSchema ∨ n = .ref [(c!"$ref", .str c!"#")] 0 [] ∨ n = .obj [(c!"next", .ref [(c!"$ref", .str c!"#")] 0 [])]) →
    Meets [⟨listSchema, []⟩] n ks x → x = (0, []) := by
  intro ks
  have get : ∀ f v k n', view [⟨listSchema, []⟩] f listSchema = .ok v → queryStep listSchema v k = .ok n' →
      n' = .obj [(c!"next", .ref [(c!"$ref", .str c!"#")] 0 [])] := by
    intro f v k n' hv hq
    cases f with
    | zero => cases hv
    | succ f =>
      cases hv
      simp only [listSchema, queryStep, dictGet] at hq
      split at hq
      · rename_i h; cases hq
        split at h <;> cases h
        rfl
      · cases hq
  induction ks with
  | nil =>
    intro n ⟨d, p⟩ hn h
    cases h with
    | here => rcases hn with h | h | h <;> cases h <;> rfl
  | cons k ks ih =>
    intro n ⟨d, p⟩ hn h
    cases h with
    | here => rcases hn with h | h | h <;> cases h <;> rfl
    | next hnext h' =>
      obtain ⟨f, v, hv, hq⟩ := hnext
      refine ih _ _ ?_ h'
      rcases hn with rfl | rfl | rfl
      · exact .inr (.inr (get f v k _ hv hq))
      · obtain rfl := list_view f _ hv
        exact .inr (.inr (get 1 _ k _ rfl hq))
      · cases f with
        | zero => cases hv
        | succ f =>
          cases hv
          simp only [queryStep, dictGet] at hq
          split at hq
          · rename_i h; cases hq
            split at h <;> cases h
            exact .inr (.inl rfl)
          · cases hq

example (w : World) (hw : FormatsEnd w) (n : Node) (v : Val) : Terminates w [⟨listSchema, []⟩] draft2020Vocabulary n v := by
  have h0 : Acc (Needs [⟨listSchema, []⟩]) (0, []) := by
    refine ⟨_, ?_⟩
    rintro y ⟨doc, hd, hm⟩
    cases hd
    nomatch hm
  refine C45_shipped_partial hw _ (fun x => ⟨_, ?_⟩) n v
  rintro y ⟨doc, hd, hm⟩
  obtain ⟨d, p⟩ := x
  cases d with
  | succ d => cases hd
  | zero =>
    cases hd
    have hs : (startOf ⟨listSchema, []⟩ p).1 = listSchema := by
      unfold startOf
      split
      · simp only [dictGet]; split <;> rfl
      · rfl
    have := list_meets _ _ _ (.inl hs) hm
    rw [this]; exact h0

/-- A root that refers to itself never tells its type. -/
theorem self_kind (E : Env) {s : St} {d : Nat} {x : Schema} {c : Cell} {n : Nat} (hd : s.docs[d]? = some x) (hx : x.ready = true)
    (hc : s.mem[x.value]? = some c) (hs : c.shape = .ref n d []) : ∀ f, (ops E f).kind x.value s = (.timeout, s)
  | 0 => rfl
  | f + 1 => by
    change kindS (ops E f) x.value s = _
    unfold kindS
    rw [M.bind_ok (cell_apply hc), hs]
    simp only
    match f with
    | 0 => rfl
    | 1 => rfl
    | f + 2 =>
      have hq : (ops E (f + 2)).query d [] s = (.ok x.value, s) := by
        change queryS (ops E (f + 1)) d [] s = _
        unfold queryS
        rw [M.bind_ok (load_again hd hx), M.bind_ok (schema_apply hd)]
        rfl
      rw [M.bind_ok hq]
      exact self_kind E hd hx hc hs (f + 2)

/-- C45 fails for `{"$ref": "#"}`: it loads, and then no query for a member ever ends (in CPython: `RecursionError`), whatever the stack. -/
theorem C45_violated (E : Env) : ∃ (kvs : List (Str × Val)) (s1 s2 : St),
    newDocument (.dict kvs) draft2020Vocabulary St.empty = (.ok 0, s1) ∧ (∃ f, (ops E f).load 0 s1 = (.ok (), s2)) ∧
      ∀ f, (ops E f).query 0 [c!"a"] s2 = (.timeout, s2) := by
  have hl : LocalDoc E.ip (wrap (.dict [(c!"$ref", .str c!"#")])) := by
    have : wrap (.dict [(c!"$ref", .str c!"#")]) = .obj [(c!"$ref", .str c!"#")] := rfl
    rw [this, LocalDoc, LocalDocD, LocalDocD, LocalDoc]
    · refine ⟨⟨by decide, fun _ => ⟨by decide, _, rfl, ?_⟩, fun h => absurd h (by decide)⟩, trivial, trivial⟩
      obtain ⟨u, b, h⟩ := local_fragment E.ip (fr := []) (ptr := []) (by simp) rfl
      exact ⟨u, b, _, h⟩
    · simp
  have hnew : newDocument (.dict [(c!"$ref", .str c!"#")]) draft2020Vocabulary St.empty = (.ok 0, _) := rfl
  obtain ⟨s2, hruns⟩ := load_runs (E := E) (s := St.empty) rfl (by simp [St.empty, dictGet]) hnew hl
  obtain ⟨f, hf⟩ := hruns
  have hload := hf f (Nat.le_refl _)
  refine ⟨_, _, s2, hnew, ⟨f, hload⟩, ?_⟩
  obtain ⟨x1, x, r, n, e, ptr, c, c', ids, u, b, h1, h2, h3, h4, h5, h6, h7, h8, h9, h10, h11, h12, h13, h14⟩ :=
    C40_partial E St.empty _ s2 _ draft2020Vocabulary rfl (by simp [StoreNotLoaded, St.empty, dictGet]) 0 f hnew hload []
      [(c!"$ref", .str c!"#")] c!"#" (.here _) (by simp) rfl
  obtain ⟨u', b', k1, k2, k3, k4⟩ := local_fragment E.ip (fr := []) (ptr := []) (by simp) rfl
  rw [k1] at h11; cases h11
  rw [k2] at h12; cases h12
  rw [k3] at h13; cases h13
  obtain rfl := h14 k4
  have hfacts : x.ready = true ∧ dictGet c!"a" x.anchors = none := by
    obtain ⟨_, _, _, x', ht, _, hd2, _, hr, hanch, _, hdone⟩ := load_done rfl rfl (by simp [St.empty, dictGet]) hnew hload
    rw [h2] at hd2; cases hd2
    refine ⟨hr, ?_⟩
    have hta : TextAnchors (wrap (.dict [(c!"$ref", .str c!"#")])) := by
      intro ks its x hat hx
      have : wrap (.dict [(c!"$ref", .str c!"#")]) = .obj [(c!"$ref", .str c!"#")] := rfl
      rw [this] at hat
      rcases hat with _ | ⟨hm, hat⟩
      · simp at hx
      · simp only [List.mem_cons, Prod.mk.injEq, List.not_mem_nil, or_false] at hm
        obtain ⟨rfl, rfl⟩ := hm
        cases hat
    rcases (hdone.named ht hta (.here _) (.here _) (.here _)).last (fun p q h => h.1) c!"a" with ⟨h, -⟩ | ⟨i, ks', -, h, -⟩
    · rw [hanch, register_get, h]; rfl
    · rw [show lastOf c!"a" (anchorsUp (wrap (.dict [(c!"$ref", .str c!"#")])) []) = none from by decide] at h; cases h
  obtain ⟨hready, hanch⟩ := hfacts
  cases h3
  intro f
  match f with
  | 0 => rfl
  | 1 => rfl
  | f + 2 =>
    change queryS (ops E (f + 1)) 0 [c!"a"] s2 = _
    unfold queryS
    rw [M.bind_ok (load_again h2 hready), M.bind_ok (schema_apply h2)]
    simp only [hanch]
    rw [if_neg (by decide), walk, M.bind_timeout (self_kind E h2 hready h4 h5 _)]

/-- The document `{"not": {"$ref": "#"}}`. -/
def notDoc : Doc := ⟨.obj [(c!"not", .ref [(c!"$ref", .str c!"#")] 0 [])], []⟩

/-- C45 fails for validation where all references show something: `{"not": {"$ref": "#"}}` applies itself to the same value again. -/
theorem C45_not_violated (w : World) (v : Val) : (∃ f, view [notDoc] f (.ref [(c!"$ref", .str c!"#")] 0 []) = .ok notDoc.root) ∧
    ¬ Terminates w [notDoc] (coreVocabulary ++ [.not]) notDoc.root v := by
  refine ⟨⟨2, rfl⟩, ?_⟩
  have key : ∀ f ctx, validateN w [notDoc] (coreVocabulary ++ [.not]) f notDoc.root v ctx = .timeout ∧
      validateN w [notDoc] (coreVocabulary ++ [.not]) f (.ref [(c!"$ref", .str c!"#")] 0 []) v ctx = .timeout := by
    intro f
    induction f with
    | zero => exact fun _ => ⟨rfl, rfl⟩
    | succ f ih =>
      intro ctx
      match f with
      | 0 => exact ⟨rfl, rfl⟩
      | 1 => exact ⟨rfl, rfl⟩
      | f + 2 =>
        have h := (ih ctx).2
        have h1 : ∀ n, view [notDoc] (f + 2) n = .ok notDoc.root → validateN w [notDoc] (coreVocabulary ++ [.not]) (f + 3) n v ctx = .timeout := by
          intro n hn
          rw [validateN, hn, Res.ok_bind]
          change runAll (validateN w [notDoc] (coreVocabulary ++ [.not]) (f + 2)) w (f + 2) v ctx [(c!"not", .not (.ref [(c!"$ref", .str c!"#")] 0 []))] = _
          simp only [runAll, run, runNot, h]
          rfl
        exact ⟨h1 _ rfl, h1 _ rfl⟩
  rintro ⟨f, h⟩
  exact h (key f []).1

end Verif.Props
