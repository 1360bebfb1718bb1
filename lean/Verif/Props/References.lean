import Verif.Model.References
import Verif.Spec.References
import Verif.Props.Refs
import Verif.Props.Types
/-!
# C85: a reference is used as what it stands for; C86: truth of wrapped values
-/

namespace Verif.Props
open Verif Verif.Spec

/-! ## Members -/

theorem dictHas_iff_mem {β : Type} (k : Str) (d : List (Str × β)) : dictHas k d = true ↔ k ∈ d.map Prod.fst := by
  induction d with
  | nil => simp [dictHas, dictGet]
  | cons p d ih =>
    obtain ⟨k', x⟩ := p
    by_cases e : k' = k
    · subst e; simp [dictHas, dictGet]
    · have : dictHas k ((k', x) :: d) = dictHas k d := by simp [dictHas, dictGet, e]
      rw [this, ih]
      simp [Ne.symm e]

theorem filterMap_same {α β : Type} {g h : α → Option β} : ∀ (l : List α), (∀ a ∈ l, g a = h a) → l.filterMap g = l.filterMap h
  | [], _ => rfl
  | a :: l, e => by
    rw [List.filterMap_cons, List.filterMap_cons, e a (by simp), filterMap_same l fun b hb => e b (by simp [hb])]

theorem dictGet_pairs {β : Type} : ∀ (d : List (Str × β)), (d.map Prod.fst).Nodup → (d.map Prod.fst).filterMap (fun k => (dictGet k d).map fun x => (k, x)) = d := by
  intro d
  induction d with
  | nil => simp
  | cons p d ih =>
    obtain ⟨k, x⟩ := p
    intro h
    simp only [List.map_cons, List.nodup_cons] at h
    simp only [List.map_cons]
    rw [List.filterMap_cons_some (b := (k, x)) (by simp [dictGet])]
    congr 1
    refine Eq.trans (filterMap_same _ fun k' hk' => ?_) (ih h.2)
    have : k ≠ k' := by rintro rfl; exact h.1 hk'
    simp [dictGet, this]

/-- C85 for a reference that leads to an object: its names are those of the target and its own except `$ref`, once each; `in`, `[]`,
`len`, `keys`, `values` and `items` all speak of them, and the target's values come before its own. -/
theorem C85_mapping (docs : List Doc) (own : List (Str × Node)) (d : Nat) (p : List Str) (doc : Doc) (f : Nat) (frag : Node)
    (theirs : List (Str × Node)) (hd : docs[d]? = some doc) (hq : queryDoc (view docs f) doc p = .ok frag)
    (hv : view docs f frag = .ok (.obj theirs)) (ho : (own.map Prod.fst).Nodup) (ht : (theirs.map Prod.fst).Nodup) :
    ∃ names : List Str, names.Nodup ∧ (∀ k, k ∈ names ↔ k ∈ theirs.map Prod.fst ∨ k ≠ c!"$ref" ∧ k ∈ own.map Prod.fst) ∧
      ∃ at' : Str → Option Node, (∀ k x, (k, x) ∈ theirs → at' k = some x) ∧
        (∀ k x, (k, x) ∈ own → k ≠ c!"$ref" → k ∉ theirs.map Prod.fst → at' k = some x) ∧
        ∀ g, f < g →
          (∀ k, refHas docs g (.ref own d p) (.text k) = .ok (decide (k ∈ names))) ∧
          (∀ i, refHas docs g (.ref own d p) (.index i) = .ok false) ∧
          (∀ k x, k ∈ names → at' k = some x → refGet docs g (.ref own d p) (.text k) = .ok x) ∧
          (∀ k, k ∉ names → refGet docs g (.ref own d p) (.text k) = .err .keyError) ∧
          refLen docs g (.ref own d p) = .ok names.length ∧
          refKeys docs g (.ref own d p) = .ok names ∧
          refValues docs g (.ref own d p) = .ok (names.filterMap at') ∧
          refItems docs g (.ref own d p) = .ok (names.filterMap fun k => (at' k).map fun x => (k, x)) := by
  obtain ⟨all, ⟨hn, hg⟩, hall⟩ := C39_members docs own d p doc f frag theirs hd hq hv ho ht
  have mem : ∀ {β : Type} (l : List (Str × β)) k, k ∈ l.map Prod.fst ↔ (dictGet k l).isSome = true := by
    intro β l k
    rw [← dictHas_iff_mem]; rfl
  have inn : ∀ (l : List (Str × Node)), (l.map Prod.fst).Nodup → ∀ k x, (k, x) ∈ l → dictGet k l = some x := by
    intro l hl k x h
    rw [← dictGet_pairs l hl, List.mem_filterMap] at h
    obtain ⟨k', -, e⟩ := h
    cases e' : dictGet k' l with
    | none => rw [e'] at e; cases e
    | some y => rw [e'] at e; cases e; exact e'
  refine ⟨all.map Prod.fst, hn, fun k => ?_, fun k => dictGet k all, fun k x h => ?_, fun k x h h1 h2 => ?_, fun g hgg => ?_⟩
  · rw [mem, hg, mem, mem]
    cases dictGet k theirs with
    | some y => simp
    | none =>
      by_cases e : k = c!"$ref"
      · simp [e]
      · simp [e]
  · simp only [hg, inn theirs ht k x h, Option.some_or]
  · have : dictGet k theirs = none := by
      cases e : dictGet k theirs with
      | none => rfl
      | some y => exact absurd ((mem theirs k).2 (by rw [e]; rfl)) h2
    simp only [hg, this, Option.none_or, if_neg h1, inn own ho k x h]
  · have e := hall g hgg
    have has : ∀ k, refHas docs g (.ref own d p) (.text k) = .ok (dictHas k all) := by
      intro k; simp only [refHas, e, Res.ok_bind]
    have dec : ∀ k, dictHas k all = decide (k ∈ all.map Prod.fst) := by
      intro k
      by_cases h : k ∈ all.map Prod.fst
      · rw [(dictHas_iff_mem k all).2 h, decide_eq_true h]
      · rw [decide_eq_false h]
        cases e : dictHas k all with
        | false => rfl
        | true => exact absurd ((dictHas_iff_mem k all).1 e) h
    refine ⟨fun k => by rw [has, dec], fun i => ?_, fun k x hk hx => ?_, fun k hk => ?_, ?_, ?_, ?_, ?_⟩
    · simp only [refHas, e, Res.ok_bind]
    · simp only [refGet, has, Res.ok_bind, (dictHas_iff_mem k all).2 hk, if_true, e, heldAt, hx]
    · simp only [refGet, has, Res.ok_bind, dec, decide_eq_false hk]; rfl
    · simp only [refLen, e, Res.ok_bind, List.length_map]
    · simp only [refKeys, refItems, e, Res.ok_bind]
    · have : (all.map Prod.fst).filterMap (fun k => dictGet k all) = all.map Prod.snd := by
        have h := congrArg (List.map Prod.snd) (dictGet_pairs all hn)
        rw [List.map_filterMap] at h
        rw [← h]
        congr 1
        funext k
        cases dictGet k all <;> rfl
      rw [this]
      simp only [refValues, refItems, e, Res.ok_bind]
    · rw [dictGet_pairs all hn]
      simp only [refItems, e, Res.ok_bind]

/-- `{"$ref": "#/b", "title": "t", "x": false}` in a document with `"b": {"x": true}`. -/
example : ∃ (own theirs : List (Str × Node)) (doc : Doc), queryDoc (view [doc] 1) doc [c!"b"] = .ok (.obj theirs) ∧
    view [doc] 1 (.obj theirs) = .ok (.obj theirs) ∧ (own.map Prod.fst).Nodup ∧ (theirs.map Prod.fst).Nodup ∧
    refKeys [doc] 2 (.ref own 0 [c!"b"]) = .ok [c!"title", c!"x"] ∧ refGet [doc] 2 (.ref own 0 [c!"b"]) (.text c!"x") = .ok (.bool true) ∧
    refGet [doc] 2 (.ref own 0 [c!"b"]) (.text c!"$ref") = .err .keyError := by
  refine ⟨[(c!"$ref", .str c!"#/b"), (c!"title", .str c!"t"), (c!"x", .bool false)], [(c!"x", .bool true)],
    ⟨.obj [(c!"b", .obj [(c!"x", .bool true)])], []⟩, rfl, rfl, by decide, by decide, rfl, rfl, rfl⟩

/-! ## Elements -/

/-- The number is an element of the array. -/
def HasNumber (i : Int) (xs : List Node) : Prop := ∃ n, .num n ∈ xs ∧ n.eq (.fin i) = true

theorem intInArr_iff {i : Int} : ∀ {xs : List Node}, (∀ x ∈ xs, (∀ b, x ≠ .bool b) ∧ ∀ o d p, x ≠ .ref o d p) →
    (HasNumber i xs → intInArr i xs = .ok true) ∧ (¬ HasNumber i xs → intInArr i xs = .ok false)
  | [], _ => ⟨fun ⟨_, h, _⟩ => by simp at h, fun _ => rfl⟩
  | x :: xs, h => by
    have hx := h x (by simp)
    obtain ⟨ih1, ih2⟩ := intInArr_iff (i := i) (xs := xs) fun y hy => h y (by simp [hy])
    have skip : (∀ n, x = .num n → n.eq (.fin i) = false) → (HasNumber i (x :: xs) ↔ HasNumber i xs) := by
      intro hs
      refine ⟨fun ⟨n, hm, he⟩ => ?_, fun ⟨n, hm, he⟩ => ⟨n, by simp [hm], he⟩⟩
      rcases List.mem_cons.1 hm with e | hm
      · rw [hs n e.symm] at he; cases he
      · exact ⟨n, hm, he⟩
    cases x with
    | num n =>
      simp only [intInArr]
      by_cases hn : n.eq (.fin i) = true
      · rw [if_pos hn]
        exact ⟨fun _ => rfl, fun h => absurd ⟨n, by simp, hn⟩ h⟩
      · rw [if_neg hn, skip (by rintro _ ⟨⟩; simpa using hn)]; exact ⟨ih1, ih2⟩
    | bool b => exact absurd rfl (hx.1 b)
    | ref o d p => exact absurd rfl (hx.2 o d p)
    | _ => simp only [intInArr]; rw [skip (by rintro _ ⟨⟩)]; exact ⟨ih1, ih2⟩

/-- C85 for a reference that leads to an array without booleans, exactly: `ref[i]` is the element at `i` if the *number* `i` is among the
elements, and raises `KeyError` otherwise.
Missing: arrays in which the number does not occur. -/
theorem C85_index_partial (docs : List Doc) (n : Node) (g : Nat) (xs : List Node) (hv : view docs g n = .ok (.arr xs))
    (hx : ∀ x ∈ xs, (∀ b, x ≠ .bool b) ∧ ∀ o d p, x ≠ .ref o d p) (i : Nat) :
    (∀ x, xs[i]? = some x → HasNumber i xs → refGet docs g n (.index i) = .ok x) ∧
    (¬ HasNumber i xs → refGet docs g n (.index i) = .err .keyError) := by
  obtain ⟨h1, h2⟩ := intInArr_iff (i := i) hx
  constructor
  · intro x e h
    simp only [refGet, refHas, hv, Res.ok_bind, h1 h, if_true, heldAt, pyIndex]
    rw [if_neg (by omega), if_neg (by omega)]
    simp [e]
  · intro h
    simp only [refGet, refHas, hv, Res.ok_bind, h2 h]; rfl

/-- `{"list": {"$ref": "#/defs"}, "defs": ["a", "b"]}` -/
def listDoc : Doc := ⟨.obj [(c!"list", .ref [(c!"$ref", .str c!"#/defs")] 0 [c!"defs"]), (c!"defs", .arr [.str c!"a", .str c!"b"])], []⟩

/-- C85 fails for arrays: `schema.query("/defs/0")` finds the first element, but neither `ref[0]` nor `schema.query("/list/0")` does. -/
theorem C85_index_violated : ∃ (doc : Doc) (own : List (Str × Node)) (x : Node), ∀ f,
    queryDoc (view [doc] (f + 2)) doc [c!"defs", c!"0"] = .ok x ∧ queryDoc (view [doc] (f + 2)) doc [c!"list"] = .ok (.ref own 0 [c!"defs"]) ∧
    refGet [doc] (f + 2) (.ref own 0 [c!"defs"]) (.index 0) = .err .keyError ∧
    queryDoc (view [doc] (f + 2)) doc [c!"list", c!"0"] = .err .keyError :=
  ⟨listDoc, [(c!"$ref", .str c!"#/defs")], .str c!"a", fun _ => ⟨rfl, rfl, rfl, rfl⟩⟩

/-- C85 for arrays, what holds: the length is that of the array, and the methods of mappings are not there. -/
theorem C85_array (docs : List Doc) (n : Node) (g : Nat) (xs : List Node) (hv : view docs g n = .ok (.arr xs)) :
    refLen docs g n = .ok xs.length ∧ refItems docs g n = .err .attributeError ∧ refKeys docs g n = .err .attributeError ∧
    refValues docs g n = .err .attributeError := by
  simp [refLen, refItems, refKeys, refValues, hv]

example : HasNumber 1 [.str c!"a", .num (.fin 1)] := ⟨.fin 1, by simp, rfl⟩

/-! ## Comparing -/

theorem eqEach_wrap {docs : List Doc} {g : Nat} : ∀ {xs : List Node} {ds : List Val} (_ : xs.length = ds.length)
    (_ : ∀ (i : Nat) x d, xs[i]? = some x → ds[i]? = some d → ∀ v, eqThrough docs g x v = nodeEqVal (wrap d) v) (vs : List Val),
    eqEach (eqThrough docs g) xs vs = listEqVal (wrapList ds) vs
  | [], [], _, _, vs => by cases vs <;> rfl
  | x :: xs, d :: ds, hl, h, [] => rfl
  | x :: xs, d :: ds, hl, h, v :: vs => by
    rw [eqEach, wrapList, listEqVal, h 0 x d rfl rfl v,
      eqEach_wrap (by simpa using hl) (fun i x d hx hd => h (i + 1) x d (by simpa using hx) (by simpa using hd)) vs]

theorem eqMembers_wrap {docs : List Doc} {g : Nat} : ∀ {xs : List (Str × Node)} {ds : List (Str × Val)} (_ : xs.map Prod.fst = ds.map Prod.fst)
    (_ : ∀ (i : Nat) k x k' d, xs[i]? = some (k, x) → ds[i]? = some (k', d) → ∀ v, eqThrough docs g x v = nodeEqVal (wrap d) v)
    (vs : List (Str × Val)), eqMembers (eqThrough docs g) xs vs = dictEqVal (wrapDict ds) vs
  | [], [], _, _, vs => rfl
  | (k, x) :: xs, (k', d) :: ds, hl, h, vs => by
    simp only [List.map_cons, List.cons.injEq] at hl
    obtain ⟨rfl, hl⟩ := hl
    rw [eqMembers, wrapDict, dictEqVal]
    have ih := eqMembers_wrap hl (fun i k x k' d hx hd => h (i + 1) k x k' d (by simpa using hx) (by simpa using hd)) vs
    cases dictGet k vs with
    | none => rfl
    | some y => simp only; rw [h 0 k x k d rfl rfl y, ih]

theorem length_wrapList : ∀ ds : List Val, (wrapList ds).length = ds.length
  | [] => rfl
  | d :: ds => by simp [wrapList, length_wrapList ds]

theorem length_wrapDict : ∀ ds : List (Str × Val), (wrapDict ds).length = ds.length
  | [] => rfl
  | (k, d) :: ds => by simp [wrapDict, length_wrapDict ds]

/-- Finitely many bounds have a common one. -/
theorem common_bound {P : Nat → Nat → Prop} (mono : ∀ i g g', g ≤ g' → P i g → P i g') : ∀ n, (∀ i < n, ∃ g, P i g) → ∃ g, ∀ i < n, P i g
  | 0, _ => ⟨0, fun _ h => absurd h (by omega)⟩
  | n + 1, h => by
    obtain ⟨g, hg⟩ := common_bound mono n fun i hi => h i (by omega)
    obtain ⟨g', hg'⟩ := h n (by omega)
    refine ⟨max g g', fun i hi => ?_⟩
    by_cases e : i = n
    · subst e; exact mono _ _ _ (Nat.le_max_right g g') hg'
    · exact mono _ _ _ (Nat.le_max_left g g') (hg i (by omega))

/-- C85 for comparisons: a node with references in it, compared with any plain data, answers as the data it stands for does. -/
theorem C85_equal (docs : List Doc) (n : Node) (d : Val) (h : Stands docs n d) :
    ∃ g, ∀ f, g ≤ f → ∀ v, eqThrough docs f n v = nodeEqVal (wrap d) v := by
  have start : ∀ {n m : Node} {g f : Nat}, view docs g n = .ok m → g + 1 ≤ f → ∃ f', f = f' + 1 ∧ g ≤ f' ∧ view docs f' n = .ok m := by
    intro n m g f hm hf
    obtain ⟨f', rfl⟩ : ∃ k, f = k + 1 := ⟨f - 1, by omega⟩
    exact ⟨f', rfl, by omega, by rw [view_mono docs (by omega : g ≤ f') n (by rw [hm]; simp), hm]⟩
  induction h with
  | null h => exact ⟨_, fun f hf v => by obtain ⟨f', rfl, -, e⟩ := start h hf; simp only [eqThrough, e, Res.ok_bind, wrap]⟩
  | bool h => exact ⟨_, fun f hf v => by obtain ⟨f', rfl, -, e⟩ := start h hf; simp only [eqThrough, e, Res.ok_bind, wrap]⟩
  | num h => exact ⟨_, fun f hf v => by obtain ⟨f', rfl, -, e⟩ := start h hf; simp only [eqThrough, e, Res.ok_bind, wrap]⟩
  | str h => exact ⟨_, fun f hf v => by obtain ⟨f', rfl, -, e⟩ := start h hf; simp only [eqThrough, e, Res.ok_bind, wrap]⟩
  | @list n g xs vs h hl _ ih =>
    obtain ⟨G, hG⟩ := common_bound (P := fun i g => ∀ x d, xs[i]? = some x → vs[i]? = some d → ∀ f, g ≤ f → ∀ v, eqThrough docs f x v = nodeEqVal (wrap d) v)
      (fun i g g' hgg hp x d hx hd f hf => hp x d hx hd f (by omega)) xs.length (fun i hi => by
        obtain ⟨G, hG⟩ := ih i xs[i] (vs[i]'(by omega)) (List.getElem?_eq_getElem hi) (List.getElem?_eq_getElem (by omega))
        refine ⟨G, fun x d hx hd => ?_⟩
        rw [List.getElem?_eq_getElem hi] at hx
        rw [List.getElem?_eq_getElem (by omega)] at hd
        cases hx; cases hd; exact hG)
    refine ⟨max g G + 1, fun f hf v => ?_⟩
    obtain ⟨f', rfl, -, e⟩ := start h (show g + 1 ≤ f by omega)
    have each := eqEach_wrap (docs := docs) (g := f') hl fun i x d hx hd => hG i (List.getElem?_eq_some_iff.1 hx).1 x d hx hd f' (by omega)
    simp only [eqThrough, e, Res.ok_bind, wrap]
    cases v with
    | list ys => simp only [nodeEqVal, each, length_wrapList, hl]
    | _ => rfl
  | @dict n g kvs ds h hk _ ih =>
    have hl : kvs.length = ds.length := by simpa using congrArg List.length hk
    obtain ⟨G, hG⟩ := common_bound (P := fun i g => ∀ k x k' d, kvs[i]? = some (k, x) → ds[i]? = some (k', d) → ∀ f, g ≤ f → ∀ v, eqThrough docs f x v = nodeEqVal (wrap d) v)
      (fun i g g' hgg hp k x k' d hx hd f hf => hp k x k' d hx hd f (by omega)) kvs.length (fun i hi => by
        obtain ⟨G, hG⟩ := ih i (kvs[i]).1 (kvs[i]).2 (ds[i]'(by omega)).1 (ds[i]'(by omega)).2 (List.getElem?_eq_getElem hi) (List.getElem?_eq_getElem (by omega))
        refine ⟨G, fun k x k' d hx hd => ?_⟩
        rw [List.getElem?_eq_getElem hi] at hx
        rw [List.getElem?_eq_getElem (by omega)] at hd
        simp only [Option.some.injEq] at hx hd
        rw [hx, hd] at hG
        exact hG)
    refine ⟨max g G + 1, fun f hf v => ?_⟩
    obtain ⟨f', rfl, -, e⟩ := start h (show g + 1 ≤ f by omega)
    have each := eqMembers_wrap (docs := docs) (g := f') hk fun i k x k' d hx hd => hG i (List.getElem?_eq_some_iff.1 hx).1 k x k' d hx hd f' (by omega)
    simp only [eqThrough, e, Res.ok_bind, wrap]
    cases v with
    | dict ys => simp only [nodeEqVal, each, length_wrapDict, hl]
    | _ => rfl

/-- C85 for comparisons: a node equals the data it stands for. -/
theorem C85_equal_itself (docs : List Doc) (n : Node) (d : Val) (h : Stands docs n d) (hp : d.Plain) :
    ∃ g, ∀ f, g ≤ f → eqThrough docs f n d = .ok true := by
  obtain ⟨g, hg⟩ := C85_equal docs n d h
  exact ⟨g, fun f hf => by rw [hg f hf]; exact C05_wrapped_equals_source d hp⟩

/-- The document of tests/keywords/test_ref_keyword.py 8-37, its `properties` only: `{"name": {"$ref": "#/defs"}, "defs": {"type": "string"}}`. -/
def nameDoc : Doc := ⟨.obj [(c!"name", .ref [(c!"$ref", .str c!"#/defs")] 0 [c!"defs"]), (c!"defs", .obj [(c!"type", .str c!"string")])], []⟩

/-- All of it, the reference written out. -/
example : Stands [nameDoc] nameDoc.root (.dict [(c!"name", .dict [(c!"type", .str c!"string")]), (c!"defs", .dict [(c!"type", .str c!"string")])]) := by
  have inner : ∀ n f, view [nameDoc] f n = .ok (.obj [(c!"type", .str c!"string")]) → Stands [nameDoc] n (.dict [(c!"type", .str c!"string")]) := by
    intro n f h
    refine .dict h rfl fun i k x k' v h1 h2 => ?_
    match i with
    | 0 => cases h1; cases h2; exact .str (f := 1) rfl
    | i + 1 => simp at h1
  refine .dict (f := 1) rfl rfl fun i k x k' v h1 h2 => ?_
  match i with
  | 0 => cases h1; cases h2; exact inner _ 2 rfl
  | 1 => cases h1; cases h2; exact inner _ 1 rfl
  | i + 2 => simp at h1

theorem eqEach_ends {eq : Node → Val → Res Bool} : ∀ (xs : List Node) (vs : List Val), (∀ x ∈ xs, ∀ v ∈ vs, eq x v ≠ .timeout) →
    eqEach eq xs vs ≠ .timeout
  | [], vs, _ => by cases vs <;> simp [eqEach]
  | x :: xs, [], _ => by simp [eqEach]
  | x :: xs, v :: vs, h => by
    rw [eqEach]
    cases e : eq x v with
    | timeout => exact absurd e (h x (by simp) v (by simp))
    | err _ => simp
    | ok b =>
      cases b
      · simp
      · simpa using eqEach_ends xs vs fun x hx v hv => h x (by simp [hx]) v (by simp [hv])

theorem dictGet_in {β : Type} {k : Str} {y : β} : ∀ {d : List (Str × β)}, dictGet k d = some y → (k, y) ∈ d
  | [], h => by simp [dictGet] at h
  | (k', x) :: d, h => by
    by_cases e : k' = k
    · simp [dictGet, e] at h; simp [e, h]
    · simp [dictGet, e] at h; exact List.mem_cons_of_mem _ (dictGet_in h)

theorem eqMembers_ends {eq : Node → Val → Res Bool} : ∀ (xs : List (Str × Node)) (vs : List (Str × Val)),
    (∀ p ∈ xs, ∀ q ∈ vs, eq p.2 q.2 ≠ .timeout) → eqMembers eq xs vs ≠ .timeout
  | [], vs, _ => by simp [eqMembers]
  | (k, x) :: xs, vs, h => by
    rw [eqMembers]
    cases e : dictGet k vs with
    | none => simp
    | some y =>
      simp only
      cases e' : eq x y with
      | timeout => exact absurd e' (h (k, x) (by simp) (k, y) (dictGet_in e))
      | err _ => simp
      | ok b =>
        cases b
        · simp
        · simpa using eqMembers_ends xs vs fun p hp q hq => h p (by simp [hp]) q hq

theorem eqEach_mono {eq eq' : Node → Val → Res Bool} (h : ∀ x v, eq x v ≠ .timeout → eq' x v = eq x v) : ∀ xs vs,
    eqEach eq xs vs ≠ .timeout → eqEach eq' xs vs = eqEach eq xs vs
  | [], vs, _ => by cases vs <;> rfl
  | x :: xs, [], _ => rfl
  | x :: xs, v :: vs, ht => by
    rw [eqEach] at ht
    rw [eqEach, eqEach]
    have h1 : eq x v ≠ .timeout := by intro e; rw [e] at ht; exact ht rfl
    rw [h x v h1]
    cases e : eq x v with
    | timeout => rfl
    | err _ => rfl
    | ok b =>
      cases b
      · rfl
      · rw [e] at ht
        simpa using eqEach_mono h xs vs (by simpa using ht)

theorem eqMembers_mono {eq eq' : Node → Val → Res Bool} (h : ∀ x v, eq x v ≠ .timeout → eq' x v = eq x v) : ∀ xs vs,
    eqMembers eq xs vs ≠ .timeout → eqMembers eq' xs vs = eqMembers eq xs vs
  | [], vs, _ => rfl
  | (k, x) :: xs, vs, ht => by
    rw [eqMembers] at ht
    rw [eqMembers, eqMembers]
    cases ed : dictGet k vs with
    | none => rfl
    | some y =>
    simp only [ed] at ht ⊢
    have h1 : eq x y ≠ .timeout := by intro e; rw [e] at ht; exact ht rfl
    rw [h x y h1]
    cases e : eq x y with
    | timeout => rfl
    | err _ => rfl
    | ok b =>
      cases b
      · rfl
      · rw [e] at ht
        simpa using eqMembers_mono h xs vs (by simpa using ht)

theorem eqThrough_mono (docs : List Doc) : ∀ {f g : Nat}, f ≤ g → ∀ n v, eqThrough docs f n v ≠ .timeout → eqThrough docs g n v = eqThrough docs f n v
  | 0, _, _, _, _, h => absurd rfl h
  | f + 1, g, hg, n, v, h => by
    obtain ⟨g, rfl⟩ : ∃ k, g = k + 1 := ⟨g - 1, by omega⟩
    rw [eqThrough] at h
    have hv : view docs f n ≠ .timeout := by intro e; rw [e] at h; exact h rfl
    rw [eqThrough, eqThrough, view_mono docs (by omega : f ≤ g) n hv]
    cases e : view docs f n with
    | timeout => exact absurd e hv
    | err _ => rfl
    | ok x =>
      rw [e] at h
      simp only [Res.ok_bind] at h ⊢
      have ih := eqThrough_mono docs (by omega : f ≤ g)
      cases x with
      | arr xs =>
        cases v with
        | list ys =>
          simp only at h ⊢
          by_cases hl : xs.length = ys.length
          · rw [if_pos hl] at h; rw [if_pos hl, if_pos hl]; exact eqEach_mono ih xs ys h
          · rw [if_neg hl, if_neg hl]
        | _ => rfl
      | obj xs =>
        cases v with
        | dict ys =>
          simp only at h ⊢
          by_cases hl : xs.length = ys.length
          · rw [if_pos hl] at h; rw [if_pos hl, if_pos hl]; exact eqMembers_mono ih xs ys h
          · rw [if_neg hl, if_neg hl]
        | _ => rfl
      | _ => rfl

theorem eq_bound {docs : List Doc} {ps : List (Node × Val)} (h : ∀ p ∈ ps, ∃ g, ∀ f, g ≤ f → eqThrough docs f p.1 p.2 ≠ .timeout) :
    ∃ g, ∀ f, g ≤ f → ∀ p ∈ ps, eqThrough docs f p.1 p.2 ≠ .timeout := by
  induction ps with
  | nil => exact ⟨0, fun _ _ p hp => by simp at hp⟩
  | cons p ps ih =>
    obtain ⟨g, hg⟩ := h p (by simp)
    obtain ⟨g', hg'⟩ := ih fun q hq => h q (by simp [hq])
    refine ⟨max g g', fun f hf q hq => ?_⟩
    rcases List.mem_cons.1 hq with rfl | hq
    · exact hg f (by omega)
    · exact hg' f (by omega) q hq

theorem nodeEqVal_scalar {n : Node} (h1 : ∀ xs, n ≠ .arr xs) (h2 : ∀ xs, n ≠ .obj xs) (v : Val) : nodeEqVal n v ≠ .timeout := by
  cases n with
  | arr xs => exact absurd rfl (h1 xs)
  | obj xs => exact absurd rfl (h2 xs)
  | _ => cases v <;> simp [nodeEqVal]

mutual

theorem eq_ends (docs : List Doc) (hs : ∀ n, ∃ f, view docs f n ≠ .timeout) : ∀ (v : Val) (n : Node),
    ∃ g, ∀ f, g ≤ f → eqThrough docs f n v ≠ .timeout := by
  intro v n
  obtain ⟨k, hk⟩ := hs n
  have start : ∀ f, k + 1 ≤ f → ∃ f', f = f' + 1 ∧ view docs f' n = view docs k n := fun f hf =>
    ⟨f - 1, by omega, view_mono docs (by omega) n hk⟩
  cases e : view docs k n with
  | timeout => exact absurd e hk
  | err x =>
    refine ⟨k + 1, fun f hf => ?_⟩
    obtain ⟨f', rfl, e'⟩ := start f hf
    rw [eqThrough, e', e]; simp
  | ok x =>
    cases x with
    | arr xs =>
      cases v with
      | list vs =>
        obtain ⟨g, hg⟩ := eq_bound (docs := docs) (ps := xs.flatMap fun x => vs.map fun v => (x, v)) (by
          intro p hp
          obtain ⟨x, -, hp⟩ := List.mem_flatMap.1 hp
          obtain ⟨v, hv, rfl⟩ := List.mem_map.1 hp
          exact eq_endsL docs hs vs v hv x)
        refine ⟨max k g + 1, fun f hf => ?_⟩
        obtain ⟨f', rfl, e'⟩ := start f (by omega)
        rw [eqThrough, e', e, Res.ok_bind]
        simp only
        by_cases hl : xs.length = vs.length
        · rw [if_pos hl]
          exact eqEach_ends xs vs fun x hx v hv => hg f' (by omega) (x, v) (List.mem_flatMap.2 ⟨x, hx, List.mem_map.2 ⟨v, hv, rfl⟩⟩)
        · rw [if_neg hl]; simp
      | _ =>
        refine ⟨k + 1, fun f hf => ?_⟩
        obtain ⟨f', rfl, e'⟩ := start f hf
        rw [eqThrough, e', e]; simp
    | obj xs =>
      cases v with
      | dict vs =>
        obtain ⟨g, hg⟩ := eq_bound (docs := docs) (ps := xs.flatMap fun x => vs.map fun v => (x.2, v.2)) (by
          intro p hp
          obtain ⟨x, -, hp⟩ := List.mem_flatMap.1 hp
          obtain ⟨v, hv, rfl⟩ := List.mem_map.1 hp
          exact eq_endsD docs hs vs v hv x.2)
        refine ⟨max k g + 1, fun f hf => ?_⟩
        obtain ⟨f', rfl, e'⟩ := start f (by omega)
        rw [eqThrough, e', e, Res.ok_bind]
        simp only
        by_cases hl : xs.length = vs.length
        · rw [if_pos hl]
          exact eqMembers_ends xs vs fun x hx v hv => hg f' (by omega) (x.2, v.2) (List.mem_flatMap.2 ⟨x, hx, List.mem_map.2 ⟨v, hv, rfl⟩⟩)
        · rw [if_neg hl]; simp
      | _ =>
        refine ⟨k + 1, fun f hf => ?_⟩
        obtain ⟨f', rfl, e'⟩ := start f hf
        rw [eqThrough, e', e]; simp
    | _ =>
      refine ⟨k + 1, fun f hf => ?_⟩
      obtain ⟨f', rfl, e'⟩ := start f hf
      rw [eqThrough, e', e, Res.ok_bind]
      exact nodeEqVal_scalar (by simp) (by simp) v
termination_by v => sizeOf v

theorem eq_endsL (docs : List Doc) (hs : ∀ n, ∃ f, view docs f n ≠ .timeout) : ∀ (vs : List Val) (v : Val), v ∈ vs → ∀ n,
    ∃ g, ∀ f, g ≤ f → eqThrough docs f n v ≠ .timeout
  | x :: xs, v, h, n => by
    by_cases e : v = x
    · rw [e]; exact eq_ends docs hs x n
    · exact eq_endsL docs hs xs v (by simpa [e] using h) n
termination_by vs => sizeOf vs

theorem eq_endsD (docs : List Doc) (hs : ∀ n, ∃ f, view docs f n ≠ .timeout) : ∀ (vs : List (Str × Val)) (q : Str × Val), q ∈ vs → ∀ n,
    ∃ g, ∀ f, g ≤ f → eqThrough docs f n q.2 ≠ .timeout
  | (k, x) :: xs, q, h, n => by
    by_cases e : q.2 = x
    · rw [e]; exact eq_ends docs hs x n
    · exact eq_endsD docs hs xs q (by
        rcases List.mem_cons.1 h with rfl | h
        · exact absurd rfl e
        · exact h) n
termination_by vs => sizeOf vs

end

/-- C85 for comparisons: although documents may refer to themselves, comparing with plain data ends, if no chain of references is
infinite. -/
theorem C85_ends (docs : List Doc) (h : ∀ x, Acc (Needs docs) x) (n : Node) (v : Val) :
    ∃ (g : Nat) (r : Res Bool), r ≠ .timeout ∧ ∀ f, g ≤ f → eqThrough docs f n v = r := by
  have hs : ∀ n, ∃ f, view docs f n ≠ .timeout := by
    intro n
    cases n with
    | ref own d p => exact (C45_chains docs own d p).2 (h (d, p))
    | _ => exact ⟨1, by simp [view]⟩
  obtain ⟨g, hg⟩ := eq_ends docs hs v n
  exact ⟨g, _, hg g (Nat.le_refl _), fun f hf => eqThrough_mono docs hf n v (hg g (Nat.le_refl _))⟩

/-- `{"next": {"$ref": "#"}}`, which contains itself, is compared with `{"next": {"next": 1}}`, and the answer is no. -/
def ringDoc : Doc := ⟨.obj [(c!"next", .ref [(c!"$ref", .str c!"#")] 0 [])], []⟩

example : eqThrough [ringDoc] 5 ringDoc.root (.dict [(c!"next", .dict [(c!"next", .int 1)])]) = .ok false := rfl

/-! ## C86 -/

/-- C86: `bool` of a wrapped value is `bool` of the data. -/
theorem C86_truth (v : Val) (h : ZeroAlike v) : nodeTruth (wrap v) = true ↔ Truthy v := by
  cases v with
  | null => simp [wrap, nodeTruth, Truthy]
  | bool b => simp [wrap, nodeTruth, Truthy]
  | int i => simp [wrap, nodeTruth, Truthy]
  | flt x =>
    cases x with
    | fin e s =>
      have h : e = 0 ↔ s = 0 := h
      simp [wrap, nodeTruth, Truthy, Flt.shownNum, h]
    | _ => simp [wrap, nodeTruth, Truthy, Flt.shownNum]
  | dec x => cases x <;> simp [wrap, nodeTruth, Truthy]
  | str s => cases s <;> simp [wrap, nodeTruth, Truthy]
  | list xs => cases xs <;> simp [wrap, wrapList, nodeTruth, Truthy]
  | dict xs => cases xs <;> simp [wrap, wrapDict, nodeTruth, Truthy]

/-- C86 for references: `bool` of a node that stands for data is `bool` of the data. -/
theorem C86_reference (docs : List Doc) (n : Node) (d : Val) (h : Stands docs n d) :
    ∃ g b, (b = true ↔ Truthy d) ∧ ∀ f, g ≤ f → truthThrough docs f n = .ok b := by
  have up : ∀ {n m : Node} {g : Nat}, view docs g n = .ok m → ∀ f, g ≤ f → truthThrough docs f n = .ok (nodeTruth m) := by
    intro n m g hm f hf
    simp only [truthThrough, view_mono docs hf n (by rw [hm]; simp), hm, Res.ok_bind]
  cases h with
  | null h => exact ⟨_, _, by simp [nodeTruth, Truthy], up h⟩
  | bool h => exact ⟨_, _, by simp [nodeTruth, Truthy], up h⟩
  | @num n f x h => exact ⟨f, nodeTruth (.num x), by cases x <;> simp [nodeTruth, Truthy], up h⟩
  | @str n f s h => exact ⟨f, nodeTruth (.str s), by cases s <;> simp [nodeTruth, Truthy], up h⟩
  | @list n f xs vs h hl => exact ⟨f, nodeTruth (.arr xs), by cases xs <;> cases vs <;> simp_all [nodeTruth, Truthy], up h⟩
  | @dict n f xs vs h hl => exact ⟨f, nodeTruth (.obj xs), by cases xs <;> cases vs <;> simp_all [nodeTruth, Truthy], up h⟩

example : Truthy (.list [.null]) ∧ ¬ Truthy (.dict []) ∧ ¬ Truthy (.dec (.fin 0)) ∧ ZeroAlike (.flt (.fin (3602879701896397 / 2 ^ 55) (1 / 10))) := by
  refine ⟨by simp [Truthy], by simp [Truthy], by simp [Truthy], ?_⟩
  constructor <;> intro h <;> grind

end Verif.Props
