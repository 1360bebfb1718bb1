import Verif.Proofs.EditShows
/-!
# Properties C76 and C77: wrapped data that is written to

Full statement of C76: writing to a wrapped object (`[]=`, `del`, `pop`, `popitem`, `clear`, `update`, `setdefault`) or deleting from a wrapped
array changes the data that holds it in that place and nothing else.

Full statement of C77: after any writing, the path of every object is the way it is reached.
-/

namespace Verif.Props
open Verif Verif.Spec Verif.Obj

variable (E : Env) (f : Nat) {s : St} (hr : Reached s) {i : Nat}
include hr

/-- C76, `object[key] = value`. -/
theorem C76_set {kvs : List (Str × Node)} (h : Members s i kvs) (k : Str) (v : Val) :
    ∃ s', edit E f (.set i k v) s = (.ok .none, s') ∧ Written (OnMembers (Sets k (wrap v))) i s s' := by
  obtain ⟨x, s', g1, g2, g3⟩ := setItem_writes (reached_inv hr) (k := k) (v := v) (Members.holds h)
  refine ⟨s', ?_, (reached_inv hr).written g2 h (Holds.members g3) (.mk (dictSet_sets ((Members.holds h).nodup (reached_inv hr)))) fun _ _ => ⟨_, rfl⟩⟩
  show (setItem i k v >>= fun _ => pure Ans.none) s = _
  rw [M.bind_ok g1]; rfl

/-- C76, `del object[key]`: of a missing member it changes nothing. -/
theorem C76_del {kvs : List (Str × Node)} (h : Members s i kvs) (k : Str) :
    (k ∉ kvs.map Prod.fst ∧ edit E f (.del i k) s = (.ok .none, s)) ∨
      ∃ x s', (k, x) ∈ kvs ∧ edit E f (.del i k) s = (.ok .none, s') ∧ Written (OnMembers (Drops k x)) i s s' := by
  obtain ⟨s', g1, g2, g3, g4⟩ := delItem_writes (reached_inv hr) (k := k) (Members.holds h)
  have e : edit E f (.del i k) s = (.ok .none, s') := by
    show (delItem i k >>= fun _ => pure Ans.none) s = _
    rw [M.bind_ok g1]; rfl
  by_cases hk : k ∈ kvs.map Prod.fst
  · obtain ⟨⟨k', x⟩, hx, rfl⟩ := List.mem_map.1 hk
    exact .inr ⟨x, s', hx, e, (reached_inv hr).written g2 h (Holds.members g3) (.mk (dictDel_drops ((Members.holds h).nodup (reached_inv hr)) hx)) fun _ _ => ⟨_, rfl⟩⟩
  · exact .inl ⟨hk, by rw [e, g4 hk]⟩

/-- C76, `object.pop(key)`: the object returned is the data that was the member. -/
theorem C76_pop {kvs : List (Str × Node)} (h : Members s i kvs) (k : Str) :
    (k ∉ kvs.map Prod.fst ∧ edit E f (.pop i k) s = (.err .keyError, s)) ∨
      ∃ x j s', (k, x) ∈ kvs ∧ edit E f (.pop i k) s = (.ok (.object j), s') ∧ Shows s'.mem x j ∧ Written (OnMembers (Drops k x)) i s s' := by
  rcases popKey_writes (reached_inv hr) (k := k) (Members.holds h) with ⟨g1, g2⟩ | ⟨x, n, s', g1, g2, g3, g4, g5, g6⟩
  · refine .inl ⟨g1, ?_⟩
    show (popKey i k >>= fun x => pure (Ans.object x)) s = _
    rw [M.bind_err g2]
  · refine .inr ⟨n, x, s', dictGet_mem g1, ?_, g3, (reached_inv hr).written g5 h (Holds.members g6) (.mk (dictDel_drops ((Members.holds h).nodup (reached_inv hr)) (dictGet_mem g1))) fun _ _ => ⟨_, rfl⟩⟩
    show (popKey i k >>= fun x => pure (Ans.object x)) s = _
    rw [M.bind_ok g4]; rfl

omit hr in
/-- C76, `object.popitem()` of an object without members. -/
theorem C76_popitem_empty (h : Members s i []) : edit E f (.popitem i) s = (.err .keyError, s) := by
  obtain ⟨⟨sh, p, key⟩, ids, hc, rfl, hd⟩ := Members.holds h
  rw [ShowsD] at hd; subst hd
  show (popItem i >>= fun x => pure (Ans.object x.2)) s = _
  refine M.bind_err ?_
  unfold popItem
  rw [M.bind_ok (cell_apply hc)]
  rfl

/-- C76, `object.popitem()` takes the first member. -/
theorem C76_popitem {k : Str} {x : Node} {kvs : List (Str × Node)} (h : Members s i ((k, x) :: kvs)) :
    ∃ j s', edit E f (.popitem i) s = (.ok (.object j), s') ∧ Shows s'.mem x j ∧ Written (OnMembers fun a b => a = (k, x) :: b) i s s' := by
  obtain ⟨j, s', g1, g2, g3, g4, g5⟩ := popItem_writes (reached_inv hr) (Members.holds h)
  refine ⟨j, s', ?_, g2, (reached_inv hr).written g4 h (Holds.members g5) (.mk rfl) fun _ _ => ⟨_, rfl⟩⟩
  show (popItem i >>= fun x => pure (Ans.object x.2)) s = _
  rw [M.bind_ok g3]; rfl

/-- C76, `object.clear()`. -/
theorem C76_clear {kvs : List (Str × Node)} (h : Members s i kvs) :
    ∃ s', edit E f (.clear i) s = (.ok .none, s') ∧ Written (OnMembers fun _ b => b = []) i s s' := by
  obtain ⟨s', g1, g2, g3⟩ := clearAll_writes (reached_inv hr) (Members.holds h)
  refine ⟨s', ?_, (reached_inv hr).written g2 h (Holds.members g3) (.mk rfl) fun _ _ => ⟨_, rfl⟩⟩
  show (clearAll i >>= fun _ => pure Ans.none) s = _
  rw [M.bind_ok g1]; rfl

/-- C76, `object.update(mapping)` writes the members in turn. -/
theorem C76_update {kvs : List (Str × Node)} (h : Members s i kvs) (vs : List (Str × Val)) (hv : ∀ k v, (k, v) ∈ vs → v.Plain) :
    ∃ s', edit E f (.update i vs) s = (.ok .none, s') ∧ Written (OnMembers (SetsAll vs)) i s s' := by
  obtain ⟨s', kvs', g1, g2, g3, g4⟩ := updateAll_writes (reached_inv hr) (fun k v hk => wrap_refFree v (hv k v hk)) (Members.holds h)
  refine ⟨s', ?_, (reached_inv hr).written g2 h (Holds.members g3) (.mk g4) fun _ _ => ⟨_, rfl⟩⟩
  show (updateAll i vs >>= fun _ => pure Ans.none) s = _
  rw [M.bind_ok g1]; rfl

/-- C76, `object.setdefault(key, value)`: the member if there is one, else it is written. -/
theorem C76_setdefault {kvs : List (Str × Node)} (h : Members s i kvs) (k : Str) (v : Val) :
    (∃ x j, (k, x) ∈ kvs ∧ Shows s.mem x j ∧ edit E f (.setdefault i k v) s = (.ok (.object j), s)) ∨
      (k ∉ kvs.map Prod.fst ∧ ∃ s', edit E f (.setdefault i k v) s = (.ok .none, s') ∧ Written (OnMembers (Sets k (wrap v))) i s s') := by
  rcases setDefault_writes (reached_inv hr) (k := k) (v := v) (Members.holds h) with ⟨x, n, g1, g2, g3⟩ | ⟨g1, s', g2, g3, g4⟩
  · refine .inl ⟨n, x, g1, g2, ?_⟩
    show (setDefault i k v >>= _) s = _
    rw [M.bind_ok g3]; rfl
  · refine .inr ⟨g1, s', ?_, (reached_inv hr).written g3 h (Holds.members g4) (.mk (dictSet_sets ((Members.holds h).nodup (reached_inv hr)))) fun _ _ => ⟨_, rfl⟩⟩
    show (setDefault i k v >>= _) s = _
    rw [M.bind_ok g2]; rfl

/-- C76, `del array[t]`. -/
theorem C76_delAt {xs : List Node} (h : Shows s.mem (.arr xs) i) (t : Int) :
    ((t < -xs.length ∨ (xs.length : Int) ≤ t) ∧ edit E f (.delAt i t) s = (.err .indexError, s)) ∨
      ∃ s', edit E f (.delAt i t) s = (.ok .none, s') ∧ Written (OnElements (Removes t)) i s s' := by
  rcases delElem_writes (reached_inv hr) (t := t) h with ⟨g1, g2⟩ | ⟨s', ys, g1, g2, g3, g4⟩
  · refine .inl ⟨g1, ?_⟩
    show (delElem i t >>= fun _ => pure Ans.none) s = _
    rw [M.bind_err g2]
  · refine .inr ⟨s', ?_, (reached_inv hr).written g2 h g3 (.mk g4) fun _ h => by cases h⟩
    show (delElem i t >>= fun _ => pure Ans.none) s = _
    rw [M.bind_ok g1]; rfl

/-- C76, `object[key] = wrapped`: the member is the wrapped value itself.  It must not contain the object (`C76_cycle`). -/
theorem C76_put {kvs : List (Str × Node)} (h : Members s i kvs) (k : Str) {j : Nat} {x : Node} (hx : Shows s.mem x j) (hj : ∀ ks, ¬ Leading s.mem j ks i) :
    ∃ s', edit E f (.put i k j) s = (.ok .none, s') ∧ Written (OnMembers (Sets k x)) i s s' := by
  obtain ⟨s', g1, g2, g3⟩ := putItem_writes (reached_inv hr) (k := k) (Members.holds h) hx fun ⟨ks, q⟩ => hj ks q
  refine ⟨s', ?_, (reached_inv hr).written g2 h (Holds.members g3) (.mk (dictSet_sets ((Members.holds h).nodup (reached_inv hr)))) fun _ _ => ⟨_, rfl⟩⟩
  show (putItem i k j >>= fun _ => pure Ans.none) s = _
  rw [M.bind_ok g1]; rfl

/-- C76, `array[t] = wrapped`. -/
theorem C76_putAt {xs : List Node} (h : Shows s.mem (.arr xs) i) (t : Int) {j : Nat} {y : Node} (hy : Shows s.mem y j) (hj : ∀ ks, ¬ Leading s.mem j ks i) :
    ((t < -xs.length ∨ (xs.length : Int) ≤ t) ∧ edit E f (.putAt i t j) s = (.err .indexError, s)) ∨
      ∃ s', edit E f (.putAt i t j) s = (.ok .none, s') ∧ Written (OnElements (Replaces t y)) i s s' := by
  rcases putElem_writes (reached_inv hr) (t := t) h hy fun ⟨ks, q⟩ => hj ks q with ⟨g1, g2⟩ | ⟨s', ys, g1, g2, g3, g4⟩
  · refine .inl ⟨g1, ?_⟩
    show (putElem i t j >>= fun _ => pure Ans.none) s = _
    rw [M.bind_err g2]
  · refine .inr ⟨s', ?_, (reached_inv hr).written g2 h g3 (.mk g4) fun _ h => by cases h⟩
    show (putElem i t j >>= fun _ => pure Ans.none) s = _
    rw [M.bind_ok g1]; rfl

/-- C77 for programs of calls and of writing plain data to objects.  Missing: writing wrapped values, deleting from and writing to arrays, and
slices (refuted below). -/
theorem C77_paths_partial (hi : i < s.mem.length) : ∃ pre top, path s.mem i = .ok pre ∧ root s.mem i = .ok top ∧
    ∀ j ks, (Inside s.mem i ks j → path s.mem j = .ok (pre ++ ks)) ∧ (Steps s.mem i ks j → root s.mem j = .ok top) := by
  obtain ⟨pre, top, hu⟩ := (reached_inv hr).up _ i (Nat.lt_succ_self _) hi
  refine ⟨pre, top, hu.path, hu.root, fun j ks => ⟨fun h => ?_, fun h => ((reached_inv hr).steps h hu).root⟩⟩
  obtain ⟨t, h⟩ := Inv.inside (reached_inv hr) h hu
  exact h.path

/-- The path and the root of an object never change, so that computing them once (`cached_property`) is right. -/
theorem C77_stable_partial (hE : ∀ u v, E.file u = .ok v → v.Plain) (hi : i < s.mem.length) (cs : List Edit) (hcs : ∀ e ∈ cs, PlainEdit e) :
    ∃ pre top, path s.mem i = .ok pre ∧ root s.mem i = .ok top ∧ path (edits E f cs s).2.mem i = .ok pre ∧ root (edits E f cs s).2.mem i = .ok top := by
  obtain ⟨pre, top, hu⟩ := (reached_inv hr).up _ i (Nat.lt_succ_self _) hi
  obtain ⟨-, h2, -⟩ := edits_good E (fun u v h => wrap_refFree v (hE u v h)) f cs s (reached_inv hr) fun e he => edit_kept (hcs e he)
  have hu' := hu.keep (m' := (edits E f cs s).2.mem) fun j c hc => by
    obtain ⟨c', h1, h2, h3, -⟩ := h2.cells j c hc
    exact ⟨c', h1, h2, h3⟩
  exact ⟨pre, top, hu.path, hu.root, hu'.path, hu'.root⟩

omit hr

/-- C76, `array[a:b]`: a new array of the elements between the ends; nothing else changes. -/
theorem C76_slice {xs : List Node} (h : Shows s.mem (.arr xs) i) (a b : Option Int) :
    ∃ j s' ys, edit E f (.slice i a b) s = (.ok (.object j), s') ∧ Shows s'.mem (.arr ys) j ∧ SliceOf a b xs ys ∧
      (∀ n u, Shows s.mem n u → Shows s'.mem n u ∧ u ≠ j) ∧ s'.docs = s.docs ∧ s'.storage = s.storage := by
  rw [Shows] at h
  obtain ⟨⟨sh, p, key⟩, ids, hc, rfl, hd⟩ := h
  have keep : ∀ (j : Nat) c x, s.mem[j]? = some c → (s.mem ++ [x])[j]? = some c := fun j c x hx => by
    rw [List.getElem?_append_left (List.getElem?_eq_some_iff.1 hx).1]; exact hx
  refine ⟨s.mem.length, { s with mem := s.mem ++ [⟨.arr ((ids.take (bound ids.length ids.length b)).drop (bound ids.length 0 a)), none, []⟩] }, _, ?_, ?_, cut_slice xs a b, fun n u hu => ⟨hu.keep fun j c => keep j c _, ?_⟩, ?_, ?_⟩
  · show (Obj.slice i a b >>= fun x => pure (Ans.object x)) s = _
    have : Obj.slice i a b s = (.ok s.mem.length,
        { s with mem := s.mem ++ [⟨.arr ((ids.take (bound ids.length ids.length b)).drop (bound ids.length 0 a)), none, []⟩] }) := by
      unfold Obj.slice
      rw [M.bind_ok (cell_apply hc)]
      rfl
    rw [M.bind_ok this]
    rfl
  · rw [Shows]
    refine ⟨⟨.arr ((ids.take (bound ids.length ids.length b)).drop (bound ids.length 0 a)), none, []⟩, _, by simp, rfl, ?_⟩
    rw [hd.length]
    exact ((hd.take _).drop _).keep fun j c => keep j c _
  · rintro rfl
    cases n <;> simp [Shows] at hu
  · rfl
  · rfl

/-- The value of a schema that was created has the empty path and is its own root, whatever was written to it. -/
theorem C77_root {cs : List Edit} {rs : List (Res Ans)} (hE : ∀ u v, E.file u = .ok v → v.Plain) (hcs : ∀ e ∈ cs, PlainEdit e)
    (h : edits E f cs St.empty = (rs, s)) {d : Nat} (hd : .ok (.schema d) ∈ rs) :
    ∃ x, s.docs[d]? = some x ∧ path s.mem x.value = .ok [] ∧ root s.mem x.value = .ok x.value := by
  obtain ⟨-, -, h3⟩ := edits_good E (fun u v h => wrap_refFree v (hE u v h)) f cs St.empty Inv.empty fun e he => edit_kept (hcs e he)
  rw [h] at h3
  obtain ⟨x, hx, c, hc, hp, -⟩ := h3 d hd
  exact ⟨x, hx, (Up.top hc hp).path, (Up.top hc hp).root⟩

/-- `{"a": [true, false], "b": {}}` -/
def editDoc : Val := .dict [(c!"a", .list [.bool true, .bool false]), (c!"b", .dict [])]
/-- Its objects. -/
def editMem : Mem := [⟨.obj [(c!"a", 1), (c!"b", 4)], none, []⟩, ⟨.arr [2, 3], some 0, c!"a"⟩, ⟨.bool true, some 1, c!"0"⟩,
  ⟨.bool false, some 1, c!"1"⟩, ⟨.obj [], some 0, c!"b"⟩]
def editState : St := ⟨editMem, [⟨0, false, [.ref, .anchor, .id], [], none⟩], []⟩

theorem editDoc_plain : editDoc.Plain := by simp [editDoc, Val.Plain, Val.PlainD, Val.PlainL]

theorem editDoc_made (E : Env) (f : Nat) : edits E f [.call (.create editDoc [.ref, .anchor, .id])] St.empty = ([.ok (.schema 0)], editState) := by
  cbv

/-- The hypotheses of C76 and C77 for it: a state that is reached; the object `b` inside, without members; and the array. -/
theorem editState_reached (E : Env) : Reached editState :=
  ⟨⟨E.ip, E.w, fun _ => .err .fileNotFound⟩, 0, [.call (.create editDoc [.ref, .anchor, .id])], fun _ _ h => (by cases h),
   fun e he => (by rw [List.mem_singleton.1 he]; exact editDoc_plain), by rw [editDoc_made]⟩

theorem editArray_shown : Shows editMem (.arr [.bool true, .bool false]) 1 := by
  simp only [Shows, ShowsL]
  exact ⟨_, _, rfl, rfl, _, _, rfl, ⟨_, rfl, rfl⟩, _, _, rfl, ⟨_, rfl, rfl⟩, rfl⟩

theorem editDoc_shown : Shows editMem (.obj [(c!"a", .arr [.bool true, .bool false]), (c!"b", .obj [])]) 0 := by
  simp only [Shows, ShowsD, ShowsL]
  exact ⟨_, _, rfl, rfl, _, _, rfl, ⟨_, _, rfl, rfl, _, _, rfl, ⟨_, rfl, rfl⟩, _, _, rfl, ⟨_, rfl, rfl⟩, rfl⟩, _, _, rfl, ⟨_, _, rfl, rfl, rfl⟩, rfl⟩

example : Members editState 4 [] ∧ Leading editMem 0 [c!"b"] 4 ∧ ∀ ks, ¬ Leading editMem 1 ks 4 := by
  refine ⟨by simp [Members, Shows, ShowsD, editState, editMem],
    .member (j := 4) (k := c!"b") (c := ⟨.obj [(c!"a", 1), (c!"b", 4)], none, []⟩) rfl rfl (by simp) (.here 4), fun ks h => ?_⟩
  have leaf : ∀ {j : Nat} {b : Bool} {p : Option Nat} {k : Str} {ks : List Str}, j ≠ 4 → editMem[j]? = some ⟨.bool b, p, k⟩ → ¬ Leading editMem j ks 4 := by
    intro j b p k ks hj hc h
    cases h with
    | here => exact hj rfl
    | member h1 h2 _ _ => rw [hc] at h1; cases h1; cases h2
    | elem h1 h2 _ _ => rw [hc] at h1; cases h1; cases h2
    | node h1 h2 _ => rw [hc] at h1; cases h1; cases h2
  cases h with
  | member h1 h2 _ _ => cases h1; cases h2
  | elem h1 h2 h3 h4 =>
    cases h1; cases h2
    have h3 := List.mem_of_getElem? h3
    simp only [List.mem_cons, List.not_mem_nil, or_false] at h3
    rcases h3 with rfl | rfl
    · exact leaf (by decide) rfl h4
    · exact leaf (by decide) rfl h4
  | node h1 h2 _ => cases h1; cases h2

/-- What C76 says of `document["b"]["c"] = null`. -/
example (E : Env) (f : Nat) : ∃ s', edit E f (.set 4 c!"c" .null) editState = (.ok .none, s') ∧
    Shows s'.mem (.obj [(c!"a", .arr [.bool true, .bool false]), (c!"b", .obj [(c!"c", .null)])]) 0 :=
  ⟨⟨[⟨.obj [(c!"a", 1), (c!"b", 4)], none, []⟩, ⟨.arr [2, 3], some 0, c!"a"⟩, ⟨.bool true, some 1, c!"0"⟩, ⟨.bool false, some 1, c!"1"⟩,
      ⟨.obj [(c!"c", 5)], some 0, c!"b"⟩, ⟨.null, some 4, c!"c"⟩], [⟨0, false, [.ref, .anchor, .id], [], none⟩], []⟩, by cbv, by
    simp only [Shows, ShowsD, ShowsL]
    exact ⟨_, _, rfl, rfl, _, _, rfl, ⟨_, _, rfl, rfl, _, _, rfl, ⟨_, rfl, rfl⟩, _, _, rfl, ⟨_, rfl, rfl⟩, rfl⟩, _, _, rfl,
      ⟨_, _, rfl, rfl, _, _, rfl, ⟨_, rfl, rfl⟩, rfl⟩, rfl⟩⟩

/-- C76 without the condition that the value does not contain the object: after `document["b"]["c"] = document` the document is no data any more, it contains itself. -/
theorem C76_cycle (E : Env) (f : Nat) : ∃ s', edit E f (.put 4 c!"c" 0) editState = (.ok .none, s') ∧ ∀ n, ¬ Shows s'.mem n 0 := by
  refine ⟨⟨[⟨.obj [(c!"a", 1), (c!"b", 4)], none, []⟩, ⟨.arr [2, 3], some 0, c!"a"⟩, ⟨.bool true, some 1, c!"0"⟩, ⟨.bool false, some 1, c!"1"⟩,
      ⟨.obj [(c!"c", 0)], some 0, c!"b"⟩], [⟨0, false, [.ref, .anchor, .id], [], none⟩], []⟩, by cbv, fun n h => ?_⟩
  have h0 := h
  have h1 := h.shape rfl
  cases n <;> simp only [ShapeOf] at h1
  case obj kvs =>
    have step : ∀ {m : Mem} {kvs : List (Str × Node)} {ids : List (Str × Nat)} {k : Str} {j : Nat}, ShowsD m kvs ids → (k, j) ∈ ids →
        ∃ x, Shows m x j ∧ sizeOf x < sizeOf (Node.obj kvs) := by
      intro m kvs ids k j hd hk
      obtain ⟨a, x, b, a', b', rfl, _, _, hx, _⟩ := hd.split hk
      refine ⟨x, hx, ?_⟩
      have : (k, x) ∈ a ++ (k, x) :: b := by simp
      have := List.sizeOf_lt_of_mem this
      simp at this ⊢
      omega
    obtain ⟨x, hx, h2⟩ := step (k := c!"b") (j := 4) h1 (by simp)
    have h3 := hx.shape rfl
    cases x <;> simp only [ShapeOf] at h3
    obtain ⟨y, hy, h4⟩ := step (k := c!"c") (j := 0) h3 (by simp)
    rw [hy.unique h0] at h4
    omega

/-- C77 fails for deleting from an array: what was at `/a/1` is now at `/a/0` and still has the path `/a/1`. -/
theorem C77_delAt_violated (E : Env) (f : Nat) : ∃ s', edits E f [.call (.create editDoc [.ref, .anchor, .id]), .delAt 1 0] St.empty =
      ([.ok (.schema 0), .ok .none], s') ∧ Inside s'.mem 0 [c!"a", c!"0"] 3 ∧ path s'.mem 3 = .ok [c!"a", c!"1"] :=
  ⟨⟨[⟨.obj [(c!"a", 1), (c!"b", 4)], none, []⟩, ⟨.arr [3], some 0, c!"a"⟩, ⟨.bool true, some 1, c!"0"⟩,
      ⟨.bool false, some 1, c!"1"⟩, ⟨.obj [], some 0, c!"b"⟩], [⟨0, false, [.ref, .anchor, .id], [], none⟩], []⟩, by cbv,
   .member (j := 1) (k := c!"a") rfl rfl (by simp) (.elem (j := 3) (t := 0) rfl rfl rfl (.here 3)), rfl⟩

/-- C77 fails for writing a wrapped value, also one of the same document: the array is at `/b/c` too and has the path `/a`. -/
theorem C77_put_violated (E : Env) (f : Nat) : ∃ s', edits E f [.call (.create editDoc [.ref, .anchor, .id]), .put 4 c!"c" 1] St.empty =
      ([.ok (.schema 0), .ok .none], s') ∧ Inside s'.mem 0 [c!"b", c!"c"] 1 ∧ path s'.mem 1 = .ok [c!"a"] :=
  ⟨⟨[⟨.obj [(c!"a", 1), (c!"b", 4)], none, []⟩, ⟨.arr [2, 3], some 0, c!"a"⟩, ⟨.bool true, some 1, c!"0"⟩,
      ⟨.bool false, some 1, c!"1"⟩, ⟨.obj [(c!"c", 1)], some 0, c!"b"⟩], [⟨0, false, [.ref, .anchor, .id], [], none⟩], []⟩, by cbv,
   .member (j := 4) (k := c!"b") rfl rfl (by simp) (.member (j := 1) (k := c!"c") rfl rfl (by simp) (.here 1)), rfl⟩

/-- C77 fails for writing a wrapped value into an array. -/
theorem C77_putAt_violated (E : Env) (f : Nat) : ∃ s', edits E f [.call (.create editDoc [.ref, .anchor, .id]), .putAt 1 0 4] St.empty =
      ([.ok (.schema 0), .ok .none], s') ∧ Inside s'.mem 0 [c!"a", c!"0"] 4 ∧ path s'.mem 4 = .ok [c!"b"] :=
  ⟨⟨[⟨.obj [(c!"a", 1), (c!"b", 4)], none, []⟩, ⟨.arr [4, 3], some 0, c!"a"⟩, ⟨.bool true, some 1, c!"0"⟩,
      ⟨.bool false, some 1, c!"1"⟩, ⟨.obj [], some 0, c!"b"⟩], [⟨0, false, [.ref, .anchor, .id], [], none⟩], []⟩, by cbv,
   .member (j := 1) (k := c!"a") rfl rfl (by simp) (.elem (j := 4) (t := 0) rfl rfl rfl (.here 4)), rfl⟩

/-- C77 fails for slices: the slice `[1:]` of the array is a new array with the empty path, whose first element has the path `/a/1`. -/
theorem C77_slice_violated (E : Env) (f : Nat) : ∃ s', edits E f [.call (.create editDoc [.ref, .anchor, .id]), .slice 1 (some 1) none] St.empty =
      ([.ok (.schema 0), .ok (.object 5)], s') ∧ Inside s'.mem 5 [c!"0"] 3 ∧ path s'.mem 5 = .ok [] ∧ path s'.mem 3 = .ok [c!"a", c!"1"] :=
  ⟨⟨editMem ++ [⟨.arr [3], none, []⟩], [⟨0, false, [.ref, .anchor, .id], [], none⟩], []⟩, by cbv,
   .elem (j := 3) (t := 0) (c := ⟨.arr [3], none, []⟩) rfl rfl rfl (.here 3), rfl, rfl⟩

end Verif.Props
