import Verif.Props.Web
import Verif.Props.Remembering
/-!
# C93 to C96: two documents that load in one order only

A reference that leads to a reference of another document: `WebRef` of Spec/Web.lean leaves these out, and here is why.
-/

namespace Verif.Props
open Verif Verif.Spec Verif.Obj

/-- `{"properties": {"k": {"$ref": "http://x/b#/t"}}}` -/
def chainA : List (Str × Val) := [(c!"properties", .dict [(c!"k", .dict [(c!"$ref", .str c!"http://x/b#/t")])])]
/-- `{"q": {"$ref": "http://x/a#/properties/k"}, "t": {"type": "string"}}` -/
def chainB : List (Str × Val) := [(c!"q", .dict [(c!"$ref", .str c!"http://x/a#/properties/k")]), (c!"t", .dict [(c!"type", .str c!"string")])]

/-- The loader finds the first under `http://x/a`, the second under `http://x/b`. -/
def chainFile (u : Uri) : Res Val :=
  if u.path = c!"/a" then .ok (.dict chainA) else if u.path = c!"/b" then .ok (.dict chainB) else .err .fileNotFound

/-- `http://x` with a path -/
def chainUri (p : Str) : Uri := ⟨c!"http", ⟨[], c!"x", []⟩, p, [], []⟩

/-- The first is loaded, the second made; and the references that unfinished loads of the second have left behind. -/
def chainState (more : List Obj.Cell) : St where
  mem := ([⟨.obj [(c!"properties", 1)], none, []⟩, ⟨.obj [(c!"k", 9)], some 0, c!"properties"⟩, ⟨.obj [(c!"$ref", 3)], some 1, c!"k"⟩,
    ⟨.str c!"http://x/b#/t", some 2, c!"$ref"⟩, ⟨.obj [(c!"q", 5), (c!"t", 7)], none, []⟩, ⟨.obj [(c!"$ref", 6)], some 4, c!"q"⟩,
    ⟨.str c!"http://x/a#/properties/k", some 5, c!"$ref"⟩, ⟨.obj [(c!"type", 8)], some 4, c!"t"⟩, ⟨.str c!"string", some 7, c!"type"⟩,
    ⟨.ref 2 1 [c!"t"], some 1, c!"k"⟩] : List Obj.Cell) ++ more
  docs := [⟨0, true, draft2020Vocabulary, [], none⟩, ⟨4, false, draft2020Vocabulary, [], none⟩]
  storage := [(c!"http://x/a", 0), (c!"http://x/b", 1)]

/-- The first made. -/
def chainStart : St where
  mem := [⟨.obj [(c!"properties", 1)], none, []⟩, ⟨.obj [(c!"k", 2)], some 0, c!"properties"⟩, ⟨.obj [(c!"$ref", 3)], some 1, c!"k"⟩,
    ⟨.str c!"http://x/b#/t", some 2, c!"$ref"⟩]
  docs := [⟨0, false, draft2020Vocabulary, [], none⟩]
  storage := [(c!"http://x/a", 0)]

theorem chain_start (ip : Rfc3986.IpRe) (w : World) : storeLoad ⟨ip, w, chainFile⟩ (chainUri c!"/a") draft2020Vocabulary St.empty = (.ok 0, chainStart) := by
  cbv
theorem chain_first (ip : Rfc3986.IpRe) (w : World) (g : Nat) : (ops ⟨ip, w, chainFile⟩ (g + 12)).load 0 chainStart = (.ok (), chainState []) := by
  cbv

/-- The reference made when `q` is processed. -/
def chainCell : Obj.Cell := ⟨.ref 5 0 [c!"properties", c!"k"], some 4, c!"q"⟩

theorem chain_cell (more : List Obj.Cell) : (chainState (more ++ [chainCell])).mem[more.length + 10]? = some chainCell := by
  simp [chainState]

theorem chain_find (ip : Rfc3986.IpRe) (w : World) (f : Nat) (more : List Obj.Cell) :
    (ops ⟨ip, w, chainFile⟩ (f + 4)).query 0 [c!"properties", c!"k"] (chainState more) = (.ok 9, chainState more) := by
  rfl

theorem chain_ref (ip : Rfc3986.IpRe) (w : World) (f : Nat) (more : List Obj.Cell) :
    applyCore ⟨ip, w, chainFile⟩ (ops ⟨ip, w, chainFile⟩ (f + 4)) 1 5 .ref (chainState more) = (.ok (more.length + 10), chainState (more ++ [chainCell])) := by
  cbv

/-- To know whether the reference `q` has an `$anchor`, the second document is asked for `/t`, and loads once more. -/
theorem chain_again (ip : Rfc3986.IpRe) (w : World) : ∀ (n f : Nat) (more : List Obj.Cell), f ≤ 6 * n + 2 →
    ∃ s, (ops ⟨ip, w, chainFile⟩ f).load 1 (chainState more) = (.timeout, s) := by
  intro n
  induction n with
  | zero => 
    intro f more hf
    obtain rfl | rfl | rfl : f = 0 ∨ f = 1 ∨ f = 2 := by omega
    all_goals exact ⟨_, rfl⟩
  | succ n ih =>
    intro f more hf
    obtain ⟨s', h0⟩ := ih (6 * n + 2) (more ++ [chainCell]) (Nat.le_refl _)
    generalize hE : (⟨ip, w, chainFile⟩ : Env) = E at *
    generalize hs : chainState (more ++ [chainCell]) = s1 at *
    have h1 : (ops E (6 * n + 3)).query 1 [c!"t"] s1 = (.timeout, s') := by
      change queryS (ops E (6 * n + 2)) 1 [c!"t"] s1 = _
      unfold queryS
      rw [M.bind_timeout h0]
    have h2 : (ops E (6 * n + 4)).kind 9 s1 = (.timeout, s') := by
      change kindS (ops E (6 * n + 3)) 9 s1 = _
      unfold kindS
      rw [M.bind_ok (cell_apply (c := ⟨.ref 2 1 [c!"t"], some 1, c!"k"⟩) (by rw [← hs]; rfl))]
      exact M.bind_timeout h1
    have h3 : (ops E (6 * n + 5)).members (more.length + 10) s1 = (.timeout, s') := by
      change membersS (ops E (6 * n + 4)) (more.length + 10) s1 = _
      unfold membersS
      rw [M.bind_ok (cell_apply (c := chainCell) (by rw [← hs]; exact chain_cell more))]
      simp only [chainCell]
      rw [M.bind_ok (schema_apply (c := ⟨0, true, draft2020Vocabulary, [], none⟩) (by rw [← hs]; rfl))]
      simp only [Bool.not_true, Bool.false_eq_true, if_false]
      rw [M.bind_ok (by rw [← hE, ← hs]; exact chain_find ip w _ _), hs]
      exact M.bind_timeout h2
    have h4 : applyAll E (ops E (6 * n + 5)) 1 [.ref, .anchor, .id] 5 (chainState more) = (.timeout, s') := by
      unfold applyAll
      rw [M.bind_ok (a := true) (s' := chainState more) (by rw [← hE]; rfl)]
      simp only [if_true]
      rw [M.bind_ok (by rw [← hE]; exact chain_ref ip w _ _), hs]
      unfold applyAll canApply
      rw [M.bind_timeout (M.bind_timeout h3)]
    have h5 : (ops E (6 * n + 6)).process 1 [.ref, .anchor, .id] 5 (chainState more) = (.timeout, s') := by
      change processS E (ops E (6 * n + 5)) 1 _ 5 (chainState more) = _
      unfold processS
      rw [M.bind_ok (a := .object) (s' := chainState more) (by rfl), if_neg (by simp), M.bind_ok (x := (ops E (6 * n + 5)).members 5) (a := [(c!"$ref", 6)]) (s' := chainState more) rfl,
        M.bind_ok (x := eachD _ _) (a := [(c!"$ref", 6)]) (s' := chainState more) rfl, M.bind_ok (x := setMembers _ _) (a := ()) (s' := chainState more) rfl]
      exact h4
    have h6 : (ops E (6 * n + 7)).process 1 [.ref, .anchor, .id] 4 (chainState more) = (.timeout, s') := by
      change processS E (ops E (6 * n + 6)) 1 _ 4 (chainState more) = _
      unfold processS
      rw [M.bind_ok (a := .object) (s' := chainState more) (by rfl), if_neg (by simp), M.bind_ok (x := (ops E (6 * n + 6)).members 4) (a := [(c!"q", 5), (c!"t", 7)]) (s' := chainState more) rfl]
      refine M.bind_timeout ?_
      unfold eachD
      exact M.bind_timeout h5
    have h7 : (ops E (6 * n + 8)).load 1 (chainState more) = (.timeout, s') := by
      change loadS (ops E (6 * n + 7)) 1 (chainState more) = _
      unfold loadS
      rw [M.bind_ok (schema_apply (c := ⟨4, false, draft2020Vocabulary, [], none⟩) rfl)]
      simp only [Bool.false_eq_true, if_false]
      exact M.bind_timeout h6
    by_cases ht : ((ops E f).load 1 (chainState more)).1 = .timeout
    · exact ⟨_, Prod.ext ht rfl⟩
    · have := (ops_mono E (show f ≤ 6 * n + 8 by omega)).load 1 (chainState more) ht
      rw [h7] at this
      rw [← this] at ht
      exact absurd rfl ht

/-- C93 fails for references that lead to references of other documents.  `http://x/a` has a reference to `/t` of `http://x/b`, an object; `http://x/b` refers to
that reference.  There is no cycle.  A program that asks the store for `http://x/a` and loads it never gets `http://x/b` loaded: `load` calls itself without end (in
CPython: `RecursionError`). -/
theorem C93_violated (ip : Rfc3986.IpRe) (w : World) : ∃ s1 s2, storeLoad ⟨ip, w, chainFile⟩ (chainUri c!"/a") draft2020Vocabulary St.empty = (.ok 0, s1) ∧
    (∃ f0, ∀ f, f0 ≤ f → (ops ⟨ip, w, chainFile⟩ f).load 0 s1 = (.ok (), s2)) ∧ dictGet c!"http://x/b" s2.storage = some 1 ∧
    ∀ f, ((ops ⟨ip, w, chainFile⟩ f).load 1 s2).1 = .timeout := by
  refine ⟨chainStart, chainState [], chain_start ip w, ⟨12, fun f hf => ?_⟩, rfl, fun f => ?_⟩
  · obtain ⟨g, rfl⟩ := Nat.exists_eq_add_of_le' hf
    exact chain_first ip w g
  · obtain ⟨s, h⟩ := chain_again ip w f f [] (by omega)
    rw [h]

/-- Whatever leads to the second document when only the first is loaded does not end either. -/
theorem chain_kind (ip : Rfc3986.IpRe) (w : World) (f : Nat) : ∃ s, (ops ⟨ip, w, chainFile⟩ (f + 2)).kind 9 (chainState []) = (.timeout, s) := by
  obtain ⟨s', h0⟩ := chain_again ip w f f [] (by omega)
  generalize hE : (⟨ip, w, chainFile⟩ : Env) = E at *
  have h1 : (ops E (f + 1)).query 1 [c!"t"] (chainState []) = (.timeout, s') := by
    change queryS (ops E f) 1 [c!"t"] (chainState []) = _
    unfold queryS
    rw [M.bind_timeout h0]
  refine ⟨s', ?_⟩
  change kindS (ops E (f + 1)) 9 (chainState []) = _
  unfold kindS
  rw [M.bind_ok (cell_apply (c := ⟨.ref 2 1 [c!"t"], some 1, c!"k"⟩) rfl)]
  exact M.bind_timeout h1

theorem chain_query (ip : Rfc3986.IpRe) (w : World) (f : Nat) :
    ((ops ⟨ip, w, chainFile⟩ f).query 0 [c!"properties", c!"k", c!"type"] (chainState [])).1 = .timeout := by
  obtain ⟨s', h0⟩ := chain_kind ip w (f + 2)
  have h : (ops ⟨ip, w, chainFile⟩ (f + 5)).query 0 [c!"properties", c!"k", c!"type"] (chainState []) = (.timeout, s') := by
    change walk (ops ⟨ip, w, chainFile⟩ (f + 4)) 9 [c!"type"] (chainState []) = _
    unfold walk
    exact M.bind_timeout h0
  refine Classical.byContradiction fun ht => ?_
  have := (ops_mono ⟨ip, w, chainFile⟩ (show f ≤ f + 5 by omega)).query 0 _ (chainState []) ht
  rw [h] at this
  rw [← this] at ht
  exact ht rfl

theorem interpS_stuck {α β : Type} {rec : α → Val → Ctx → M Unit} {a : α} {v : Val} {c : Ctx} {k : Res Unit → Prog α β} {s s' : St} (h : rec a v c s = (.timeout, s')) :
    interpS rec (.call a v c k) s = (.timeout, s') := by
  simp only [interpS, h]

/-- `{"k": "s"}` -/
def chainValue : Val := .dict [(c!"k", .str c!"s")]

theorem chain_validate (ip : Rfc3986.IpRe) (w : World) (f : Nat) : (validateS ⟨ip, w, chainFile⟩ f 0 chainValue (chainState [])).1 = .timeout := by
  obtain ⟨s', h0⟩ := chain_kind ip w (f + 2)
  have h1 : ∀ v ctx, validateO ⟨ip, w, chainFile⟩ draft2020Vocabulary (f + 5) 9 v ctx (chainState []) = (.timeout, s') := by
    intro v ctx
    unfold validateO
    exact M.bind_timeout (M.bind_timeout h0)
  have h2 : lookS ⟨ip, w, chainFile⟩ (f + 5) (loadAllL w id [(c!"properties", 1)] draft2020Vocabulary []) (chainState []) = (.ok [(c!"properties", .object { props := [(c!"k", 9)] })], chainState []) := by
    cbv
  have h : validateS ⟨ip, w, chainFile⟩ (f + 6) 0 chainValue (chainState []) = (.timeout, s') := by
    change validateO ⟨ip, w, chainFile⟩ draft2020Vocabulary (f + 6) 0 chainValue [] (chainState []) = _
    unfold validateO
    rw [M.bind_ok (x := sightS _ _ _) (a := .obj [(c!"properties", 1)]) (s' := chainState []) rfl]
    simp only
    rw [M.bind_ok h2]
    exact interpS_stuck (h1 _ _)
  refine Classical.byContradiction fun ht => ?_
  have := (validateS_mono ⟨ip, w, chainFile⟩ (show f ≤ f + 6 by omega)) 0 _ (chainState []) ht
  rw [h] at this
  rw [← this] at ht
  exact ht rfl

theorem binds {α β γ : Type} (x : M α) (g : α → M β) (h : β → M γ) : (x >>= g >>= h) = (x >>= fun a => g a >>= h) := by
  funext s
  simp only [M.bind_apply]
  rcases x s with ⟨_ | _ | _, s'⟩ <;> rfl

theorem visit_then (E : Env) (f : Nat) {ρ σ : Type} (x : Visit Nat ρ) (g : ρ → Visit Nat σ) : visitS E f (x >>= g) = (visitS E f x >>= fun a => visitS E f (g a)) := by
  change visitS E f (x.bind g) = _
  induction x with
  | done a => rfl
  | stop => rfl
  | sight n k ih =>
    simp only [Visit.bind, visitS, ih]
    exact (binds _ _ _).symm
  | tree n k ih =>
    simp only [Visit.bind, visitS, ih]
    exact (binds _ _ _).symm

theorem chain_remember (ip : Rfc3986.IpRe) (w : World) (f : Nat) : (validateM ⟨ip, w, chainFile⟩ f 0 chainValue {} (chainState [])).1 = .timeout := by
  obtain ⟨s', h0⟩ := chain_kind ip w (f + 4)
  have h1 : Obj.attempt (sightS ⟨ip, w, chainFile⟩ (f + 6) 9) (chainState []) = (.timeout, s') := by
    unfold Obj.attempt
    rw [show sightS ⟨ip, w, chainFile⟩ (f + 6) 9 (chainState []) = (.timeout, s') from M.bind_timeout h0]
  have h2 : visitS ⟨ip, w, chainFile⟩ (f + 6) (loadObj w draft2020Vocabulary { node := 0 } [{ node := 0 }]) (chainState []) =
      (.ok (.ok (), { node := 0, data := [(c!"properties", .object { props := [(c!"k", 1)] })], loaded := true }, [{ node := 0 }, { node := 9 }]), chainState []) := by
    cbv
  have h : validateM ⟨ip, w, chainFile⟩ (f + 6) 0 chainValue {} (chainState []) = (.timeout, s') := by
    change (visitS ⟨ip, w, chainFile⟩ (f + 6) (validateV w draft2020Vocabulary (f + 6) 0 chainValue [] [{ node := 0 }]) >>= fun p => pure _) (chainState []) = _
    refine M.bind_timeout ?_
    change visitS _ (f + 6) (loadObj w draft2020Vocabulary { node := 0 } [{ node := 0 }] >>= fun p => _) _ = _
    rw [visit_then, M.bind_ok h2]
    change visitS _ (f + 6) (.sight 9 _) _ = _
    unfold visitS
    exact M.bind_timeout h1
  refine Classical.byContradiction fun ht => ?_
  have := (validateM_mono ⟨ip, w, chainFile⟩ (show f ≤ f + 6 by omega)) 0 chainValue {} (chainState []) ht
  rw [h] at this
  rw [← this] at ht
  exact ht rfl

/-- The second made. -/
def orderStart : St where
  mem := [⟨.obj [(c!"q", 1), (c!"t", 3)], none, []⟩, ⟨.obj [(c!"$ref", 2)], some 0, c!"q"⟩, ⟨.str c!"http://x/a#/properties/k", some 1, c!"$ref"⟩,
    ⟨.obj [(c!"type", 4)], some 0, c!"t"⟩, ⟨.str c!"string", some 3, c!"type"⟩]
  docs := [⟨0, false, draft2020Vocabulary, [], none⟩]
  storage := [(c!"http://x/b", 0)]

/-- The second loaded, the first made. -/
def orderNext : St where
  mem := [⟨.obj [(c!"q", 9), (c!"t", 3)], none, []⟩, ⟨.obj [(c!"$ref", 2)], some 0, c!"q"⟩, ⟨.str c!"http://x/a#/properties/k", some 1, c!"$ref"⟩,
    ⟨.obj [(c!"type", 4)], some 0, c!"t"⟩, ⟨.str c!"string", some 3, c!"type"⟩, ⟨.obj [(c!"properties", 6)], none, []⟩, ⟨.obj [(c!"k", 7)], some 5, c!"properties"⟩,
    ⟨.obj [(c!"$ref", 8)], some 6, c!"k"⟩, ⟨.str c!"http://x/b#/t", some 7, c!"$ref"⟩, ⟨.ref 1 1 [c!"properties", c!"k"], some 0, c!"q"⟩]
  docs := [⟨0, true, draft2020Vocabulary, [], none⟩, ⟨5, false, draft2020Vocabulary, [], none⟩]
  storage := [(c!"http://x/b", 0), (c!"http://x/a", 1)]

/-- Both loaded. -/
def orderEnd : St where
  mem := [⟨.obj [(c!"q", 9), (c!"t", 3)], none, []⟩, ⟨.obj [(c!"$ref", 2)], some 0, c!"q"⟩, ⟨.str c!"http://x/a#/properties/k", some 1, c!"$ref"⟩,
    ⟨.obj [(c!"type", 4)], some 0, c!"t"⟩, ⟨.str c!"string", some 3, c!"type"⟩, ⟨.obj [(c!"properties", 6)], none, []⟩, ⟨.obj [(c!"k", 10)], some 5, c!"properties"⟩,
    ⟨.obj [(c!"$ref", 8)], some 6, c!"k"⟩, ⟨.str c!"http://x/b#/t", some 7, c!"$ref"⟩, ⟨.ref 1 1 [c!"properties", c!"k"], some 0, c!"q"⟩,
    ⟨.ref 7 0 [c!"t"], some 6, c!"k"⟩]
  docs := [⟨0, true, draft2020Vocabulary, [], none⟩, ⟨5, true, draft2020Vocabulary, [], none⟩]
  storage := [(c!"http://x/b", 0), (c!"http://x/a", 1)]

/-- In the other order both load. -/
theorem C93_order (ip : Rfc3986.IpRe) (w : World) : ∃ s1 s2 s3, storeLoad ⟨ip, w, chainFile⟩ (chainUri c!"/b") draft2020Vocabulary St.empty = (.ok 0, s1) ∧
    (∃ f0, ∀ f, f0 ≤ f → (ops ⟨ip, w, chainFile⟩ f).load 0 s1 = (.ok (), s2)) ∧ dictGet c!"http://x/a" s2.storage = some 1 ∧
    (∃ f0, ∀ f, f0 ≤ f → (ops ⟨ip, w, chainFile⟩ f).load 1 s2 = (.ok (), s3)) ∧ ∀ x ∈ s3.docs, x.ready = true := by
  have e1 : storeLoad ⟨ip, w, chainFile⟩ (chainUri c!"/b") draft2020Vocabulary St.empty = (.ok 0, orderStart) := by cbv
  have e2 : ∀ g, (ops ⟨ip, w, chainFile⟩ (g + 12)).load 0 orderStart = (.ok (), orderNext) := fun g => by cbv
  have e3 : ∀ g, (ops ⟨ip, w, chainFile⟩ (g + 12)).load 1 orderNext = (.ok (), orderEnd) := fun g => by cbv
  refine ⟨orderStart, orderNext, orderEnd, e1, ⟨12, fun f hf => ?_⟩, by decide, ⟨12, fun f hf => ?_⟩, by simp [orderEnd]⟩
  · obtain ⟨g, rfl⟩ := Nat.exists_eq_add_of_le' hf
    exact e2 g
  · obtain ⟨g, rfl⟩ := Nat.exists_eq_add_of_le' hf
    exact e3 g

/-- C94 fails for these documents: a query that comes to the second document does not end, though it returns an object if the second document was loaded before, which
it can be, at first. -/
theorem C94_violated (ip : Rfc3986.IpRe) (w : World) : ∃ s1 s2 t1 t2 t3,
    storeLoad ⟨ip, w, chainFile⟩ (chainUri c!"/a") draft2020Vocabulary St.empty = (.ok 0, s1) ∧
    (∃ f0, ∀ f, f0 ≤ f → (ops ⟨ip, w, chainFile⟩ f).load 0 s1 = (.ok (), s2)) ∧
    (∀ f, ((ops ⟨ip, w, chainFile⟩ f).query 0 [c!"properties", c!"k", c!"type"] s2).1 = .timeout) ∧
    storeLoad ⟨ip, w, chainFile⟩ (chainUri c!"/b") draft2020Vocabulary St.empty = (.ok 0, t1) ∧
    (∃ f0, ∀ f, f0 ≤ f → (ops ⟨ip, w, chainFile⟩ f).load 0 t1 = (.ok (), t2)) ∧ dictGet c!"http://x/a" t2.storage = some 1 ∧
    ∃ n f0, ∀ f, f0 ≤ f → (ops ⟨ip, w, chainFile⟩ f).query 1 [c!"properties", c!"k", c!"type"] t2 = (.ok n, t3) ∧ t3.mem[n]?.map Obj.Cell.shape = some (.str c!"string") := by
  have e1 : storeLoad ⟨ip, w, chainFile⟩ (chainUri c!"/b") draft2020Vocabulary St.empty = (.ok 0, orderStart) := by cbv
  have e2 : ∀ g, (ops ⟨ip, w, chainFile⟩ (g + 12)).load 0 orderStart = (.ok (), orderNext) := fun g => by cbv
  have e3 : ∀ g, (ops ⟨ip, w, chainFile⟩ (g + 16)).query 1 [c!"properties", c!"k", c!"type"] orderNext = (.ok 4, orderEnd) := fun g => by cbv
  refine ⟨chainStart, chainState [], orderStart, orderNext, orderEnd, chain_start ip w, ⟨12, fun f hf => ?_⟩, chain_query ip w, e1, ⟨12, fun f hf => ?_⟩, by decide,
    4, 16, fun f hf => ⟨?_, rfl⟩⟩
  · obtain ⟨g, rfl⟩ := Nat.exists_eq_add_of_le' hf
    exact chain_first ip w g
  · obtain ⟨g, rfl⟩ := Nat.exists_eq_add_of_le' hf
    exact e2 g
  · obtain ⟨g, rfl⟩ := Nat.exists_eq_add_of_le' hf
    exact e3 g

/-- C95 fails for these documents: `{"k": "s"}` is accepted if the second document was loaded before the first, else `validate` does not end (in CPython: `RecursionError`). -/
theorem C95_violated (ip : Rfc3986.IpRe) (w : World) : ∃ s1 s2 t1 t2 t3,
    storeLoad ⟨ip, w, chainFile⟩ (chainUri c!"/a") draft2020Vocabulary St.empty = (.ok 0, s1) ∧
    (∃ f0, ∀ f, f0 ≤ f → (ops ⟨ip, w, chainFile⟩ f).load 0 s1 = (.ok (), s2)) ∧
    (∀ f, (validateS ⟨ip, w, chainFile⟩ f 0 chainValue s2).1 = .timeout) ∧
    storeLoad ⟨ip, w, chainFile⟩ (chainUri c!"/b") draft2020Vocabulary St.empty = (.ok 0, t1) ∧
    (∃ f0, ∀ f, f0 ≤ f → (ops ⟨ip, w, chainFile⟩ f).load 0 t1 = (.ok (), t2)) ∧ dictGet c!"http://x/a" t2.storage = some 1 ∧
    ∃ f0, ∀ f, f0 ≤ f → validateS ⟨ip, w, chainFile⟩ f 1 chainValue t2 = (.ok (), t3) := by
  have e1 : storeLoad ⟨ip, w, chainFile⟩ (chainUri c!"/b") draft2020Vocabulary St.empty = (.ok 0, orderStart) := by cbv
  have e2 : ∀ g, (ops ⟨ip, w, chainFile⟩ (g + 12)).load 0 orderStart = (.ok (), orderNext) := fun g => by cbv
  have e3 : ∀ g, validateS ⟨ip, w, chainFile⟩ (g + 16) 1 chainValue orderNext = (.ok (), orderEnd) := fun g => by cbv
  refine ⟨chainStart, chainState [], orderStart, orderNext, orderEnd, chain_start ip w, ⟨12, fun f hf => ?_⟩, chain_validate ip w, e1, ⟨12, fun f hf => ?_⟩, by decide,
    16, fun f hf => ?_⟩
  · obtain ⟨g, rfl⟩ := Nat.exists_eq_add_of_le' hf
    exact chain_first ip w g
  · obtain ⟨g, rfl⟩ := Nat.exists_eq_add_of_le' hf
    exact e2 g
  · obtain ⟨g, rfl⟩ := Nat.exists_eq_add_of_le' hf
    exact e3 g

/-- What the schema keeps then. -/
def chainKept : Kept := ⟨some (some 0), [
  { node := 5, data := [(c!"properties", .object { props := [(c!"k", 1)] })], loaded := true }, { node := 10, data := [(c!"type", .type [c!"string"])], loaded := true }]⟩

/-- C96 fails for these documents in the same way. -/
theorem C96_violated (ip : Rfc3986.IpRe) (w : World) : ∃ s1 s2 t1 t2 t3,
    storeLoad ⟨ip, w, chainFile⟩ (chainUri c!"/a") draft2020Vocabulary St.empty = (.ok 0, s1) ∧
    (∃ f0, ∀ f, f0 ≤ f → (ops ⟨ip, w, chainFile⟩ f).load 0 s1 = (.ok (), s2)) ∧
    (∀ f, (validateM ⟨ip, w, chainFile⟩ f 0 chainValue {} s2).1 = .timeout) ∧
    storeLoad ⟨ip, w, chainFile⟩ (chainUri c!"/b") draft2020Vocabulary St.empty = (.ok 0, t1) ∧
    (∃ f0, ∀ f, f0 ≤ f → (ops ⟨ip, w, chainFile⟩ f).load 0 t1 = (.ok (), t2)) ∧ dictGet c!"http://x/a" t2.storage = some 1 ∧
    ∃ m f0, ∀ f, f0 ≤ f → validateM ⟨ip, w, chainFile⟩ f 1 chainValue {} t2 = (.ok (.ok (), m), t3) := by
  have e1 : storeLoad ⟨ip, w, chainFile⟩ (chainUri c!"/b") draft2020Vocabulary St.empty = (.ok 0, orderStart) := by cbv
  have e2 : ∀ g, (ops ⟨ip, w, chainFile⟩ (g + 12)).load 0 orderStart = (.ok (), orderNext) := fun g => by cbv
  have e3 : ∀ g, validateM ⟨ip, w, chainFile⟩ (g + 16) 1 chainValue {} orderNext = (.ok (.ok (), chainKept), orderEnd) := fun g => by cbv
  refine ⟨chainStart, chainState [], orderStart, orderNext, orderEnd, chain_start ip w, ⟨12, fun f hf => ?_⟩, chain_remember ip w, e1, ⟨12, fun f hf => ?_⟩, by decide,
    chainKept, 16, fun f hf => ?_⟩
  · obtain ⟨g, rfl⟩ := Nat.exists_eq_add_of_le' hf
    exact chain_first ip w g
  · obtain ⟨g, rfl⟩ := Nat.exists_eq_add_of_le' hf
    exact e2 g
  · obtain ⟨g, rfl⟩ := Nat.exists_eq_add_of_le' hf
    exact e3 g

end Verif.Props
