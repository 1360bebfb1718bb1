import Verif.Proofs.Objects
import Verif.Spec.Load
/-! # Loading a document without core keywords -/

namespace Verif.Obj
open Verif Verif.Spec

/-- With enough fuel, `g` goes from `s` to `s'` and returns `x`. -/
def Runs {α : Type} (g : Nat → M α) (s : St) (x : Res α) (s' : St) : Prop := ∃ f0, ∀ f, f0 ≤ f → g f s = (x, s')

theorem Runs.const {α : Type} {g : M α} {s s' : St} {x : Res α} (h : g s = (x, s')) : Runs (fun _ => g) s x s' := ⟨0, fun _ _ => h⟩

theorem Runs.bind {α β : Type} {g : Nat → M α} {k : Nat → α → M β} {s s1 s2 : St} {a : α} {x : Res β}
    (h : Runs g s (.ok a) s1) (h' : Runs (fun f => k f a) s1 x s2) : Runs (fun f => g f >>= k f) s x s2 := by
  obtain ⟨f0, h⟩ := h
  obtain ⟨f1, h'⟩ := h'
  refine ⟨max f0 f1, fun f hf => ?_⟩
  exact (M.bind_ok (h f (by omega))).trans (h' f (by omega))

theorem Runs.bind_err {α β : Type} {g : Nat → M α} {k : Nat → α → M β} {s s1 : St} {e : PyErr}
    (h : Runs g s (.err e) s1) : Runs (fun f => g f >>= k f) s (.err e) s1 := by
  obtain ⟨f0, h⟩ := h
  exact ⟨f0, fun f hf => M.bind_err (h f hf)⟩

theorem Runs.shift {α : Type} {g : Nat → M α} {h : Nat → M α} {s s' : St} {x : Res α} (hg : Runs g s x s')
    (e : ∀ f, h (f + 1) = g f) : Runs h s x s' := by
  obtain ⟨f0, hg⟩ := hg
  refine ⟨f0 + 1, fun f hf => ?_⟩
  obtain ⟨f, rfl⟩ : ∃ g, f = g + 1 := ⟨f - 1, by omega⟩
  rw [e]; exact hg f (by omega)

theorem Runs.next {α : Type} {g : Nat → M α} {s s' : St} {x : Res α} (h : ∀ f, g (f + 1) s = (x, s')) : Runs g s x s' := by
  refine ⟨1, fun f hf => ?_⟩
  obtain ⟨f, rfl⟩ : ∃ g, f = g + 1 := ⟨f - 1, by omega⟩
  exact h f

theorem Runs.pure {α : Type} {a : α} {s : St} : Runs (fun _ => (Pure.pure a : M α)) s (.ok a) s := .const rfl

theorem Runs.det {α : Type} {g : Nat → M α} {s s1 s2 : St} {x y : Res α} (h : Runs g s x s1) (h' : Runs g s y s2) :
    x = y ∧ s1 = s2 := by
  obtain ⟨f0, h⟩ := h
  obtain ⟨f1, h'⟩ := h'
  have a := h (max f0 f1) (by omega)
  rw [h' (max f0 f1) (by omega)] at a
  cases a; exact ⟨rfl, rfl⟩

variable (E : Env)

/-- `type` of what is not a reference. -/
def Shape.kind : Shape → Kind
  | .null => .null
  | .bool _ => .boolean
  | .num _ => .number
  | .str _ => .string
  | .arr _ => .array
  | .obj _ => .object
  | .ref .. => .object

def Shape.isRef : Shape → Bool
  | .ref .. => true
  | _ => false

theorem kind_plain {f i : Nat} {s : St} {c : Cell} (h : s.mem[i]? = some c) (hr : c.shape.isRef = false) :
    (ops E (f + 1)).kind i s = (.ok c.shape.kind, s) := by
  change kindS (ops E f) i s = _
  unfold kindS
  rw [M.bind_ok (cell_apply h)]
  cases hs : c.shape <;> first | rfl | (rw [hs] at hr; cases hr)

theorem members_obj {f i : Nat} {s : St} {c : Cell} {kvs : List (Str × Nat)} (h : s.mem[i]? = some c) (hs : c.shape = .obj kvs) :
    (ops E (f + 1)).members i s = (.ok kvs, s) := by
  change membersS (ops E f) i s = _
  unfold membersS
  rw [M.bind_ok (cell_apply h), hs]
  rfl

theorem setMembers_obj {i : Nat} {s : St} {c : Cell} {kvs kvs' : List (Str × Nat)} (h : s.mem[i]? = some c) (hs : c.shape = .obj kvs) :
    setMembers i kvs' s = (.ok (), { s with mem := s.mem.set i { c with shape := .obj kvs' } }) := by
  unfold setMembers
  rw [M.bind_ok (cell_apply h), hs]
  exact setShape_apply h _

theorem set_same {m : Mem} {i : Nat} {c : Cell} (h : m[i]? = some c) : m.set i c = m := by
  obtain ⟨h1, h2⟩ := List.getElem?_eq_some_iff.1 h
  rw [← h2]; exact List.set_getElem_self h1

theorem setMembers_same {i : Nat} {s : St} {c : Cell} {kvs : List (Str × Nat)} (h : s.mem[i]? = some c) (hs : c.shape = .obj kvs) :
    setMembers i kvs s = (.ok (), s) := by
  rw [setMembers_obj h hs]
  have : ({ c with shape := .obj kvs } : Cell) = c := by cases c; cases hs; rfl
  rw [this, set_same h]

theorem TreeD.keys {m : Mem} : ∀ {xs : List (Str × Node)} {self : Nat} {ids : List (Str × Nat)} {lo hi : Nat},
    TreeD m xs self ids lo hi → ids.map Prod.fst = xs.map Prod.fst
  | [], _, _, _, _, h => by rw [TreeD] at h; rw [h.1]; rfl
  | (k, x) :: xs, _, _, _, _, h => by
    rw [TreeD] at h; obtain ⟨mid, rest, rfl, _, h2⟩ := h
    simp [h2.keys]

theorem withoutD_keys {ks : List Str} : ∀ {xs : List (Str × Node)}, WithoutD ks xs → ∀ k ∈ xs.map Prod.fst, k ∉ ks
  | [], _, k, hk => by simp at hk
  | (a, x) :: xs, h, k, hk => by
    rw [WithoutD] at h
    rcases List.mem_cons.1 hk with rfl | hk
    · exact h.1
    · exact withoutD_keys h.2.2 k hk

/-- No keyword applies to an object that has none of their members. -/
theorem applyAll_none {f d n : Nat} {s : St} {c : Cell} {kvs : List (Str × Nat)} (h : s.mem[n]? = some c) (hs : c.shape = .obj kvs)
    (kws : List Kw) (hk : ∀ k ∈ kws, ∀ x ∈ k.keys, x ∉ kvs.map Prod.fst) :
    applyAll E (ops E (f + 1)) d kws n s = (.ok n, s) := by
  induction kws with
  | nil => rfl
  | cons k ks ih =>
    unfold applyAll
    have : canApply (ops E (f + 1)) k n s = (.ok false, s) := by
      unfold canApply
      rw [M.bind_ok (members_obj E h hs)]
      simp only [M.pure_apply, Prod.mk.injEq, and_true, Res.ok.injEq, List.any_eq_false, Bool.not_eq_true]
      intro x hx
      have := hk k (by simp) x hx
      rw [← dictHas_iff] at this
      simpa using this
    rw [M.bind_ok this]
    exact ih fun k hk' => hk k (by simp [hk'])

theorem process_eq (f d : Nat) (kws : List Kw) (n : Nat) :
    (ops E (f + 1)).process d kws n = processS E (ops E f) d kws n := rfl

mutual
theorem process_without (d : Nat) (kws : List Kw) (s : St) :
    ∀ {n : Node} {p : Option Nat} {k : Str} {lo hi : Nat}, Tree s.mem n p k lo hi → (∀ k ∈ kws, Without k.keys n) →
      Runs (fun f => (ops E f).process d kws lo) s (.ok lo) s
  | .obj kvs, p, k, lo, hi, h, hw => by
    rw [Tree] at h; obtain ⟨ids, h1, h2⟩ := h
    have hw : ∀ k ∈ kws, WithoutD k.keys kvs := fun k hk => by have := hw k hk; rwa [Without] at this
    refine Runs.shift (g := fun f => processS E (ops E f) d kws lo) ?_ (fun f => rfl)
    unfold processS
    refine Runs.bind (.next fun f => kind_plain E h1 rfl) ?_
    · simp only [Shape.kind, ne_eq, not_true_eq_false, if_false]
      refine Runs.bind (.next fun f => members_obj E h1 rfl) ?_
      · refine Runs.bind (processKids_without d kws s h2 hw) ?_
        refine Runs.bind (.const (setMembers_same h1 rfl)) (.next fun f => ?_)
        refine applyAll_none E h1 rfl kws fun k hk' x hx hm => ?_
        rw [h2.keys] at hm
        exact withoutD_keys (hw k hk') x hm hx
  | .null, p, k, lo, hi, h, _ => by rw [Tree] at h; exact process_leaf d kws h.1 rfl (by simp [Shape.kind])
  | .bool _, p, k, lo, hi, h, _ => by rw [Tree] at h; exact process_leaf d kws h.1 rfl (by simp [Shape.kind])
  | .num _, p, k, lo, hi, h, _ => by rw [Tree] at h; exact process_leaf d kws h.1 rfl (by simp [Shape.kind])
  | .str _, p, k, lo, hi, h, _ => by rw [Tree] at h; exact process_leaf d kws h.1 rfl (by simp [Shape.kind])
  | .arr _, p, k, lo, hi, h, _ => by
    rw [Tree] at h; obtain ⟨ids, h, -⟩ := h; exact process_leaf d kws h rfl (by simp [Shape.kind])
  | .ref .., p, k, lo, hi, h, _ => by rw [Tree] at h; exact h.elim
theorem processKids_without (d : Nat) (kws : List Kw) (s : St) :
    ∀ {xs : List (Str × Node)} {self : Nat} {ids : List (Str × Nat)} {lo hi : Nat}, TreeD s.mem xs self ids lo hi →
      (∀ k ∈ kws, WithoutD k.keys xs) → Runs (fun f => eachD ((ops E f).process d kws) ids) s (.ok ids) s
  | [], _, ids, _, _, h, _ => by rw [TreeD] at h; rw [h.1]; exact .pure
  | (k, x) :: xs, _, ids, _, _, h, hw => by
    rw [TreeD] at h; obtain ⟨mid, rest, rfl, h1, h2⟩ := h
    have hw : ∀ a ∈ kws, k ∉ a.keys ∧ Without a.keys x ∧ WithoutD a.keys xs := fun a ha => by
      have := hw a ha; rwa [WithoutD] at this
    unfold eachD
    refine Runs.bind (process_without d kws s h1 fun a ha => (hw a ha).2.1) ?_
    exact Runs.bind (processKids_without d kws s h2 fun a ha => (hw a ha).2.2) .pure
theorem process_leaf (d : Nat) (kws : List Kw) {s : St} {lo : Nat} {c : Cell} (h : s.mem[lo]? = some c)
    (hr : c.shape.isRef = false) (hk : c.shape.kind ≠ .object) : Runs (fun f => (ops E f).process d kws lo) s (.ok lo) s := by
  refine ⟨2, fun f hf => ?_⟩
  obtain ⟨f, rfl⟩ : ∃ g, f = g + 1 + 1 := ⟨f - 2, by omega⟩
  change processS E (ops E (f + 1)) d kws lo s = _
  unfold processS
  rw [M.bind_ok (kind_plain E h hr), if_pos hk]
  rfl
end

/-- `JsonSchema(value, vocabulary)` of a list or dictionary: the objects are there, the rest is as before. -/
theorem newDocument_spec {v : Val} (hv : (∃ xs, v = .list xs) ∨ ∃ kvs, v = .dict kvs) (voc : List Kw) (s : St) :
    ∃ ext, Tree (s.mem ++ ext) (wrap v) none [] s.mem.length (s.mem.length + ext.length) ∧
      newDocument v voc s = (.ok s.docs.length, { s with mem := s.mem ++ ext, docs := s.docs ++ [⟨s.mem.length, false, voc, [], none⟩] }) := by
  obtain ⟨ext, e, h⟩ := build_spec v none [] s.mem
  refine ⟨ext, h, ?_⟩
  rcases hv with ⟨xs, rfl⟩ | ⟨xs, rfl⟩
  · change (state >>= fun s => setMem (build (.list xs) none [] s.mem).2 >>= fun _ =>
      newSchema ⟨(build (.list xs) none [] s.mem).1, false, voc, [], none⟩) s = _
    rw [M.bind_ok (state_apply s), e]
    rfl
  · change (state >>= fun s => setMem (build (.dict xs) none [] s.mem).2 >>= fun _ =>
      newSchema ⟨(build (.dict xs) none [] s.mem).1, false, voc, [], none⟩) s = _
    rw [M.bind_ok (state_apply s), e]
    rfl

/-- Loading a document to which no applicator applies only marks it. -/
theorem load_without {s : St} {d : Nat} {x : Schema} (hd : s.docs[d]? = some x) {n : Node} {p : Option Nat} {k : Str} {hi : Nat}
    (ht : Tree s.mem n p k x.value hi) (hw : ∀ k ∈ x.vocabulary, k.isAssertion = false → Without k.keys n) :
    Runs (fun f => (ops E f).load d) s (.ok ()) { s with docs := s.docs.set d { x with ready := true } } := by
  by_cases hr : x.ready = true
  · have e : ({ x with ready := true } : Schema) = x := by cases x; cases hr; rfl
    have e' : ({ s with docs := s.docs.set d { x with ready := true } } : St) = s := by
      obtain ⟨h1, h2⟩ := List.getElem?_eq_some_iff.1 hd
      rw [e]
      have : s.docs.set d x = s.docs := by rw [← h2]; exact List.set_getElem_self h1
      rw [this]
    rw [e']
    refine .next fun f => ?_
    change loadS (ops E f) d s = _
    unfold loadS
    rw [M.bind_ok (schema_apply hd), if_pos hr]
    rfl
  · refine Runs.shift (g := fun f => loadS (ops E f) d) ?_ (fun f => rfl)
    unfold loadS
    refine Runs.bind (.const (schema_apply hd)) ?_
    simp only [hr, Bool.false_eq_true, if_false]
    refine Runs.bind (process_without E d _ s ht fun k hk => ?_) ?_
    · simp only [List.mem_filter, Bool.not_eq_true', ] at hk
      exact hw k hk.1 hk.2
    · exact Runs.bind (.const (schema_apply hd)) (.const rfl)

theorem load_eq (f d : Nat) : (ops E (f + 1)).load d = loadS (ops E f) d := rfl

end Verif.Obj
