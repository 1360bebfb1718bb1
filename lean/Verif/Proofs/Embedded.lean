import Verif.Proofs.Linked
import Verif.Spec.Embedded
/-! # Loading a document with named objects inside -/

namespace Verif.Obj
open Verif Verif.Spec

variable {E : Env}

/-- The root is an object, and `base` is its name if it has one. -/
def BaseAt (m : Mem) (top : Nat) (base : Option Str) : Prop :=
  ∃ ct kt, m[top]? = some ct ∧ ct.shape = .obj kt ∧ ∀ b, base = some b → ∃ x q p, dictGet (nameKey kt) kt = some x ∧ m[x]? = some ⟨.str b, q, p⟩

theorem nameKey_has {α : Type} {kt : List (Str × α)} {x : α} (h : dictGet (nameKey kt) kt = some x) :
    dictHas c!"$id" kt = true ∧ dictGet c!"$id" kt = some x ∨ dictHas c!"$id" kt = false ∧ dictHas c!"id" kt = true ∧ dictGet c!"id" kt = some x := by
  cases e : dictHas c!"$id" kt with
  | true => simp only [nameKey, e, if_true] at h; exact .inl ⟨rfl, h⟩
  | false =>
    simp only [nameKey, e, Bool.false_eq_true, if_false] at h
    exact .inr ⟨rfl, dictHas_iff.2 (List.mem_map.2 ⟨_, dictGet_mem h, rfl⟩), h⟩

theorem childUri_runs {s : St} {lo top : Nat} {pre : List Str} {base : Option Str} (hup : Up s.mem lo pre top) (hb : BaseAt s.mem top base) {u v : Uri}
    (h : fullUri E.ip base u = some v) : Runs (fun f => childUri E (ops E f) lo u) s (.ok v) s := by
  unfold fullUri at h
  unfold childUri
  split at h
  · next e =>
    cases h
    exact Runs.bind (a := true) (s1 := s) (.const (by rw [e]; rfl)) (by simp only [if_true]; exact .pure)
  · next e =>
    refine Runs.bind (a := false) (s1 := s) (.const (by rw [e]; rfl)) ?_
    simp only [Bool.false_eq_true, if_false]
    split at h
    · next b =>
      split at h
      · next b' eb =>
        split at h
        · next v' ev =>
          cases h
          obtain ⟨ct, kt, h1, h2, h3⟩ := hb
          obtain ⟨x, q, p, h4, h5⟩ := h3 b rfl
          refine Runs.bind (.const (state_apply s)) ?_
          refine Runs.bind (a := top) (s1 := s) (.const (by rw [hup.root]; rfl)) ?_
          have hm := members_runs E h1 h2
          refine Runs.bind hm ?_
          have tail : Runs (fun _ => (lift (Uri.parse E.ip b) : M Uri) >>= fun b => lift (Uri.resolve E.ip b u)) s (.ok v) s :=
            Runs.bind (a := b') (s1 := s) (.const (by rw [eb]; rfl)) (.const (by rw [ev]; rfl))
          rcases nameKey_has h4 with ⟨a1, a2⟩ | ⟨a1, a2, a3⟩
          · simp only [a1, if_true]
            exact Runs.bind (itemText_runs E hm a2 h5) tail
          · simp only [a1, a2, Bool.false_eq_true, if_false, if_true]
            exact Runs.bind (itemText_runs E hm a3 h5) tail
        · cases h
      · cases h
    · cases h
  · cases h

theorem idText_runs {s : St} {n : Nat} {c : Cell} {ids : List (Str × Nat)} (hc : s.mem[n]? = some c) (hs : c.shape = .obj ids) {x : Nat} {q : Option Nat} {p t : Str}
    (hx : dictGet (nameKey ids) ids = some x) (hxc : s.mem[x]? = some ⟨.str t, q, p⟩) : Runs (fun f => idText E (ops E f) n) s (.ok t) s := by
  have hm := members_runs E hc hs
  unfold idText
  refine Runs.bind hm ?_
  rcases nameKey_has hx with ⟨a1, a2⟩ | ⟨a1, a2, a3⟩
  · simp only [a1, if_true]
    exact itemText_runs E hm a2 hxc
  · simp only [a1, Bool.false_eq_true, if_false]
    exact itemText_runs E hm a3 hxc

theorem fullName_inv {ip : Rfc3986.IpRe} {base : Option Str} {t k : Str} (h : fullName ip base t = some k) :
    ∃ u v, Uri.parse ip t = .ok u ∧ u.fragment = [] ∧ fullUri ip base u = some v ∧ Uri.isAbsolute ip v = .ok true ∧ Store.baseText ip v = .ok k := by
  unfold fullName at h
  split at h
  · next u hu =>
    split at h
    · next hf =>
      split at h
      · next v hv =>
        split at h
        · next ha =>
          split at h
          · next k' hk => cases h; exact ⟨u, v, hu, hf, hv, ha, hk⟩
          · cases h
        · cases h
      · cases h
    · cases h
  · cases h

/-- A schema made for an embedded object. -/
def kid (n : Nat) (voc : List Kw) (v : Uri) : Schema := ⟨n, false, voc, [], some v⟩

/-- `IdKeyword.apply` on a named object inside a document. -/
theorem applyId_child {s : St} {d lo top j : Nat} {pre : List Str} {base : Option Str} {x : Schema} {ids : List (Str × Nat)} {k : Str}
    (hc : s.mem[lo]? = some ⟨.obj ids, some j, k⟩) (hup : Up s.mem lo pre top) (hb : BaseAt s.mem top base) (hd : s.docs[d]? = some x)
    {y : Nat} {q : Option Nat} {p t : Str} (hy : dictGet (nameKey ids) ids = some y) (hyc : s.mem[y]? = some ⟨.str t, q, p⟩)
    {key : Str} (hne : c!"enum" ∉ pre) (h : fullName E.ip base t = some key) :
    ∃ v, Runs (fun f => applyCore E (ops E f) d lo .id) s (.ok lo)
      { s with docs := s.docs ++ [kid lo x.vocabulary v], storage := dictSet key s.docs.length s.storage } := by
  obtain ⟨u, v, h1, h2, h3, h4, h5⟩ := fullName_inv h
  refine ⟨v, ?_⟩
  change Runs (fun f => applyId E (ops E f) d lo) _ _ _
  unfold applyId
  refine Runs.bind (idText_runs hc rfl hy hyc) ?_
  refine Runs.bind (a := u) (s1 := s) (.const (by rw [h1]; rfl)) ?_
  simp only [h2, ne_eq, not_true_eq_false, if_false]
  refine Runs.bind (.const (cell_apply hc)) ?_
  simp only
  refine Runs.bind (.const (state_apply s)) ?_
  refine Runs.bind (a := pre) (s1 := s) (.const (by rw [hup.path]; rfl)) ?_
  have hcon : pre.contains c!"enum" = false := by
    rw [Bool.eq_false_iff]; intro e; exact hne (List.contains_iff_mem.1 e)
  simp only [hcon, Bool.false_eq_true, if_false]
  refine Runs.bind (childUri_runs hup hb h3) ?_
  refine Runs.bind (.const (schema_apply hd)) ?_
  refine Runs.bind (a := s.docs.length) (s1 := { s with docs := s.docs ++ [kid lo x.vocabulary v] }) (.const rfl) ?_
  refine Runs.bind (a := ()) (.const ?_) .pure
  unfold storeAdd
  rw [M.bind_ok (show (lift (Uri.isAbsolute E.ip v) : M Bool) _ = (.ok true, _) by rw [h4]; rfl)]
  rw [if_pos rfl, M.bind_ok (show (lift (Store.baseText E.ip v) : M Str) _ = (.ok key, _) by rw [h5]; rfl), M.bind_ok (state_apply _)]
  rfl

/-- In `enum`, nothing happens. -/
theorem applyId_enum {s : St} {d lo top j : Nat} {pre : List Str} {ids : List (Str × Nat)} {k : Str}
    (hc : s.mem[lo]? = some ⟨.obj ids, some j, k⟩) (hup : Up s.mem lo pre top)
    {y : Nat} {q : Option Nat} {p t : Str} (hy : dictGet (nameKey ids) ids = some y) (hyc : s.mem[y]? = some ⟨.str t, q, p⟩)
    {u : Uri} (hne : c!"enum" ∈ pre) (h1 : Uri.parse E.ip t = .ok u) (h2 : u.fragment = []) :
    Runs (fun f => applyCore E (ops E f) d lo .id) s (.ok lo) s := by
  change Runs (fun f => applyId E (ops E f) d lo) _ _ _
  unfold applyId
  refine Runs.bind (idText_runs hc rfl hy hyc) ?_
  refine Runs.bind (a := u) (s1 := s) (.const (by rw [h1]; rfl)) ?_
  simp only [h2, ne_eq, not_true_eq_false, if_false]
  refine Runs.bind (.const (cell_apply hc)) ?_
  simp only
  refine Runs.bind (.const (state_apply s)) ?_
  refine Runs.bind (a := pre) (s1 := s) (.const (by rw [hup.path]; rfl)) ?_
  simp only [List.contains_iff_mem.2 hne, if_true]
  exact .pure

/-- `IdKeyword.apply` on the root. -/
theorem applyId_root {s : St} {d lo : Nat} {x : Schema} {ids : List (Str × Nat)} {k : Str}
    (hc : s.mem[lo]? = some ⟨.obj ids, none, k⟩) (hd : s.docs[d]? = some x)
    {y : Nat} {q : Option Nat} {p t : Str} (hy : dictGet (nameKey ids) ids = some y) (hyc : s.mem[y]? = some ⟨.str t, q, p⟩)
    {u : Uri} {key : Str} (h1 : Uri.parse E.ip t = .ok u) (h2 : u.fragment = []) (h4 : Uri.isAbsolute E.ip u = .ok true) (h5 : Store.baseText E.ip u = .ok key) :
    Runs (fun f => applyCore E (ops E f) d lo .id) s (.ok lo)
      { s with docs := s.docs.set d { x with ident := some u }, storage := if dictHas key s.storage then s.storage else dictSet key d s.storage } := by
  change Runs (fun f => applyId E (ops E f) d lo) _ _ _
  unfold applyId
  refine Runs.bind (idText_runs hc rfl hy hyc) ?_
  refine Runs.bind (a := u) (s1 := s) (.const (by rw [h1]; rfl)) ?_
  simp only [h2, ne_eq, not_true_eq_false, if_false]
  refine Runs.bind (.const (cell_apply hc)) ?_
  simp only
  refine Runs.bind (.const (schema_apply hd)) ?_
  refine Runs.bind (a := ()) (s1 := { s with docs := s.docs.set d { x with ident := some u } }) (.const rfl) ?_
  refine Runs.bind (a := key) (s1 := { s with docs := s.docs.set d { x with ident := some u } }) (.const (by rw [h5]; rfl)) ?_
  refine Runs.bind (.const (state_apply _)) ?_
  simp only
  cases hh : dictHas key s.storage with
  | true => simp only [if_true]; exact .pure
  | false =>
    simp only [Bool.false_eq_true, if_false]
    refine Runs.bind (a := ()) (.const ?_) .pure
    unfold storeAdd
    rw [M.bind_ok (show (lift (Uri.isAbsolute E.ip u) : M Bool) _ = (.ok true, _) by rw [h4]; rfl)]
    rw [if_pos rfl, M.bind_ok (show (lift (Store.baseText E.ip u) : M Str) _ = (.ok key, _) by rw [h5]; rfl), M.bind_ok (state_apply _)]
    rfl

end Verif.Obj
