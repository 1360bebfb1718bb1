import Verif.Proofs.LoadCore
/-! # The core keywords on one object -/

namespace Verif.Obj
open Verif Verif.Spec

theorem mem_del {α : Type} {a k : Str} (h : k ≠ a) (d : List (Str × α)) : k ∈ (dictDel a d).map Prod.fst ↔ k ∈ d.map Prod.fst := by
  induction d with
  | nil => simp [dictDel]
  | cons p d ih =>
    obtain ⟨k', x⟩ := p
    unfold dictDel
    split
    · next e => subst e; simp [h]
    · simp [ih]

theorem get_del {α : Type} {a k : Str} (h : k ≠ a) (d : List (Str × α)) : dictGet k (dictDel a d) = dictGet k d := by
  induction d with
  | nil => simp [dictDel]
  | cons p d ih =>
    obtain ⟨k', x⟩ := p
    unfold dictDel
    split
    · next e =>
      subst e
      have : ¬ k' = k := fun e => h e.symm
      simp [dictGet, this]
    · simp [dictGet, ih]

theorem del_absent {α : Type} {a : Str} {d : List (Str × α)} (h : a ∉ d.map Prod.fst) : dictDel a d = d := by
  induction d with
  | nil => rfl
  | cons p d ih =>
    obtain ⟨k', x⟩ := p
    simp only [List.map_cons, List.mem_cons, not_or] at h
    unfold dictDel
    rw [if_neg (fun e => h.1 e.symm), ih h.2]

theorem idKey_del {α : Type} (d : List (Str × α)) : idKey ((dictDel c!"$anchor" d).map Prod.fst) = idKey (d.map Prod.fst) := by
  unfold idKey
  simp only [mem_del (a := c!"$anchor") (k := c!"$id") (by decide) d]

theorem idKey_ne (ks : List Str) : idKey ks ≠ c!"$anchor" := by
  unfold idKey; split <;> decide

theorem Up.sibling {m : Mem} {i r top : Nat} {ks : List Str} {c c' : Cell} (h : Up m i ks top) (hc : m[i]? = some c) (hr : m[r]? = some c')
    (hp : c'.parent = c.parent) (hk : c'.key = c.key) (hlt : i ≤ r) : ∃ top', Up m r ks top' ∧ (c.parent ≠ none → top' = top) := by
  cases h with
  | top h1 h2 =>
    rw [hc] at h1; cases h1
    exact ⟨r, .top hr (hp.trans h2), fun h => absurd h2 h⟩
  | step h1 h2 h3 h4 =>
    rw [hc] at h1; cases h1
    rw [← hk]
    exact ⟨top, .step hr (hp.trans h2) (by omega) h4, fun _ => rfl⟩

variable (E : Env)

/-- The target of a reference. -/
def RefTarget (d : Nat) (t : Str) (e : Nat) (ptr : List Str) : Prop :=
  ∃ u b, Uri.parse E.ip t = .ok u ∧ Pointer.parse u.fragment = .ok ptr ∧ Uri.baseUri E.ip u = .ok b ∧ (Uri.truth b = false → e = d)

/-- What must hold of the text of an embedded identifier, `tk` being the members of the root. -/
def IdText (tk : List Str) (t : Str) : Prop :=
  ∃ u, Uri.parse E.ip t = .ok u ∧ u.fragment = [] ∧ (Uri.isAbsolute E.ip u = .ok true ∨ c!"$id" ∈ tk ∨ c!"id" ∈ tk)

theorem any_id {α : Type} (d : List (Str × α)) : (Kw.id.keys.any fun x => dictHas x d) = true ↔ c!"$id" ∈ d.map Prod.fst ∨ c!"id" ∈ d.map Prod.fst := by
  simp only [Kw.keys, List.any_cons, List.any_nil, Bool.or_false, Bool.or_eq_true, dictHas_iff]

theorem any_anchor {α : Type} (d : List (Str × α)) : (Kw.anchor.keys.any fun x => dictHas x d) = true ↔ c!"$anchor" ∈ d.map Prod.fst := by
  simp only [Kw.keys, List.any_cons, List.any_nil, Bool.or_false, dictHas_iff]

theorem any_ref {α : Type} (d : List (Str × α)) : (Kw.ref.keys.any fun x => dictHas x d) = true ↔ c!"$ref" ∈ d.map Prod.fst := by
  simp only [Kw.keys, List.any_cons, List.any_nil, Bool.or_false, dictHas_iff]

theorem IdPast.text {s : St} {n top : Nat} {kvs : List (Str × Nat)} {tk : List Str} {ks : List Str} (h : IdPast E s n kvs) (hup : Up s.mem n ks top)
    (htop : ∃ ct kt, s.mem[top]? = some ct ∧ ct.shape = .obj kt ∧ kt.map Prod.fst = tk) :
    ∃ t, TextOf E s kvs (idKey (kvs.map Prod.fst)) t ∧ IdText E tk t := by
  obtain ⟨t, u, h1, h2, h3, h4⟩ := h
  refine ⟨t, h1, u, h2, h3, ?_⟩
  rcases h4 with h4 | ⟨top', kt', e1, e2, e3⟩
  · exact .inl h4
  · right
    rw [hup.root] at e1; cases e1
    obtain ⟨ct, kt, a, b, rfl⟩ := htop
    cases e2 with
    | obj hc hs => rw [a] at hc; cases hc; rw [b] at hs; cases hs; exact e3
    | ref hc hs => rw [a] at hc; cases hc; rw [b] at hs; cases hs

/-- `IdKeyword` on `n`, which stands for the object `lo` with the parents `pre`. -/
theorem id_step {d n lo r f top : Nat} {s s' : St} {c : Cell} {kvs : List (Str × Nat)} {pre tk : List Str}
    (hc : s.mem[n]? = some c) (ho : Own s n kvs) (hf : Fresh d s) (hup : Up s.mem n pre top)
    (htop : c.parent ≠ none → ∃ ct kt, s.mem[top]? = some ct ∧ ct.shape = .obj kt ∧ kt.map Prod.fst = tk)
    (h : applyAll E (ops E f) d [.id] n s = (.ok r, s')) :
    r = n ∧ s'.mem = s.mem ∧ anch d s' = anch d s ∧ Frame d lo lo s s' ∧
      ((c!"$id" ∈ kvs.map Prod.fst ∨ c!"id" ∈ kvs.map Prod.fst) → c.parent ≠ none → c!"enum" ∈ pre ∨
        (c.shape.isRef = false ∧ ∃ t, TextOf E s kvs (idKey (kvs.map Prod.fst)) t ∧ IdText E tk t)) := by
  unfold applyAll at h
  peel h b s1 h1
  obtain ⟨rfl, hb⟩ := canApply_inv E ho h1
  cases b with
  | false =>
    cases h
    refine ⟨rfl, rfl, rfl, .refl hf, fun h => ?_⟩
    rw [← any_id, ← hb] at h; cases h
  | true =>
    simp only [if_true] at h
    peel h n1 s2 h2
    have hroot : c.parent ≠ none → ∀ top', root s1.mem n = .ok top' → ∃ kt, Own s1 top' kt := by
      intro hp top' e
      rw [hup.root] at e; cases e
      obtain ⟨ct, kt, a, b, -⟩ := htop hp
      exact ⟨kt, .obj a b⟩
    obtain ⟨rfl, e1, e2, e3, e4⟩ := applyId_inv E hc ho hf hroot h2
    cases h
    refine ⟨rfl, e1, e2, ?_, fun _ hp => ?_⟩
    · exact ⟨e3.len, fun j _ _ => by rw [e1], e3.docs, e3.slots, e3.fresh⟩
    · rcases e4 hp with ⟨ks, hks, hen⟩ | ⟨hr, hp'⟩
      · rw [hup.path] at hks; cases hks; exact .inl hen
      · exact .inr ⟨hr, hp'.text E hup (htop hp)⟩

/-- The result of the core keywords on the object `lo` with members `ids`. -/
structure Stepped (d lo r : Nat) (c : Cell) (ids : List (Str × Nat)) (pre tk : List Str) (s s' : St) : Prop where
  frame : Frame d lo (lo + 1) s s'
  ref : c!"$ref" ∈ ids.map Prod.fst → c!"$anchor" ∉ ids.map Prod.fst ∧ s'.mem[lo]? = some c ∧ anch d s' = anch d s ∧
    ∃ t e ptr, TextOf E s ids c!"$ref" t ∧ RefTarget E d t e ptr ∧ s.mem.length ≤ r ∧ s'.mem[r]? = some ⟨.ref lo e ptr, c.parent, c.key⟩
  plain : c!"$ref" ∉ ids.map Prod.fst → r = lo ∧ s'.mem[lo]? = some { c with shape := .obj (dictDel c!"$anchor" ids) } ∧
    (c!"$anchor" ∈ ids.map Prod.fst → ∃ t, TextOf E s ids c!"$anchor" t ∧ anch d s' = dictSet t lo (anch d s)) ∧
    (c!"$anchor" ∉ ids.map Prod.fst → anch d s' = anch d s)
  ident : (c!"$id" ∈ ids.map Prod.fst ∨ c!"id" ∈ ids.map Prod.fst) → c.parent ≠ none → c!"enum" ∈ pre ∨
    (c!"$ref" ∉ ids.map Prod.fst ∧ ∃ sb t, (∀ j, j < s.mem.length → j ≠ lo → sb.mem[j]? = s.mem[j]?) ∧
      TextOf E sb ids (idKey (ids.map Prod.fst)) t ∧ IdText E tk t)

theorem applyAll_inv {d lo r f top : Nat} {s s' : St} {c : Cell} {ids : List (Str × Nat)} {pre tk : List Str}
    (hc : s.mem[lo]? = some c) (hs : c.shape = .obj ids) (hf : Fresh d s) (hup : Up s.mem lo pre top)
    (htop : c.parent ≠ none → top ≠ lo ∧ ∃ ct kt, s.mem[top]? = some ct ∧ ct.shape = .obj kt ∧ kt.map Prod.fst = tk)
    (h : applyAll E (ops E f) d [.ref, .anchor, .id] lo s = (.ok r, s')) : Stepped E d lo r c ids pre tk s s' := by
  have hlo : lo < s.mem.length := (List.getElem?_eq_some_iff.1 hc).1
  have ho : Own s lo ids := .obj hc hs
  unfold applyAll at h
  peel h b s1 h1
  obtain ⟨rfl, hb⟩ := canApply_inv E ho h1
  cases b with
  | true =>
    have hR := any_ref ids |>.1 hb.symm
    simp only [if_true] at h
    peel h n1 s2 h2
    obtain ⟨t, u, ptr, b', e, ht, hu, hp, hbu, hl, -, hle, hcell, ⟨x, hx, hxr⟩, hd, hmem, hfr⟩ := applyRef_inv E hc ho hf h2
    have hc2 : s2.mem[lo]? = some c := (hmem lo hlo).trans hc
    have ho2 : Own s2 n1 ids := .ref hcell rfl hx hxr (.obj hc2 hs)
    unfold applyAll at h
    peel h b2 s3 h3
    obtain ⟨rfl, hb2⟩ := canApply_inv E ho2 h3
    have hlt : lo ≤ n1 := by omega
    obtain ⟨top', hup', htt⟩ := (hup.keep hfr.slots).sibling hc2 hcell rfl rfl hlt
    cases b2 with
    | true =>
      simp only [if_true] at h
      peel h n2 s4 h4
      obtain ⟨e1, -⟩ := applyAnchor_inv E hcell ho2 hfr.fresh h4
      cases e1
    | false =>
      have hA : c!"$anchor" ∉ ids.map Prod.fst := by rw [← any_anchor, ← hb2]; simp
      simp only [Bool.false_eq_true, if_false] at h
      have htop' : c.parent ≠ none → ∃ ct kt, s3.mem[top']? = some ct ∧ ct.shape = .obj kt ∧ kt.map Prod.fst = tk := by
        intro hp
        obtain ⟨-, ct, kt, a1, a2, a3⟩ := htop hp
        rw [htt hp]
        exact ⟨ct, kt, (hmem top (List.getElem?_eq_some_iff.1 a1).1).trans a1, a2, a3⟩
      obtain ⟨rfl, e1, e2, e3, e4⟩ := id_step E (lo := lo) hcell ho2 hfr.fresh hup' htop' h
      refine ⟨hfr.trans (e3.wider (Nat.le_refl _) (by omega)), fun _ => ?_, fun h => absurd hR h, fun h hp => ?_⟩
      · refine ⟨hA, by rw [e1]; exact hc2, e2.trans (anch_eq hd), t, e, ptr, ht, ⟨u, b', hu, hp, hbu, hl⟩, hle, by rw [e1]; exact hcell⟩
      · rcases e4 h hp with h | ⟨h, -⟩
        · exact .inl h
        · cases h
  | false =>
    have hR : c!"$ref" ∉ ids.map Prod.fst := by rw [← any_ref, ← hb]; simp
    simp only [Bool.false_eq_true, if_false] at h
    unfold applyAll at h
    peel h b2 s3 h3
    obtain ⟨rfl, hb2⟩ := canApply_inv E ho h3
    cases b2 with
    | true =>
      have hA := any_anchor ids |>.1 hb2.symm
      simp only [if_true] at h
      peel h n2 s4 h4
      obtain ⟨-, rfl, t, ht, ha, hm, hfr⟩ := applyAnchor_inv E hc ho hf h4
      rw [if_pos (dictHas_iff.2 hA)] at hm
      have hc4 : s4.mem[n2]? = some { c with shape := .obj (dictDel c!"$anchor" ids) } := by
        rw [hm, List.getElem?_set_self hlo]
      have ho4 : Own s4 n2 (dictDel c!"$anchor" ids) := .obj hc4 rfl
      have htop' : c.parent ≠ none → ∃ ct kt, s4.mem[top]? = some ct ∧ ct.shape = .obj kt ∧ kt.map Prod.fst = tk := by
        intro hp
        obtain ⟨hne, ct, kt, a1, a2, a3⟩ := htop hp
        exact ⟨ct, kt, by rw [hm, List.getElem?_set_ne (Ne.symm hne)]; exact a1, a2, a3⟩
      obtain ⟨rfl, e1, e2, e3, e4⟩ := id_step E (lo := n2) hc4 ho4 hfr.fresh (hup.keep hfr.slots) htop' h
      refine ⟨hfr.trans (e3.wider (Nat.le_refl _) (by omega)), fun h => absurd h hR, fun _ => ⟨rfl, by rw [e1]; exact hc4, fun _ =>
        ⟨t, ht, e2.trans ha⟩, fun h => absurd hA h⟩, fun h hp => ?_⟩
      have h : c!"$id" ∈ (dictDel c!"$anchor" ids).map Prod.fst ∨ c!"id" ∈ (dictDel c!"$anchor" ids).map Prod.fst := by
        rw [mem_del (by decide), mem_del (by decide)]; exact h
      rcases e4 h hp with h | ⟨-, t', h1', h2'⟩
      · exact .inl h
      · refine .inr ⟨hR, s4, t', fun j _ hj => by rw [hm, List.getElem?_set_ne (Ne.symm hj)], ?_, h2'⟩
        rw [idKey_del] at h1'
        obtain ⟨x, g, nd, hx, hn, rfl⟩ := h1'
        rw [get_del (idKey_ne _)] at hx
        exact ⟨x, g, nd, hx, hn, rfl⟩
    | false =>
      have hA : c!"$anchor" ∉ ids.map Prod.fst := by rw [← any_anchor, ← hb2]; simp
      simp only [Bool.false_eq_true, if_false] at h
      obtain ⟨rfl, e1, e2, e3, e4⟩ := id_step E (lo := lo) hc ho hf hup (fun hp => (htop hp).2) h
      refine ⟨e3.wider (Nat.le_refl _) (by omega), fun h => absurd h hR, fun _ => ⟨rfl, ?_, fun h => absurd h hA, fun _ => e2⟩, fun h hp => ?_⟩
      · rw [e1, del_absent hA, ← hs]; exact hc
      · rcases e4 h hp with h | ⟨-, t', h1', h2'⟩
        · exact .inl h
        · exact .inr ⟨hR, s3, t', fun _ _ _ => rfl, h1', h2'⟩

end Verif.Obj
