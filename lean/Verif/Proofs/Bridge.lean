import Verif.Spec.Bridge
import Verif.Proofs.Cache
import Verif.Proofs.Refs
/-! # The object model and the tree model read a loaded document alike -/

namespace Verif.Obj
open Verif

variable {m : Mem}

theorem ShowsD.get (k : Str) : ∀ {kvs : List (Str × Node)} {ids : List (Str × Nat)}, ShowsD m kvs ids →
    (dictGet k kvs = none ∧ dictGet k ids = none) ∨ ∃ x i, dictGet k kvs = some x ∧ dictGet k ids = some i ∧ Shows m x i
  | [], ids, h => by rw [ShowsD] at h; subst h; exact .inl ⟨rfl, rfl⟩
  | (k', x) :: xs, ids, h => by
    rw [ShowsD] at h
    obtain ⟨i, rest, rfl, h1, h2⟩ := h
    by_cases e : k' = k
    · exact .inr ⟨x, i, by simp [dictGet, e], by simp [dictGet, e], h1⟩
    · simp only [dictGet, if_neg e]
      exact ShowsD.get k h2

theorem ShowsD.set (k : Str) {x : Node} {i : Nat} (hx : Shows m x i) : ∀ {kvs : List (Str × Node)} {ids : List (Str × Nat)}, ShowsD m kvs ids →
    ShowsD m (dictSet k x kvs) (dictSet k i ids)
  | [], ids, h => by
    rw [ShowsD] at h; subst h
    simp only [dictSet]
    rw [ShowsD]; exact ⟨i, [], rfl, hx, by rw [ShowsD]⟩
  | (k', x') :: xs, ids, h => by
    rw [ShowsD] at h
    obtain ⟨i', rest, rfl, h1, h2⟩ := h
    simp only [dictSet]
    by_cases e : k' = k
    · rw [if_pos e, if_pos e, ShowsD]; exact ⟨i, rest, rfl, hx, h2⟩
    · rw [if_neg e, if_neg e, ShowsD]; exact ⟨i', _, rfl, h1, ShowsD.set k hx h2⟩

theorem ShowsD.filter (p : Str → Bool) : ∀ {kvs : List (Str × Node)} {ids : List (Str × Nat)}, ShowsD m kvs ids →
    ShowsD m (kvs.filter fun x => p x.1) (ids.filter fun x => p x.1)
  | [], ids, h => by rw [ShowsD] at h; subst h; simp [ShowsD]
  | (k', x') :: xs, ids, h => by
    rw [ShowsD] at h
    obtain ⟨i', rest, rfl, h1, h2⟩ := h
    by_cases e : p k' = true
    · rw [List.filter_cons_of_pos (by simpa using e), List.filter_cons_of_pos (by simpa using e), ShowsD]
      exact ⟨i', _, rfl, h1, ShowsD.filter p h2⟩
    · rw [List.filter_cons_of_neg (by simpa using e), List.filter_cons_of_neg (by simpa using e)]
      exact ShowsD.filter p h2

theorem ShowsD.del (k : Str) : ∀ {kvs : List (Str × Node)} {ids : List (Str × Nat)}, ShowsD m kvs ids → ShowsD m (dictDel k kvs) (dictDel k ids)
  | [], ids, h => by rw [ShowsD] at h; subst h; simp [dictDel, ShowsD]
  | (k', x') :: xs, ids, h => by
    rw [ShowsD] at h
    obtain ⟨i', rest, rfl, h1, h2⟩ := h
    simp only [dictDel]
    by_cases e : k' = k
    · rw [if_pos e, if_pos e]; exact h2
    · rw [if_neg e, if_neg e, ShowsD]; exact ⟨i', _, rfl, h1, ShowsD.del k h2⟩

theorem ShowsD.fold : ∀ {kvs : List (Str × Node)} {ids : List (Str × Nat)}, ShowsD m kvs ids → ∀ {own : List (Str × Node)} {oids : List (Str × Nat)},
    ShowsD m own oids → ShowsD m (kvs.foldl (fun d p => dictSet p.1 p.2 d) own) (ids.foldl (fun d p => dictSet p.1 p.2 d) oids)
  | [], ids, h, own, oids, ho => by rw [ShowsD] at h; subst h; exact ho
  | (k', x') :: xs, ids, h, own, oids, ho => by
    rw [ShowsD] at h
    obtain ⟨i', rest, rfl, h1, h2⟩ := h
    exact ShowsD.fold h2 (ho.set k' h1)

theorem ShowsD.overlay {own theirs : List (Str × Node)} {oids tids : List (Str × Nat)} (ho : ShowsD m own oids) (ht : ShowsD m theirs tids) :
    ShowsD m (Verif.overlay own theirs) (overlayIds oids tids) := by
  unfold Verif.overlay overlayIds
  exact ht.fold (ho.filter fun k => decide (k ≠ c!"$ref"))

theorem ShowsL.get : ∀ {xs : List Node} {ids : List Nat}, ShowsL m xs ids → ∀ j : Nat,
    (xs[j]? = none ∧ ids[j]? = none) ∨ ∃ x i, xs[j]? = some x ∧ ids[j]? = some i ∧ Shows m x i
  | [], ids, h, j => by rw [ShowsL] at h; subst h; exact .inl ⟨by simp, by simp⟩
  | x :: xs, ids, h, j => by
    rw [ShowsL] at h
    obtain ⟨i, rest, rfl, h1, h2⟩ := h
    cases j with
    | zero => exact .inr ⟨x, i, rfl, rfl, h1⟩
    | succ j => simpa using ShowsL.get h2 j

theorem ShowsL.length : ∀ {xs : List Node} {ids : List Nat}, ShowsL m xs ids → ids.length = xs.length
  | [], ids, h => by rw [ShowsL] at h; subst h; rfl
  | x :: xs, ids, h => by
    rw [ShowsL] at h
    obtain ⟨i, rest, rfl, h1, h2⟩ := h
    simp [ShowsL.length h2]

theorem ShowsL.index {xs : List Node} {ids : List Nat} (h : ShowsL m xs ids) (i : Int) : Alike (Shows m) (pyIndex xs i) (pyIndex ids i) := by
  unfold pyIndex
  rw [h.length]
  simp only
  generalize (if i < 0 then i + (xs.length : Int) else i) = j
  by_cases hj : j < 0
  · simp [hj, Alike]
  · rw [if_neg hj, if_neg hj]
    rcases h.get j.toNat with ⟨e1, e2⟩ | ⟨x, y, e1, e2, hx⟩
    · rw [e1, e2]; rfl
    · rw [e1, e2]; exact hx

/-! ## Reading -/

theorem Alike.of_ok {α β : Type} {R : α → β → Prop} {a : α} {y : Res β} (h : Alike R (.ok a) y) : ∃ b, y = .ok b ∧ R a b := by
  cases y with
  | ok b => exact ⟨b, rfl, h⟩
  | err _ => exact h.elim
  | timeout => exact h.elim

theorem Alike.of_err {α β : Type} {R : α → β → Prop} {e : PyErr} {y : Res β} (h : Alike R (.err e) y) : y = .err e := by
  cases y with
  | ok b => exact h.elim
  | err e' => rw [show e = e' from h]
  | timeout => exact h.elim

theorem Alike.right_ne {α β : Type} {R : α → β → Prop} {x : Res α} {y : Res β} (h : Alike R x y) (hx : x ≠ .timeout) : y ≠ .timeout := by
  rintro rfl
  cases x with
  | timeout => exact hx rfl
  | ok _ => exact h
  | err _ => exact h

theorem view_not_ref {docs : List Doc} : ∀ {f : Nat} {n v : Node}, view docs f n = .ok v → ∀ own d p, v ≠ .ref own d p
  | 0, _, _, h => by cases h
  | f + 1, n, v, h => by
    cases n with
    | ref own d p =>
      rw [view] at h
      cases hd : docs[d]? with
      | none => simp [hd] at h
      | some D =>
        simp only [hd] at h
        cases hq : queryDoc (view docs f) D p with
        | err e => rw [hq] at h; cases h
        | timeout => rw [hq] at h; cases h
        | ok frag =>
          rw [hq, Res.ok_bind] at h
          cases hv : view docs f frag with
          | err e => rw [hv] at h; cases h
          | timeout => rw [hv] at h; cases h
          | ok w =>
            rw [hv, Res.ok_bind] at h
            cases w with
            | ref own' d' p' => exact absurd rfl (view_not_ref hv own' d' p')
            | _ => cases h; simp
    | _ => cases h; simp

section
variable {s : St} {docs : List Doc}

/-- What is read of the object `i`, when the tree shows `r`. -/
structure Reads (s : St) (r : Res Node) (i g : Nat) : Prop where
  kind : ∀ h, g ≤ h → Alike (fun v k => k = v.kind) r ((ropsOf s h).kind i)
  members : ∀ kvs, r = .ok (.obj kvs) → ∃ ids, (∀ h, g ≤ h → (ropsOf s h).members i = .ok ids) ∧ ShowsD s.mem kvs ids
  elems : ∀ xs, r = .ok (.arr xs) → ∃ ids, (∀ h, g ≤ h → (ropsOf s h).elems i = .ok ids) ∧ ShowsL s.mem xs ids

theorem cellOf_eq {i : Nat} {c : Cell} (h : s.mem[i]? = some c) : cellOf s i = .ok c := by simp [cellOf, h]

theorem reads_plain {n : Node} (hn : ∀ own d p, n ≠ .ref own d p) {i : Nat} (hs : Shows s.mem n i) : Reads s (.ok n) i 1 := by
  refine ⟨fun h hh => ?_, fun kvs e => ?_, fun xs e => ?_⟩
  · obtain ⟨h, rfl⟩ : ∃ k, h = k + 1 := ⟨h - 1, by omega⟩
    change Alike _ _ (kindR s (ropsOf s h) i)
    unfold kindR
    cases n with
    | ref own d p => exact absurd rfl (hn own d p)
    | arr xs => rw [Shows] at hs; obtain ⟨c, ids, h1, h2, h3⟩ := hs; simp only [cellOf_eq h1, Res.ok_bind, h2]; rfl
    | obj xs => rw [Shows] at hs; obtain ⟨c, ids, h1, h2, h3⟩ := hs; simp only [cellOf_eq h1, Res.ok_bind, h2]; rfl
    | _ => rw [Shows] at hs; obtain ⟨c, h1, h2⟩ := hs; simp only [cellOf_eq h1, Res.ok_bind, h2]; rfl
  · cases e
    rw [Shows] at hs; obtain ⟨c, ids, h1, h2, h3⟩ := hs
    refine ⟨ids, fun h hh => ?_, h3⟩
    obtain ⟨h, rfl⟩ : ∃ k, h = k + 1 := ⟨h - 1, by omega⟩
    change membersR s (ropsOf s h) i = _
    unfold membersR
    simp only [cellOf_eq h1, Res.ok_bind, h2]
  · cases e
    rw [Shows] at hs; obtain ⟨c, ids, h1, h2, h3⟩ := hs
    refine ⟨ids, fun h hh => ?_, h3⟩
    obtain ⟨h, rfl⟩ : ∃ k, h = k + 1 := ⟨h - 1, by omega⟩
    change elemsR s (ropsOf s h) i = _
    unfold elemsR
    simp only [cellOf_eq h1, Res.ok_bind, h2]

/-- Whether a number is an element. -/
theorem ShowsL.intIn (z : Int) : ∀ {xs : List Node} {ids : List Nat}, ShowsL s.mem xs ids → intInOf s z ids = intInArr z xs
  | [], ids, h => by rw [ShowsL] at h; subst h; rfl
  | x :: xs, ids, h => by
    rw [ShowsL] at h
    obtain ⟨i, rest, rfl, h1, h2⟩ := h
    have ih := ShowsL.intIn z h2
    cases x with
    | arr _ => rw [Shows] at h1; obtain ⟨c, _, e1, e2, _⟩ := h1; simp only [intInOf, intInArr, cellOf_eq e1, Res.ok_bind, e2, ih]
    | obj _ => rw [Shows] at h1; obtain ⟨c, _, e1, e2, _⟩ := h1; simp only [intInOf, intInArr, cellOf_eq e1, Res.ok_bind, e2, ih]
    | ref _ _ _ => rw [Shows] at h1; obtain ⟨c, _, _, _, e1, e2, _⟩ := h1; simp only [intInOf, intInArr, cellOf_eq e1, Res.ok_bind, e2]
    | _ => rw [Shows] at h1; obtain ⟨c, e1, e2⟩ := h1; simp only [intInOf, intInArr, cellOf_eq e1, Res.ok_bind, e2, ih]

theorem walkR_cons {r : ROps} (k : Str) (ks : List Str) (i : Nat) : walkR s r i (k :: ks) = (walkR s r i [k] >>= fun j => walkR s r j ks) := by
  rw [walkR, walkR, Res.bind_assoc]
  congr 1
  funext v
  cases v with
  | array =>
    simp only [Res.bind_assoc]
    congr 1
    funext c
    obtain ⟨sh, p, q⟩ := c
    cases sh with
    | arr xs =>
      simp only
      by_cases ha : (!isAscii k) = true
      · rw [if_pos ha, if_pos ha]; rfl
      · rw [if_neg ha, if_neg ha]
        cases pyInt k with
        | none => rfl
        | some z => simp only [Res.bind_assoc]; congr 1
    | _ =>
      simp only
      by_cases ha : (!isAscii k) = true
      · rw [if_pos ha, if_pos ha]; rfl
      · rw [if_neg ha, if_neg ha]
        cases pyInt k with
        | none => rfl
        | some z =>
          simp only [Res.bind_assoc]
          congr 1; funext xs; congr 1; funext b
          cases b
          · rfl
          · simp only [if_true, Res.bind_assoc]; congr 1
  | object =>
    simp only [Res.bind_assoc]
    congr 1
    funext kvs
    cases dictGet k kvs <;> rfl
  | _ => rfl

/-- The loop of `query`. -/
theorem walk_alike {vw : Node → Res Node} (hv : ∀ n i, vw n ≠ .timeout → Shows s.mem n i → ∃ g, Reads s (vw n) i g)
    (hp : ∀ n, (∀ own d p, n ≠ .ref own d p) → vw n ≠ .timeout → vw n = .ok n) (hr : ∀ n own d p, vw n ≠ .ok (.ref own d p)) :
    ∀ (ks : List Str) (n : Node) (i : Nat), queryLoop vw n ks ≠ .timeout → Shows s.mem n i →
      ∃ g, ∀ h, g ≤ h → Alike (Shows s.mem) (queryLoop vw n ks) (walkR s (ropsOf s h) i ks) := by
  intro ks
  induction ks with
  | nil => exact fun n i _ hs => ⟨0, fun h _ => hs⟩
  | cons k ks ih =>
    intro n i ht hs
    rw [queryLoop] at ht
    have hvt : vw n ≠ .timeout := by intro e; rw [e] at ht; exact ht rfl
    obtain ⟨g, hg⟩ := hv n i hvt hs
    cases hvn : vw n with
    | timeout => exact absurd hvn hvt
    | err e =>
      refine ⟨g, fun h hh => ?_⟩
      have := hg.kind h hh
      rw [hvn] at this
      rw [queryLoop, hvn, walkR]
      cases hk : (ropsOf s h).kind i with
      | err e' => rw [hk] at this; exact this
      | ok _ => rw [hk] at this; exact this.elim
      | timeout => rw [hk] at this; exact this.elim
    | ok v =>
      have hkind : ∀ h, g ≤ h → (ropsOf s h).kind i = .ok v.kind := by
        intro h hh
        have := hg.kind h hh
        rw [hvn] at this
        cases hk : (ropsOf s h).kind i with
        | err e' => rw [hk] at this; exact this.elim
        | ok k => rw [hk] at this; rw [show k = v.kind from this]
        | timeout => rw [hk] at this; exact this.elim
      rw [hvn, Res.ok_bind] at ht
      have other : v.kind ≠ .array → v.kind ≠ .object → queryStep n v k = .err .keyError →
          ∃ g, ∀ h, g ≤ h → Alike (Shows s.mem) (queryLoop vw n (k :: ks)) (walkR s (ropsOf s h) i (k :: ks)) := by
        intro h1 h2 h3
        refine ⟨g, fun h hh => ?_⟩
        rw [queryLoop, hvn, Res.ok_bind, h3, walkR, hkind h hh, Res.ok_bind]
        cases hk : v.kind with
        | array => exact absurd hk h1
        | object => exact absurd hk h2
        | _ => rfl
      cases v with
      | ref own d p => exact absurd hvn (hr n own d p)
      | null => exact other (by simp [Node.kind]) (by simp [Node.kind]) rfl
      | bool _ => exact other (by simp [Node.kind]) (by simp [Node.kind]) rfl
      | num _ => exact other (by simp [Node.kind]) (by simp [Node.kind]) rfl
      | str _ => exact other (by simp [Node.kind]) (by simp [Node.kind]) rfl
      | obj kvs =>
        obtain ⟨ids, hmem, hsd⟩ := hg.members kvs hvn
        simp only [queryStep] at ht
        rcases hsd.get k with ⟨e1, e2⟩ | ⟨x, j, e1, e2, hx⟩
        · refine ⟨g, fun h hh => ?_⟩
          rw [queryLoop, hvn, Res.ok_bind, walkR, hkind h hh, Res.ok_bind]
          simp only [queryStep, e1, Node.kind, hmem h hh, Res.ok_bind, e2]
          rfl
        · simp only [e1, Res.ok_bind] at ht
          obtain ⟨g', hg'⟩ := ih x j ht hx
          refine ⟨max g g', fun h hh => ?_⟩
          rw [queryLoop, hvn, Res.ok_bind, walkR, hkind h (by omega), Res.ok_bind]
          simp only [queryStep, e1, Node.kind, hmem h (by omega), Res.ok_bind, e2]
          exact hg' h (by omega)
      | arr xs =>
        by_cases hn : ∃ own d p, n = .ref own d p
        · obtain ⟨own, d, p, rfl⟩ := hn
          rw [Shows] at hs
          obtain ⟨c, j, c', ids, h1, h2, -⟩ := hs
          obtain ⟨ids, hel, h3⟩ := hg.elems xs hvn
          simp only [queryStep] at ht
          by_cases ha : (!isAscii k) = true
          · refine ⟨g, fun h hh => ?_⟩
            rw [queryLoop, hvn, Res.ok_bind, walkR, hkind h hh, Res.ok_bind]
            simp only [queryStep, Node.kind, cellOf_eq h1, Res.ok_bind, h2, if_pos ha]
            rfl
          rw [if_neg ha] at ht
          cases hi : pyInt k with
          | none =>
            refine ⟨g, fun h hh => ?_⟩
            rw [queryLoop, hvn, Res.ok_bind, walkR, hkind h hh, Res.ok_bind]
            simp only [queryStep, Node.kind, cellOf_eq h1, Res.ok_bind, h2, if_neg ha, hi]
            rfl
          | some z =>
            have hz := h3.index z
            have hin := h3.intIn z
            simp only [hi] at ht
            cases hb : intInArr z xs with
            | timeout => rw [hb] at ht; exact absurd rfl ht
            | err e =>
              refine ⟨g, fun h hh => ?_⟩
              rw [queryLoop, hvn, Res.ok_bind, walkR, hkind h hh, Res.ok_bind]
              simp only [queryStep, Node.kind, cellOf_eq h1, Res.ok_bind, h2, if_neg ha, hi, hel h hh, hin, hb]
              rfl
            | ok b =>
            cases b with
            | false =>
              refine ⟨g, fun h hh => ?_⟩
              rw [queryLoop, hvn, Res.ok_bind, walkR, hkind h hh, Res.ok_bind]
              simp only [queryStep, Node.kind, cellOf_eq h1, Res.ok_bind, h2, if_neg ha, hi, hel h hh, hin, hb]
              rfl
            | true =>
            simp only [hb, Res.ok_bind, if_true] at ht
            cases hx : pyIndex xs z with
            | timeout => rw [hx] at ht; exact absurd rfl ht
            | err e =>
              rw [hx] at hz
              refine ⟨g, fun h hh => ?_⟩
              rw [queryLoop, hvn, Res.ok_bind, walkR, hkind h hh, Res.ok_bind]
              simp only [queryStep, Node.kind, cellOf_eq h1, Res.ok_bind, h2, if_neg ha, hi, hel h hh, hin, hb, if_true, hx, hz.of_err]
              rfl
            | ok x =>
              rw [hx] at hz
              obtain ⟨j, e2, hxj⟩ := hz.of_ok
              rw [hx, Res.ok_bind] at ht
              obtain ⟨g', hg'⟩ := ih x j ht hxj
              refine ⟨max g g', fun h hh => ?_⟩
              rw [queryLoop, hvn, Res.ok_bind, walkR, hkind h (by omega), Res.ok_bind]
              simp only [queryStep, Node.kind, cellOf_eq h1, Res.ok_bind, h2, if_neg ha, hi, hel h (by omega), hin, hb, if_true, hx, e2]
              exact hg' h (by omega)
        · have hn' : ∀ own d p, n ≠ .ref own d p := fun own d p e => hn ⟨own, d, p, e⟩
          have e := hp n hn' hvt
          rw [hvn] at e
          cases e
          rw [Shows] at hs
          obtain ⟨c, ids, h1, h2, h3⟩ := hs
          simp only [queryStep] at ht
          by_cases ha : (!isAscii k) = true
          · refine ⟨g, fun h hh => ?_⟩
            rw [queryLoop, hvn, Res.ok_bind, walkR, hkind h hh, Res.ok_bind]
            simp only [queryStep, Node.kind, cellOf_eq h1, Res.ok_bind, h2, if_pos ha]
            rfl
          rw [if_neg ha] at ht
          cases hi : pyInt k with
          | none =>
            refine ⟨g, fun h hh => ?_⟩
            rw [queryLoop, hvn, Res.ok_bind, walkR, hkind h hh, Res.ok_bind]
            simp only [queryStep, Node.kind, cellOf_eq h1, Res.ok_bind, h2, if_neg ha, hi]
            rfl
          | some z =>
            have hz := h3.index z
            simp only [hi] at ht
            cases hx : pyIndex xs z with
            | timeout => rw [hx] at ht; exact absurd rfl ht
            | err e =>
              rw [hx] at hz
              refine ⟨g, fun h hh => ?_⟩
              rw [queryLoop, hvn, Res.ok_bind, walkR, hkind h hh, Res.ok_bind]
              simp only [queryStep, Node.kind, cellOf_eq h1, Res.ok_bind, h2, if_neg ha, hi, hx, hz.of_err]
              rfl
            | ok x =>
              rw [hx] at hz
              obtain ⟨j, e2, hxj⟩ := hz.of_ok
              rw [hx, Res.ok_bind] at ht
              obtain ⟨g', hg'⟩ := ih x j ht hxj
              refine ⟨max g g', fun h hh => ?_⟩
              rw [queryLoop, hvn, Res.ok_bind, walkR, hkind h (by omega), Res.ok_bind]
              simp only [queryStep, Node.kind, cellOf_eq h1, Res.ok_bind, h2, if_neg ha, hi, hx, e2]
              exact hg' h (by omega)

theorem Mirrors.both (hm : Mirrors s docs) (d : Nat) : (s.docs[d]? = none ∧ docs[d]? = none) ∨ ∃ x D, s.docs[d]? = some x ∧ docs[d]? = some D := by
  have := hm.length
  by_cases h : d < docs.length
  · exact .inr ⟨_, _, List.getElem?_eq_getElem (by omega), List.getElem?_eq_getElem h⟩
  · exact .inl ⟨List.getElem?_eq_none (by omega), List.getElem?_eq_none (by omega)⟩

theorem readyOf_eq {d : Nat} {x : Schema} (h : s.docs[d]? = some x) (hx : x.ready = true) : readyOf s d = .ok x := by
  simp [readyOf, h, hx]

/-- `query`, when the views are read alike. -/
theorem query_alike (hm : Mirrors s docs) {vw : Node → Res Node} (hv : ∀ n i, vw n ≠ .timeout → Shows s.mem n i → ∃ g, Reads s (vw n) i g)
    (hp : ∀ n, (∀ own d p, n ≠ .ref own d p) → vw n ≠ .timeout → vw n = .ok n) (hr : ∀ n own d p, vw n ≠ .ok (.ref own d p))
    {d : Nat} {D : Doc} (hd : docs[d]? = some D) (p : List Str) (ht : queryDoc vw D p ≠ .timeout) :
    ∃ g, ∀ h, g ≤ h → Alike (Shows s.mem) (queryDoc vw D p) ((ropsOf s h).query d p) := by
  rcases hm.both d with ⟨-, e⟩ | ⟨x, D', hx, hD⟩
  · rw [e] at hd; cases hd
  rw [hd] at hD; cases hD
  obtain ⟨r1, r2, r3⟩ := hm.doc d x D hx hd
  have start : ∀ h, 2 ≤ h → ∃ h', h = h' + 1 ∧ ∀ p, (ropsOf s h).query d p = match p with
      | [k] => match dictGet k x.anchors with
        | some n => .ok n
        | none => if k = [] then .ok x.value else walkR s (ropsOf s h') x.value [k]
      | _ => walkR s (ropsOf s h') x.value p := by
    intro h hh
    obtain ⟨h, rfl⟩ : ∃ k, h = k + 2 := ⟨h - 2, by omega⟩
    refine ⟨h + 1, rfl, fun p => ?_⟩
    change queryR s (ropsOf s (h + 1)) d p = _
    unfold queryR
    rw [readyOf_eq hx r1]
    rfl
  have long : (∀ k, p ≠ [k]) → ∃ g, ∀ h, g ≤ h → Alike (Shows s.mem) (queryDoc vw D p) ((ropsOf s h).query d p) := by
    intro hk
    have e : queryDoc vw D p = queryLoop vw D.root p := by
      unfold queryDoc; split
      · exact absurd rfl (hk _)
      · rfl
    rw [e] at ht ⊢
    obtain ⟨g, hg⟩ := walk_alike hv hp hr p D.root x.value ht r2
    refine ⟨max g 2 + 1, fun h hh => ?_⟩
    obtain ⟨h', rfl, e'⟩ := start h (by omega)
    rw [e' p]
    split
    · exact absurd rfl (hk _)
    · exact hg h' (by omega)
  match p with
  | [] => exact long (by simp)
  | _ :: _ :: _ => exact long (by simp)
  | [k] =>
    simp only [queryDoc] at ht ⊢
    rcases r3.get k with ⟨e1, e2⟩ | ⟨n, i, e1, e2, hn⟩
    · simp only [e1] at ht ⊢
      by_cases hk : k = []
      · refine ⟨2, fun h hh => ?_⟩
        obtain ⟨h', rfl, e'⟩ := start h (by omega)
        rw [e' [k]]
        simp only [e2, if_pos hk]
        exact r2
      · rw [if_neg hk] at ht ⊢
        obtain ⟨g, hg⟩ := walk_alike hv hp hr [k] D.root x.value ht r2
        refine ⟨max g 2 + 1, fun h hh => ?_⟩
        obtain ⟨h', rfl, e'⟩ := start h (by omega)
        rw [e' [k]]
        simp only [e2, if_neg hk]
        exact hg h' (by omega)
    · simp only [e1]
      refine ⟨2, fun h hh => ?_⟩
      obtain ⟨h', rfl, e'⟩ := start h (by omega)
      rw [e' [k]]
      simp only [e2]
      exact hn

theorem view_self {f : Nat} {n : Node} (hn : ∀ own d p, n ≠ .ref own d p) (ht : view docs f n ≠ .timeout) : view docs f n = .ok n := by
  cases f with
  | zero => exact absurd rfl ht
  | succ f => cases n with
    | ref own d p => exact absurd rfl (hn own d p)
    | _ => rfl

/-- What the tree shows is read of the objects. -/
theorem reads (hm : Mirrors s docs) : ∀ (f : Nat) (n : Node) (i : Nat), view docs f n ≠ .timeout → Shows s.mem n i → ∃ g, Reads s (view docs f n) i g := by
  intro f
  induction f with
  | zero => exact fun n i ht => absurd rfl ht
  | succ f ih =>
    intro n i ht hs
    by_cases hn : ∀ own d p, n ≠ .ref own d p
    · rw [view_self hn ht]; exact ⟨1, reads_plain hn hs⟩
    obtain ⟨own, d, p, rfl⟩ : ∃ own d p, n = .ref own d p := by
      cases n with
      | ref own d p => exact ⟨own, d, p, rfl⟩
      | _ => exact absurd (by intros; simp) hn
    rw [Shows] at hs
    obtain ⟨c, j, c', ids, h1, h2, h3, h4, h5⟩ := hs
    have kindE : ∀ h, (ropsOf s (h + 1)).kind i = ((ropsOf s h).query d p >>= (ropsOf s h).kind) := by
      intro h
      change kindR s (ropsOf s h) i = _
      unfold kindR
      simp only [cellOf_eq h1, Res.ok_bind, h2]
    rcases hm.both d with ⟨e1, e2⟩ | ⟨x, D, hx, hD⟩
    · have ev : view docs (f + 1) (.ref own d p) = .err .unmodelled := by rw [view]; simp only [e2]
      rw [ev]
      refine ⟨3, fun h hh => ?_, fun kvs e => (by cases e), fun xs e => (by cases e)⟩
      obtain ⟨h, rfl⟩ : ∃ k, h = k + 3 := ⟨h - 3, by omega⟩
      rw [kindE]
      have : (ropsOf s (h + 2)).query d p = .err .unmodelled := by
        change queryR s (ropsOf s (h + 1)) d p = _
        unfold queryR
        simp only [readyOf, e1]
        rfl
      rw [this]; rfl
    obtain ⟨r1, r2, r3⟩ := hm.doc d x D hx hD
    have ev : view docs (f + 1) (.ref own d p) = (queryDoc (view docs f) D p >>= fun frag => view docs f frag >>= fun v => match v with
        | .obj kvs => .ok (.obj (Verif.overlay own kvs))
        | x => .ok x) := by rw [view]; simp only [hD]; rfl
    rw [ev] at ht ⊢
    have hq : queryDoc (view docs f) D p ≠ .timeout := by intro e; rw [e] at ht; exact ht rfl
    obtain ⟨g, hg⟩ := query_alike hm ih (fun n hn ht => view_self hn ht) (fun n own d p e => view_not_ref e own d p rfl) hD p hq
    cases hqe : queryDoc (view docs f) D p with
    | timeout => exact absurd hqe hq
    | err e =>
      rw [hqe] at hg
      refine ⟨g + 1, fun h hh => ?_, fun kvs e => (by cases e), fun xs e => (by cases e)⟩
      obtain ⟨h, rfl⟩ : ∃ k, h = k + 1 := ⟨h - 1, by omega⟩
      rw [kindE, (hg h (by omega)).of_err]; rfl
    | ok frag =>
      rw [hqe] at hg ht
      rw [Res.ok_bind] at ht ⊢
      obtain ⟨q, hqg, hfrag⟩ := (hg g (Nat.le_refl _)).of_ok
      have hqs : ∀ h, g ≤ h → (ropsOf s h).query d p = .ok q := by
        intro h hh
        have := (ropsOf_mono s hh).query d p (by rw [hqg]; simp)
        rw [this, hqg]
      have hvt : view docs f frag ≠ .timeout := by intro e; rw [e] at ht; exact ht rfl
      obtain ⟨g', hg'⟩ := ih frag q hvt hfrag
      cases hve : view docs f frag with
      | timeout => exact absurd hve hvt
      | err e =>
        rw [hve] at hg'
        refine ⟨max g g' + 1, fun h hh => ?_, fun kvs e => (by cases e), fun xs e => (by cases e)⟩
        obtain ⟨h, rfl⟩ : ∃ k, h = k + 1 := ⟨h - 1, by omega⟩
        rw [kindE, hqs h (by omega), Res.ok_bind, (hg'.kind h (by omega)).of_err]; rfl
      | ok v =>
        rw [hve] at hg'
        have hkq : ∀ h, g' ≤ h → (ropsOf s h).kind q = .ok v.kind := by
          intro h hh
          obtain ⟨b, hb, e⟩ := (hg'.kind h hh).of_ok
          rw [hb, e]
        rw [Res.ok_bind]
        refine ⟨max g g' + 2, fun h hh => ?_, fun kvs e => ?_, fun xs e => ?_⟩
        · obtain ⟨h, rfl⟩ : ∃ k, h = k + 1 := ⟨h - 1, by omega⟩
          rw [kindE, hqs h (by omega), Res.ok_bind, hkq h (by omega)]
          cases v <;> rfl
        · cases v with
          | obj theirs =>
            cases e
            obtain ⟨tids, ht1, ht2⟩ := hg'.members theirs rfl
            refine ⟨overlayIds ids tids, fun h hh => ?_, h5.overlay ht2⟩
            obtain ⟨h, rfl⟩ : ∃ k, h = k + 2 := ⟨h - 2, by omega⟩
            have own1 : (ropsOf s (h + 1)).members j = .ok ids := by
              change membersR s (ropsOf s h) j = _
              unfold membersR
              simp only [cellOf_eq h3, Res.ok_bind, h4]
            change membersR s (ropsOf s (h + 1)) i = _
            unfold membersR
            simp only [cellOf_eq h1, Res.ok_bind, h2, readyOf_eq hx r1, hqs (h + 1) (by omega), hkq (h + 1) (by omega), Node.kind,
              own1, ht1 (h + 1) (by omega)]
            rfl
          | ref _ _ _ => exact absurd rfl (view_not_ref hve _ _ _)
          | _ => cases e
        · cases v with
          | arr ys =>
            cases e
            obtain ⟨eids, he1, he2⟩ := hg'.elems xs rfl
            refine ⟨eids, fun h hh => ?_, he2⟩
            obtain ⟨h, rfl⟩ : ∃ k, h = k + 1 := ⟨h - 1, by omega⟩
            change elemsR s (ropsOf s h) i = _
            unfold elemsR
            simp only [cellOf_eq h1, Res.ok_bind, h2, readyOf_eq hx r1, hqs h (by omega), he1 h (by omega)]
          | ref _ _ _ => exact absurd rfl (view_not_ref hve _ _ _)
          | _ => cases e

theorem query_reads (hm : Mirrors s docs) (f : Nat) {d : Nat} {D : Doc} (hd : docs[d]? = some D) (p : List Str)
    (ht : queryDoc (view docs f) D p ≠ .timeout) :
    ∃ g, ∀ h, g ≤ h → Alike (Shows s.mem) (queryDoc (view docs f) D p) ((ropsOf s h).query d p) :=
  query_alike hm (reads hm f) (fun _ hn ht => view_self hn ht) (fun _ own d p e => view_not_ref e own d p rfl) hd p ht

/-! ## When reading ends -/

theorem view_max {n : Node} {f f' : Nat} (h : view docs f n ≠ .timeout) (hf : f ≤ f') : view docs f' n = view docs f n :=
  view_mono docs hf n h

theorem loop_max {n : Node} {ks : List Str} {f f' : Nat} (h : queryLoop (view docs f) n ks ≠ .timeout) (hf : f ≤ f') :
    queryLoop (view docs f') n ks = queryLoop (view docs f) n ks := queryLoop_le (view_mono docs hf) ks n h

theorem walk_ends (hm : Mirrors s docs) {g : Nat} (hk : ∀ n i, Shows s.mem n i → (ropsOf s g).kind i ≠ .timeout → ∃ f, view docs f n ≠ .timeout) :
    ∀ (ks : List Str) (n : Node) (i : Nat), Shows s.mem n i → walkR s (ropsOf s g) i ks ≠ .timeout →
      ∃ f, queryLoop (view docs f) n ks ≠ .timeout := by
  intro ks
  induction ks with
  | nil => exact fun n i _ _ => ⟨0, by simp [queryLoop]⟩
  | cons k ks ih =>
    intro n i hs ht
    have hkt : (ropsOf s g).kind i ≠ .timeout := by intro e; rw [walkR, e] at ht; exact ht rfl
    obtain ⟨f, hf⟩ := hk n i hs hkt
    cases hve : view docs f n with
    | timeout => exact absurd hve hf
    | err e => exact ⟨f, by rw [queryLoop, hve]; simp⟩
    | ok v =>
      cases hst : queryStep n v k with
      | timeout =>
        exact absurd hst (queryStep_ends n v k)
      | err e => exact ⟨f, by rw [queryLoop, hve, Res.ok_bind, hst]; simp⟩
      | ok n' =>
        -- the objects take the same step, to an object that shows `n'`
        have one : queryLoop (view docs f) n [k] = .ok n' := by rw [queryLoop, hve, Res.ok_bind, hst]; rfl
        obtain ⟨g1, hg1⟩ := walk_alike (reads hm f) (fun _ hn ht => view_self hn ht)
          (fun _ own d p e => view_not_ref e own d p rfl) [k] n i (by rw [one]; simp) hs
        have a1 := hg1 (max g g1) (by omega)
        rw [one] at a1
        obtain ⟨i', e1, hs'⟩ := a1.of_ok
        -- at `g` already, since the whole walk ends there
        have split : walkR s (ropsOf s g) i (k :: ks) = (walkR s (ropsOf s g) i [k] >>= fun j => walkR s (ropsOf s g) j ks) := walkR_cons k ks i
        rw [split] at ht
        have h1t : walkR s (ropsOf s g) i [k] ≠ .timeout := by intro e; rw [e] at ht; exact ht rfl
        have e2 := walkR_le (ropsOf_mono s (Nat.le_max_left g g1)) [k] i h1t
        rw [e1] at e2
        rw [← e2, Res.ok_bind] at ht
        obtain ⟨f', hf'⟩ := ih n' i' hs' ht
        refine ⟨max f f', ?_⟩
        rw [queryLoop, view_max hf (Nat.le_max_left f f'), hve, Res.ok_bind, hst, Res.ok_bind, loop_max hf' (Nat.le_max_right f f')]
        exact hf'

/-- Reading the objects ends only when reading the tree does. -/
theorem ends (hm : Mirrors s docs) : ∀ g : Nat,
    (∀ n i, Shows s.mem n i → (ropsOf s g).kind i ≠ .timeout → ∃ f, view docs f n ≠ .timeout) ∧
    (∀ d D p, docs[d]? = some D → (ropsOf s g).query d p ≠ .timeout → ∃ f, queryDoc (view docs f) D p ≠ .timeout) := by
  intro g
  induction g with
  | zero => exact ⟨fun _ _ _ h => absurd rfl h, fun _ _ _ _ h => absurd rfl h⟩
  | succ g ih =>
    obtain ⟨ihk, ihq⟩ := ih
    refine ⟨fun n i hs ht => ?_, fun d D p hD ht => ?_⟩
    · by_cases hn : ∀ own d p, n ≠ .ref own d p
      · refine ⟨1, ?_⟩
        cases n with
        | ref own d p => exact absurd rfl (hn own d p)
        | _ => simp [view]
      obtain ⟨own, d, p, rfl⟩ : ∃ own d p, n = .ref own d p := by
        cases n with
        | ref own d p => exact ⟨own, d, p, rfl⟩
        | _ => exact absurd (by intros; simp) hn
      rw [Shows] at hs
      obtain ⟨c, j, c', ids, h1, h2, h3, h4, h5⟩ := hs
      rcases hm.both d with ⟨e1, e2⟩ | ⟨x, D, hx, hD⟩
      · exact ⟨1, by rw [view]; simp only [e2]; simp⟩
      change kindR s (ropsOf s g) i ≠ .timeout at ht
      unfold kindR at ht
      simp only [cellOf_eq h1, Res.ok_bind, h2] at ht
      have hqt : (ropsOf s g).query d p ≠ .timeout := by intro e; rw [e] at ht; exact ht rfl
      obtain ⟨f, hf⟩ := ihq d D p hD hqt
      cases hqe : queryDoc (view docs f) D p with
      | timeout => exact absurd hqe hf
      | err e => exact ⟨f + 1, by rw [view]; simp only [hD, hqe]; simp⟩
      | ok frag =>
        obtain ⟨g1, hg1⟩ := query_reads hm f hD p hf
        have a1 := hg1 (max g g1) (by omega)
        rw [hqe] at a1
        obtain ⟨q, e1, hfrag⟩ := a1.of_ok
        have e2 := (ropsOf_mono s (Nat.le_max_left g g1)).query d p hqt
        rw [e1] at e2
        rw [← e2, Res.ok_bind] at ht
        obtain ⟨f', hf'⟩ := ihk frag q hfrag ht
        refine ⟨max f f' + 1, ?_⟩
        rw [view]
        simp only [hD]
        rw [queryDoc_le (view_mono docs (Nat.le_max_left f f')) D p hf, hqe, Res.ok_bind, view_max hf' (Nat.le_max_right f f')]
        cases hve : view docs f' frag with
        | timeout => exact absurd hve hf'
        | err e => simp
        | ok v => cases v <;> simp
    · rcases hm.both d with ⟨-, e⟩ | ⟨x, D', hx, hD'⟩
      · rw [e] at hD; cases hD
      rw [hD] at hD'; cases hD'
      obtain ⟨r1, r2, r3⟩ := hm.doc d x D hx hD
      change queryR s (ropsOf s g) d p ≠ .timeout at ht
      unfold queryR at ht
      cases g with
      | zero => exact absurd rfl ht
      | succ g =>
        rw [readyOf_eq hx r1] at ht
        simp only [ropsOf, Res.ok_bind] at ht
        have long : ∀ p, walkR s (ropsOf s (g + 1)) x.value p ≠ .timeout → ∃ f, queryLoop (view docs f) D.root p ≠ .timeout :=
          fun p hp => walk_ends hm ihk p D.root x.value r2 hp
        match p, ht with
        | [], ht => exact long [] ht
        | a :: b :: l, ht => exact long (a :: b :: l) ht
        | [k], ht =>
          simp only at ht
          simp only [queryDoc]
          rcases r3.get k with ⟨e1, e2⟩ | ⟨n, i, e1, e2, hn⟩
          · simp only [e2] at ht
            simp only [e1]
            by_cases hk : k = []
            · exact ⟨0, by simp [hk]⟩
            · rw [if_neg hk] at ht
              simp only [if_neg hk]
              exact long [k] ht
          · exact ⟨0, by simp [e1]⟩

end

end Verif.Obj
