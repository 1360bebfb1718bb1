import Verif.Proofs.Strict
import Verif.Proofs.Lazy
import Verif.Spec.Unfold
/-!
# Validation with a schema and with its unfolding
-/

namespace Verif
open Prog Spec

variable {α β γ : Type}

/-- From some point on the computation returns `b`. -/
def Ev (x : Nat → Res β) (b : β) : Prop := ∃ g, ∀ h, g ≤ h → x h = .ok b

theorem Ev.ok (b : β) : Ev (fun _ => .ok b) b := ⟨0, fun _ _ => rfl⟩

theorem Ev.bind {x : Nat → Res β} {y : Nat → β → Res γ} {b : β} {c : γ} (hx : Ev x b) (hy : Ev (fun h => y h b) c) :
    Ev (fun h => x h >>= y h) c := by
  obtain ⟨g1, h1⟩ := hx
  obtain ⟨g2, h2⟩ := hy
  refine ⟨max g1 g2, fun h hh => ?_⟩
  show (x h >>= y h) = _
  rw [h1 h (by omega), Res.ok_bind]
  exact h2 h (by omega)

theorem Ev.of_eq {x y : Nat → Res β} {b : β} (h : Ev x b) (e : ∀ n, y n = x n) : Ev y b :=
  let ⟨g, hg⟩ := h; ⟨g, fun j hj => by rw [e, hg j hj]⟩

/-- What is returned is returned there too. -/
def Res.Gets (x y : Res β) : Prop := ∀ b, x = .ok b → y = .ok b

theorem Res.Gets.refl (x : Res β) : Res.Gets x x := fun _ h => h

theorem Res.Gets.bind {x y : Res β} {f g : β → Res γ} (h : Res.Gets x y) (hf : ∀ b, Res.Gets (f b) (g b)) :
    Res.Gets (x >>= f) (y >>= g) := by
  intro c hc
  obtain ⟨b, hb, hc⟩ := Res.bind_eq_ok.1 hc
  rw [h b hb, Res.ok_bind]
  exact hf b c hc

/-- Not a `ValidationError`. -/
def Res.Dry (x : Res β) : Prop := ∀ e, x ≠ .err (.validation e)

theorem Res.Dry.bind {x : Res β} {f : β → Res γ} (h : x.Dry) (hf : ∀ b, (f b).Dry) : (x >>= f).Dry := by
  intro e he
  cases x with
  | ok b => exact hf b e he
  | err y => exact h e (by simpa using he)
  | timeout => cases he

theorem Res.Dry.ok (b : β) : (Res.ok b : Res β).Dry := fun _ h => by cases h

theorem view_nil {f : Nat} {n m : Node} (h : view [] f n = .ok m) : m = n ∧ (∀ o d p, n ≠ .ref o d p) := by
  cases f with
  | zero => cases h
  | succ f =>
    cases n with
    | ref o d p => simp [view] at h
    | _ => exact ⟨by simpa [view] using h.symm, by simp⟩

theorem view_nil_dry (f : Nat) (n : Node) : (view [] f n).Dry := by
  cases f with
  | zero => intro e h; cases h
  | succ f => cases n <;> intro e h <;> simp [view] at h

theorem view_ev {docs : List Doc} {f : Nat} {n m : Node} (h : view docs f n = .ok m) : Ev (fun g => view docs g n) m :=
  ⟨f, fun g hg => by show view docs g n = _; rw [view_mono docs hg n (by rw [h]; simp), h]⟩

theorem view_plain_ev (docs : List Doc) {n : Node} (h : ∀ o d p, n ≠ .ref o d p) : Ev (fun g => view docs g n) n := by
  refine ⟨1, fun g hg => ?_⟩
  obtain ⟨g, rfl⟩ : ∃ k, g = k + 1 := ⟨g - 1, by omega⟩
  cases n <;> first | rfl | exact absurd rfl (h _ _ _)

theorem readKw_gets (w : World) {vw vw' : Node → Res Node} (h : ∀ n, Res.Gets (vw n) (vw' n)) (mk : Node → α) (items : List (Str × Node)) (k : Kw) :
    Res.Gets (readKw w vw mk items k) (readKw w vw' mk items k) := by
  cases k <;> simp only [readKw, numKey, intKey, intValueKey, subKey, subsKey, subMapKey, Res.bind_assoc] <;>
    repeat' first
      | exact Res.Gets.refl _
      | exact h _
      | exact (h _).bind fun _ => Res.Gets.refl _
      | (refine Res.Gets.bind ?_ fun _ => ?_)
      | split

theorem eqTrue_dry {vw : Node → Res Node} (h : ∀ n, (vw n).Dry) (n : Node) : (eqTrue vw n).Dry := by
  refine (h n).bind fun m => ?_
  cases m <;> exact Res.Dry.ok _

theorem seqOf_dry (n : Node) (xs : List Node) : (seqOf n xs).Dry := by
  rcases seqOf_cases n xs with ⟨e, -⟩ | ⟨-, x, e, hx⟩ <;> rw [e]
  · exact Res.Dry.ok _
  · intro e' he; cases he; exact hx e' rfl

theorem toInt_dry (m : Num) : m.toInt.Dry := by
  cases m <;> intro e h <;> simp [Num.toInt] at h

theorem strItems_dry (w : World) (n : Node) : (strItems w n).Dry := by
  cases n <;> intro e h <;> simp [strItems] at h

theorem strItemsMap_dry (w : World) (kvs : List (Str × Node)) : (strItemsMap w kvs).Dry := by
  induction kvs with
  | nil => exact Res.Dry.ok _
  | cons p r ih => exact (strItems_dry w p.2).bind fun _ => ih.bind fun _ => Res.Dry.ok _

theorem getKey_dry (items : List (Str × Node)) (k : Str) : (getKey items k).Dry := by
  unfold getKey
  split <;> intro e h <;> cases h

theorem readKw_dry (w : World) {vw : Node → Res Node} (h : ∀ n, (vw n).Dry) (mk : Node → α) (items : List (Str × Node)) (k : Kw) :
    (readKw w vw mk items k).Dry := by
  cases k <;> simp only [readKw, numKey, intKey, intValueKey, subKey, subsKey, subMapKey, Res.bind_assoc] <;>
    repeat' first
      | exact Res.Dry.ok _
      | (intro e he; cases he; done)
      | exact h _
      | exact eqTrue_dry h _
      | exact seqOf_dry _ _
      | exact toInt_dry _
      | exact strItemsMap_dry _ _
      | exact getKey_dry _ _
      | (refine Res.Dry.bind ?_ fun _ => ?_)
      | split

theorem applyKw_dry (w : World) {vw : Node → Res Node} (h : ∀ n, (vw n).Dry) (mk : Node → α) (items : List (Str × Node)) (k : Kw) (d : Data α) :
    (applyKw w vw mk items k d).Dry := by
  rw [applyKw_eq]
  refine (readKw_dry w h mk items k).bind fun u => ?_
  cases u <;> simp only [Upd.apply] <;> repeat' first
    | exact Res.Dry.ok _
    | (intro e he; cases he; done)
    | split

theorem loadAll_dry (w : World) {vw : Node → Res Node} (h : ∀ n, (vw n).Dry) (mk : Node → α) (items : List (Str × Node)) (voc : List Kw)
    (d : Data α) : (loadAll w vw mk items voc d).2.Dry := by
  induction voc generalizing d with
  | nil => exact Res.Dry.ok _
  | cons k ks ih =>
    rw [loadAll]
    split
    · have hk := applyKw_dry w h mk items k d
      cases e : applyKw w vw mk items k d with
      | ok d' => exact ih d'
      | err x => rw [e] at hk; intro y hy; exact hk y (by simpa using hy)
      | timeout => intro y hy; cases hy
    · exact ih d

theorem view_gets (docs : List Doc) (f : Nat) {h : Nat} (hh : 1 ≤ h) (n : Node) : Res.Gets (view [] f n) (view docs h n) := by
  intro m hm
  obtain ⟨rfl, hr⟩ := view_nil hm
  obtain ⟨h, rfl⟩ : ∃ k, h = k + 1 := ⟨h - 1, by omega⟩
  cases m <;> first | rfl | exact absurd rfl (hr _ _ _)

/-! ## Loading -/

section
variable {docs : List Doc} {see : Node → Option Node} (hs : Truthful docs see) {φ : Node → Node}
  (hφ : ∀ n, φ n = n ∨ (∃ b, φ n = .bool b ∧ Ev (fun g => view docs g n) (.bool b)) ∨
    ∃ kvs kvs', φ n = .obj kvs' ∧ Ev (fun g => view docs g n) (.obj kvs))
  {items items' : List (Str × Node)} (hi : ∀ k, dictGet k items' = (dictGet k items).map (unfoldAt see φ k))

include hφ in
theorem phi_obj {n : Node} {kvs' : List (Str × Node)} (h : φ n = .obj kvs') : ∃ kvs, Ev (fun g => view docs g n) (.obj kvs) := by
  rcases hφ n with e | ⟨b, e, _⟩ | ⟨kvs, _, _, e⟩
  · obtain rfl : n = .obj kvs' := e.symm.trans h
    exact ⟨_, view_plain_ev docs (by simp)⟩
  · rw [h] at e; cases e
  · exact ⟨kvs, e⟩

include hφ in
theorem phi_bool {n : Node} {b : Bool} (h : φ n = .bool b) : Ev (fun g => view docs g n) (.bool b) := by
  rcases hφ n with e | ⟨b, e, he⟩ | ⟨kvs, _, e, _⟩
  · obtain rfl : n = .bool b := e.symm.trans h
    exact view_plain_ev docs (by simp)
  · rw [h] at e; cases e; exact he
  · rw [h] at e; cases e

include hφ in
theorem phi_view {f : Nat} {n m : Node} (h : view [] f (φ n) = .ok m) : m = φ n ∧
    ∃ m', Ev (fun g => view docs g n) m' ∧ (m' = .bool true ↔ m = .bool true) := by
  obtain ⟨rfl, hr⟩ := view_nil h
  refine ⟨rfl, ?_⟩
  rcases hφ n with e | ⟨b, e, he⟩ | ⟨kvs, _, e, he⟩
  · exact ⟨n, view_plain_ev docs (by rw [← e]; exact hr), by rw [e]⟩
  · exact ⟨_, he, by rw [e]⟩
  · exact ⟨_, he, by rw [e]; simp⟩

theorem unfoldAt_value {k : Str} (h1 : k ∈ valueKeys) (h2 : k ∉ elementKeys) (n : Node) : unfoldAt see φ k n = φ n := by
  cases n <;> simp [unfoldAt, h1, h2]

theorem unfoldAt_flat {k : Str} (h1 : k ∉ valueKeys) (h2 : k ∉ elementKeys) (h3 : k ∉ mapKeys) (n : Node) : unfoldAt see φ k n = n := by
  cases n <;> simp [unfoldAt, h1, h2, h3]

include hi in
theorem unfold_has (k : Str) : dictHas k items' = dictHas k items := by
  unfold dictHas; rw [hi]; cases dictGet k items <;> rfl

include hφ hi in
theorem subKey_unfold {k : Str} (h1 : k ∈ valueKeys) (h2 : k ∉ elementKeys) {f : Nat} {a : Node}
    (h : subKey (view [] f) id items' k = .ok a) : Ev (fun g => subKey (view docs g) φ items k) a := by
  unfold subKey getKey at h
  rw [hi] at h
  cases hd : dictGet k items with
  | none => rw [hd] at h; cases h
  | some n =>
    rw [hd] at h
    simp only [Option.map_some, Res.ok_bind, unfoldAt_value h1 h2] at h
    obtain ⟨m, hm, h⟩ := Res.bind_eq_ok.1 h
    obtain ⟨rfl, _⟩ := view_nil hm
    cases e : φ n with
    | obj kvs' =>
      rw [e] at h
      simp only [id, Res.ok.injEq] at h
      obtain ⟨kvs, he⟩ := phi_obj hφ e
      refine Ev.of_eq (he.bind (y := fun _ m => match m with
        | .obj _ => .ok (φ n)
        | _ => .err .schemaParse) ?_) fun g => ?_
      · rw [← h, ← e]; exact Ev.ok _
      · simp only [subKey, getKey, hd, Res.ok_bind]
        refine Res.bind_congr _ fun m => ?_
        cases m <;> rfl
    | _ => rw [e] at h; cases h

include hi in
theorem subsKey_unfold {k : Str} (h1 : k ∉ valueKeys) (h2 : k ∈ elementKeys) (h3 : k ∉ mapKeys) {f : Nat} {a : List Node}
    (h : subsKey (view [] f) id items' k = .ok a) : Ev (fun g => subsKey (view docs g) φ items k) a := by
  unfold subsKey getKey at h
  rw [hi] at h
  cases hd : dictGet k items with
  | none => rw [hd] at h; cases h
  | some n =>
    rw [hd] at h
    simp only [Option.map_some, Res.ok_bind] at h
    obtain ⟨m, hm, h⟩ := Res.bind_eq_ok.1 h
    obtain ⟨rfl, hr⟩ := view_nil hm
    cases n with
    | arr xs =>
      simp only [unfoldAt, h2, if_true, seqOf_arr, Res.ok_bind, List.map_id_fun, id, Res.ok.injEq] at h
      refine Ev.of_eq ((view_plain_ev docs (n := .arr xs) (by simp)).bind (y := fun _ m => match m with
        | .arr xs => .ok (xs.map φ)
        | _ => .err .schemaParse) ?_) fun g => ?_
      · rw [← h]; exact Ev.ok _
      · simp only [subsKey, getKey, hd, Res.ok_bind, seqOf_arr]
        refine Res.bind_congr _ fun m => ?_
        cases m <;> rfl
    | _ => simp [unfoldAt, h1, h3] at h

include hs hi in
theorem subMapKey_unfold {k : Str} (h1 : k ∉ valueKeys) (h2 : k ∉ elementKeys) (h3 : k ∈ mapKeys) {f : Nat} {a : List (Str × Node)}
    (h : subMapKey (view [] f) id items' k = .ok a) : Ev (fun g => subMapKey (view docs g) φ items k) a := by
  unfold subMapKey getKey at h
  rw [hi] at h
  cases hd : dictGet k items with
  | none => rw [hd] at h; cases h
  | some n =>
    rw [hd] at h
    simp only [Option.map_some, Res.ok_bind] at h
    obtain ⟨m, hm, h⟩ := Res.bind_eq_ok.1 h
    obtain ⟨rfl, hr⟩ := view_nil hm
    have main : ∀ kvs, Ev (fun g => view docs g n) (.obj kvs) → a = kvs.map (fun p => (p.1, φ p.2)) →
        Ev (fun g => subMapKey (view docs g) φ items k) a := by
      intro kvs he ha
      refine Ev.of_eq (he.bind (y := fun _ m => match m with
        | .obj kvs => .ok (kvs.map fun p => (p.1, φ p.2))
        | _ => .err .schemaParse) ?_) fun g => ?_
      · rw [ha]; exact Ev.ok _
      · simp only [subMapKey, getKey, hd, Res.ok_bind]
        refine Res.bind_congr _ fun m => ?_
        cases m <;> rfl
    cases n with
    | obj kvs =>
      simp [unfoldAt, h1, h3] at h
      exact main kvs (view_plain_ev docs (by simp)) h.symm
    | ref own d p =>
      simp only [unfoldAt, h1, h3, if_true, if_false] at h
      cases e : see (.ref own d p) with
      | none => rw [e] at h; cases h
      | some m =>
        rw [e] at h
        cases m with
        | obj kvs =>
          simp at h
          obtain ⟨g, hg⟩ := hs _ _ e
          exact main kvs (view_ev hg) h.symm
        | _ => cases h
    | arr xs => simp [unfoldAt, h1, h2] at h
    | _ =>
      simp only [unfoldAt, h1, h3, if_true, if_false] at h
      cases e : see _ with
      | none => rw [e] at h; cases h
      | some m =>
        rw [e] at h
        cases m with
        | obj kvs =>
          obtain ⟨g, hg⟩ := hs _ _ e
          cases g <;> cases hg
        | _ => cases h

include hi in
theorem intValueKey_unfold {k : Str} (h1 : k ∉ valueKeys) (h2 : k ∉ elementKeys) (h3 : k ∉ mapKeys) {f : Nat} {a : Int}
    (h : intValueKey (view [] f) items' k = .ok a) : Ev (fun g => intValueKey (view docs g) items k) a := by
  have hk : dictGet k items' = dictGet k items := by
    rw [hi]; cases dictGet k items <;> simp [unfoldAt_flat h1 h2 h3]
  refine ⟨1, fun g hg => ?_⟩
  unfold intValueKey at h ⊢
  rw [getKey_congr hk] at h
  revert h
  exact ((Res.Gets.refl _).bind fun n => (view_gets docs f hg n).bind fun _ => Res.Gets.refl _) a

include hs hφ hi in
theorem readKw_unfold (w : World) (k : Kw) {f : Nat} {u : Upd Node} (h : readKw w (view [] f) id items' k = .ok u) :
    Ev (fun g => readKw w (view docs g) φ items k) u := by
  have flat : (∀ s ∈ k.reads, s ∉ valueKeys ∧ s ∉ elementKeys ∧ s ∉ mapKeys) →
      (∀ vw : Node → Res Node, readKw w vw φ items k = readKw w vw id items k) → Ev (fun g => readKw w (view docs g) φ items k) u := by
    intro hk hm
    refine ⟨1, fun g hg => ?_⟩
    rw [readKw_congr w _ id items' items k fun s hs => by
      rw [hi]; cases dictGet s items <;> simp [unfoldAt_flat (hk s hs).1 (hk s hs).2.1 (hk s hs).2.2]] at h
    show readKw w (view docs g) φ items k = _
    rw [hm]
    exact readKw_gets w (view_gets docs f hg) id items k u h
  cases k with
  | contains =>
    simp only [readKw] at h ⊢
    obtain ⟨c, hc, h⟩ := Res.bind_eq_ok.1 h
    refine (subKey_unfold hφ hi (by decide) (by decide) hc).bind ?_
    simp only [unfold_has hi, Res.ok_bind] at h ⊢
    split at h <;> rename_i hn <;> simp only [hn, if_true, if_false, Bool.false_eq_true]
    · obtain ⟨mn, hmn, h⟩ := Res.bind_eq_ok.1 h
      refine (intValueKey_unfold hi (by decide) (by decide) (by decide) hmn).bind ?_
      split at h <;> rename_i hx <;> simp only [hx, if_true, if_false, Bool.false_eq_true]
      · obtain ⟨mx, hmx, h⟩ := Res.bind_eq_ok.1 h
        exact (intValueKey_unfold hi (by decide) (by decide) (by decide) hmx).bind (by cases h; exact Ev.ok _)
      · cases h; exact Ev.ok _
    · split at h <;> rename_i hx <;> simp only [hx, if_true, if_false, Bool.false_eq_true]
      · obtain ⟨mx, hmx, h⟩ := Res.bind_eq_ok.1 h
        exact (intValueKey_unfold hi (by decide) (by decide) (by decide) hmx).bind (by cases h; exact Ev.ok _)
      · cases h; exact Ev.ok _
  | items =>
    simp only [readKw, getKey] at h ⊢
    rw [hi] at h
    cases hd : dictGet c!"items" items with
    | none => rw [hd] at h; cases h
    | some n =>
      rw [hd] at h
      simp only [Option.map_some, Res.ok_bind] at h ⊢
      obtain ⟨m, hm, h⟩ := Res.bind_eq_ok.1 h
      by_cases ha : ∃ xs, n = .arr xs
      · obtain ⟨xs, rfl⟩ := ha
        obtain ⟨rfl, -⟩ := view_nil hm
        have e : unfoldAt see φ c!"items" (.arr xs) = .arr (xs.map φ) := by
          rw [unfoldAt, if_pos (by decide)]
        rw [e] at h
        refine (view_plain_ev docs (n := .arr xs) (by simp)).bind ?_
        simp only [seqOf_arr, Res.ok_bind, hi c!"additionalItems"] at h ⊢
        cases hda : dictGet c!"additionalItems" items with
        | none => rw [hda] at h; simp only [Option.map_none, List.map_id_fun, id, Res.ok.injEq] at h ⊢; rw [h]; exact Ev.ok _
        | some a =>
          rw [hda] at h
          simp only [Option.map_some, unfoldAt_value (k := c!"additionalItems") (by decide) (by decide)] at h ⊢
          obtain ⟨m, hm, h⟩ := Res.bind_eq_ok.1 h
          obtain ⟨rfl, m', he, hb⟩ := phi_view hφ hm
          refine he.bind ?_
          by_cases ht : φ a = .bool true
          · rw [hb.2 ht]
            rw [ht] at h
            simp only [List.map_id_fun, id, Res.ok.injEq] at h ⊢; rw [h]; exact Ev.ok _
          · have h1 : u = .itemsArr (xs.map φ) (some (φ a)) := by
              revert h
              split
              · rename_i e; exact absurd e ht
              · simp [eq_comm]
            have ht' : m' ≠ .bool true := fun e => ht (hb.1 e)
            rw [h1]
            refine Ev.of_eq (Ev.ok _) fun g => ?_
            split
            · exact absurd rfl ht'
            · rfl
      · have e : unfoldAt see φ c!"items" n = φ n := by
          cases n <;> first | exact absurd ⟨_, rfl⟩ ha | simp [unfoldAt, valueKeys]
        rw [e] at h hm
        obtain ⟨rfl, hr⟩ := view_nil hm
        cases e : φ n with
        | obj kvs' =>
          obtain ⟨kvs, he⟩ := phi_obj hφ e
          refine he.bind ?_
          rw [e] at h
          simp only [id, Res.ok.injEq] at h ⊢
          rw [← h]; exact Ev.ok _
        | bool b =>
          refine (phi_bool hφ e).bind ?_
          rw [e] at h
          simp only [id, Res.ok.injEq] at h ⊢
          rw [← h]; exact Ev.ok _
        | arr xs =>
          exfalso
          rcases hφ n with e' | ⟨b, e', _⟩ | ⟨_, _, e', _⟩
          · exact ha ⟨xs, e'.symm.trans e⟩
          · rw [e] at e'; cases e'
          · rw [e] at e'; cases e'
        | _ => rw [e] at h; cases h
  | additionalProperties =>
    simp only [readKw, getKey] at h ⊢
    rw [hi] at h
    cases hd : dictGet c!"additionalProperties" items with
    | none => rw [hd] at h; cases h
    | some n =>
      rw [hd] at h
      simp only [Option.map_some, Res.ok_bind, unfoldAt_value (k := c!"additionalProperties") (by decide) (by decide)] at h ⊢
      obtain ⟨m, hm, h⟩ := Res.bind_eq_ok.1 h
      obtain ⟨rfl, -⟩ := view_nil hm
      cases e : φ n with
      | obj kvs' =>
        obtain ⟨kvs, he⟩ := phi_obj hφ e
        refine he.bind ?_
        rw [e] at h
        simp only [id, Res.ok.injEq] at h ⊢
        rw [← h]; exact Ev.ok _
      | bool b =>
        refine (phi_bool hφ e).bind ?_
        rw [e] at h
        cases b <;> simp only [Res.ok.injEq] at h ⊢ <;> rw [← h] <;> exact Ev.ok _
      | _ => rw [e] at h; cases h
  | prefixItems | allOf | anyOf | oneOf =>
    simp only [readKw] at h ⊢
    obtain ⟨a, ha, h⟩ := Res.bind_eq_ok.1 h
    refine (subsKey_unfold hi (by decide) (by decide) (by decide) ha).bind ?_
    cases h; exact Ev.ok _
  | properties | patternProperties | dependentSchemas =>
    simp only [readKw] at h ⊢
    obtain ⟨a, ha, h⟩ := Res.bind_eq_ok.1 h
    refine (subMapKey_unfold hs hi (by decide) (by decide) (by decide) ha).bind ?_
    cases h; exact Ev.ok _
  | propertyNames | not | «if» | «then» | «else» =>
    simp only [readKw] at h ⊢
    obtain ⟨a, ha, h⟩ := Res.bind_eq_ok.1 h
    refine (subKey_unfold hφ hi (by decide) (by decide) ha).bind ?_
    cases h; exact Ev.ok _
  | _ => exact flat (by decide) fun _ => rfl

include hs hφ hi in
theorem loadAll_unfold (w : World) (voc : List Kw) {f : Nat} (d : Data Node) (h : (loadAll w (view [] f) id items' voc d).2 = .ok ()) :
    ∃ g, ∀ j, g ≤ j → loadAll w (view docs j) φ items voc d = loadAll w (view [] f) id items' voc d := by
  induction voc generalizing d with
  | nil => exact ⟨0, fun _ _ => rfl⟩
  | cons k ks ih =>
    simp only [loadAll, unfold_has hi] at h ⊢
    split at h
    · rename_i hk
      simp only [hk, if_true]
      rw [applyKw_eq] at h
      cases hr : readKw w (view [] f) id items' k with
      | ok u =>
        obtain ⟨g1, h1⟩ := readKw_unfold hs hφ hi w k hr
        simp only [applyKw_eq, hr, Res.ok_bind] at h ⊢
        cases ha : u.apply k.key d with
        | ok d' =>
          simp only [ha] at h
          obtain ⟨g2, h2⟩ := ih d' h
          refine ⟨max g1 g2, fun j hj => ?_⟩
          have := h1 j (by omega)
          simp only at this
          simp only [this, Res.ok_bind, ha]
          exact h2 j (by omega)
        | err e => simp only [ha] at h; cases h
        | timeout => simp only [ha] at h; cases h
      | err e => rw [hr] at h; cases h
      | timeout => rw [hr] at h; cases h
    · rename_i hk
      simp only [hk]
      exact ih d h

end

/-! ## Running -/

theorem interp_map (g : α → γ) (rec : γ → Val → Ctx → Res Unit) (p : Prog α β) : interp rec (Prog.map g p) = interp (fun a => rec (g a)) p := by
  induction p with
  | done r => rfl
  | call a v c k ih =>
    simp only [Prog.map]
    by_cases ht : rec (g a) v c = .timeout
    · rw [interp_call_timeout _ _ _ _ _ ht, interp_call_timeout (fun a => rec (g a)) _ _ _ _ ht]
    · rw [interp_call _ _ _ _ _ ht, interp_call (fun a => rec (g a)) _ _ _ _ ht, ih]

theorem unfold_spec {docs : List Doc} {see : Node → Option Node} (hs : Truthful docs see) (k : Nat) (n : Node) :
    unfold see k n = n ∨ (∃ b, unfold see k n = .bool b ∧ Ev (fun g => view docs g n) (.bool b)) ∨
      ∃ kvs kvs', unfold see k n = .obj kvs' ∧ Ev (fun g => view docs g n) (.obj kvs) := by
  cases k with
  | zero => exact .inl rfl
  | succ k =>
    rw [unfold]
    split
    · rename_i b h
      obtain ⟨f, hf⟩ := hs _ _ h
      exact .inr (.inl ⟨b, rfl, view_ev hf⟩)
    · rename_i items h
      obtain ⟨f, hf⟩ := hs _ _ h
      exact .inr (.inr ⟨items, _, rfl, view_ev hf⟩)
    · exact .inl rfl

theorem dictGet_mapKey (F : Str → Node → Node) (items : List (Str × Node)) (s : Str) :
    dictGet s (items.map fun p => (p.1, F p.1 p.2)) = (dictGet s items).map (F s) := by
  induction items with
  | nil => rfl
  | cons p items ih =>
    obtain ⟨k, n⟩ := p
    simp only [List.map_cons, dictGet]
    split
    · rename_i h; subst h; rfl
    · exact ih

theorem unfold_none (k : Nat) (n : Node) : unfold (fun _ => none) k n = n := by cases k <;> rfl

theorem unfoldAt_none (s : Str) (n : Node) : unfoldAt (fun _ => none) (fun m => m) s n = n := by
  cases n <;> simp [unfoldAt]

/-- An unfolding that is an object is the object shown, its members unfolded. -/
theorem unfold_obj {docs : List Doc} {see : Node → Option Node} (hs : Truthful docs see) (k : Nat) (n : Node) {kvs' : List (Str × Node)}
    (h : unfold see k n = .obj kvs') : ∃ see' k' items, Truthful docs see' ∧ Ev (fun g => view docs g n) (.obj items) ∧
      ∀ s, dictGet s kvs' = (dictGet s items).map (unfoldAt see' (unfold see' k') s) := by
  have stay : unfold see k n = n → ∃ see' k' items, Truthful docs see' ∧ Ev (fun g => view docs g n) (.obj items) ∧
      ∀ s, dictGet s kvs' = (dictGet s items).map (unfoldAt see' (unfold see' k') s) := by
    intro e
    obtain rfl : n = .obj kvs' := e.symm.trans h
    refine ⟨fun _ => none, 0, kvs', (fun n m h => nomatch h : Truthful docs fun _ => none), view_plain_ev docs (by simp), fun s => ?_⟩
    have : unfoldAt (fun _ => none) (unfold (fun _ => none) 0) s = id := by
      funext m
      rw [show unfold (fun _ => none) 0 = fun m => m from funext (unfold_none 0)]
      exact unfoldAt_none s m
    rw [this]; simp
  cases k with
  | zero => exact stay rfl
  | succ k =>
    cases e : see n with
    | none => exact stay (by rw [unfold, e])
    | some m =>
      cases m with
      | obj items =>
        rw [unfold, e] at h
        simp only [Node.obj.injEq] at h
        obtain ⟨f, hf⟩ := hs _ _ e
        exact ⟨see, k, items, hs, view_ev hf, fun s => by rw [← h]; exact dictGet_mapKey _ _ _⟩
      | bool b => rw [unfold, e] at h; cases h
      | _ => exact stay (by rw [unfold, e])

theorem Res.Dec.not_dry {x : Res β} (h : x.Dec) (hd : x.Dry) : ∃ b, x = .ok b := by
  rcases h with h | ⟨e, he⟩
  · exact h
  · exact absurd he (hd e)

theorem loadAll_mono (w : World) (docs : List Doc) {f g : Nat} (h : f ≤ g) (mk : Node → α) (items : List (Str × Node)) (voc : List Kw)
    (d : Data α) (ht : (loadAll w (view docs f) mk items voc d).2 ≠ .timeout) :
    loadAll w (view docs g) mk items voc d = loadAll w (view docs f) mk items voc d := by
  exact loadAll_le w (fun n => view_mono docs h n) mk items voc d ht

/-- Validation by a node that shows this. -/
def byShown (w : World) (docs : List Doc) (voc : List Kw) (j : Nat) (v : Val) (c : Ctx) (m : Node) : Res Unit :=
  match m with
  | .bool b => if b then .ok () else .err (raisePlain c.path)
  | .obj items =>
    match loadAll w (view docs j) id items voc [] with
    | (d, .ok _) => runAll (validateN w docs voc j) w j v c d
    | (_, .err e) => .err e
    | (_, .timeout) => .timeout
  | x => loadNonObject x voc

theorem validateN_shown (w : World) (docs : List Doc) (voc : List Kw) (j : Nat) (n : Node) (v : Val) (c : Ctx) :
    validateN w docs voc (j + 1) n v c = view docs j n >>= byShown w docs voc j v c := rfl

/-- What the unfolding decides, the schema decides. -/
theorem validateN_unfold (w : World) (docs : List Doc) (voc : List Kw) (f : Nat) :
    ∀ (see : Node → Option Node), Truthful docs see → ∀ (k : Nat) (n : Node) (v : Val) (c : Ctx),
      (validateN w [] voc f (unfold see k n) v c).Dec →
      ∃ g, ∀ h, g ≤ h → validateN w docs voc h n v c = validateN w [] voc f (unfold see k n) v c := by
  induction f with
  | zero => intro see hs k n v c hd; rcases hd with ⟨_, h⟩ | ⟨_, h⟩ <;> cases h
  | succ f ih =>
    intro see hs k n v c hd
    -- what the unfolding shows
    have hv : ∃ m, view [] f (unfold see k n) = .ok m := by
      cases e : view [] f (unfold see k n) with
      | ok m => exact ⟨m, rfl⟩
      | err x =>
        rw [validateN_shown, e] at hd
        rcases hd with ⟨_, h⟩ | ⟨y, h⟩
        · cases h
        · simp only [Res.err_bind, Res.err.injEq] at h
          exact absurd (by rw [e, h]) (view_nil_dry f (unfold see k n) y)
      | timeout => rw [validateN_shown, e] at hd; rcases hd with ⟨_, h⟩ | ⟨_, h⟩ <;> cases h
    obtain ⟨m, hm⟩ := hv
    obtain ⟨rfl, hr⟩ := view_nil hm
    have lift : ∀ (m' : Node) (r : Res Unit), Ev (fun g => view docs g n) m' →
        (∃ g, ∀ j, g ≤ j → byShown w docs voc j v c m' = r) →
        ∃ g, ∀ h, g ≤ h → validateN w docs voc h n v c = r := by
      rintro m' r ⟨g1, h1⟩ ⟨g2, h2⟩
      refine ⟨max g1 g2 + 1, fun h hh => ?_⟩
      obtain ⟨j, rfl⟩ : ∃ j, h = j + 1 := ⟨h - 1, by omega⟩
      have e1 := h1 j (by omega)
      simp only at e1
      rw [validateN_shown, e1, Res.ok_bind]
      exact h2 j (by omega)
    generalize ht : unfold see k n = t at *
    have same : (∀ b, t ≠ .bool b) → (∀ kvs, t ≠ .obj kvs) → n = t := by
      intro hb ho
      rcases unfold_spec hs k n with e | ⟨b, e, _⟩ | ⟨_, kvs, e, _⟩
      · exact e.symm.trans ht
      · exact absurd (ht.symm.trans e) (hb b)
      · exact absurd (ht.symm.trans e) (ho kvs)
    rw [validateN_shown, hm, Res.ok_bind] at hd
    rw [validateN_shown, hm, Res.ok_bind]
    cases t with
    | bool b => exact lift _ _ (phi_bool (unfold_spec hs k) ht) ⟨0, fun _ _ => rfl⟩
    | obj kvs' =>
      obtain ⟨see', k', items, hs', hev, hi⟩ := unfold_obj hs k n ht
      have hl : (loadAll w (view [] f) id kvs' voc []).2 = .ok () := by
        have hdry := loadAll_dry w (view_nil_dry f) id kvs' voc ([] : Data Node)
        simp only [byShown] at hd
        generalize loadAll w (view [] f) id kvs' voc [] = z at hd hdry
        obtain ⟨d, r⟩ := z
        cases r with
        | ok _ => rfl
        | err x =>
          rcases hd with ⟨_, h⟩ | ⟨y, h⟩
          · cases h
          · simp only [Res.err.injEq] at h; exact absurd (by rw [h]) (hdry y)
        | timeout => rcases hd with ⟨_, h⟩ | ⟨_, h⟩ <;> cases h
      obtain ⟨g1, h1⟩ := loadAll_unfold hs' (unfold_spec hs' k') hi w voc [] hl
      have hmap := loadAll_map w (view docs g1) id (unfold see' k') items voc []
      have h1' := h1 g1 (Nat.le_refl _)
      rw [show unfold see' k' ∘ id = unfold see' k' from rfl, show Data.map (unfold see' k') [] = [] from rfl, h1'] at hmap
      generalize hD : loadAll w (view docs g1) id items voc [] = z at hmap
      obtain ⟨D, r⟩ := z
      simp only at hmap
      simp only [byShown] at hd ⊢
      rw [hmap] at hl hd ⊢
      simp only at hl hd ⊢
      subst hl
      simp only [← interp_progAll] at hd ⊢
      rw [progAll_map, interp_map] at hd ⊢
      obtain ⟨g2, h2⟩ := (progAll_strict w f v c D).follow (rec' := fun j => validateN w docs voc j)
        (fun a v c h => ih see' hs' k' a v c h) hd
      refine lift _ _ hev ⟨max (max g1 g2) f, fun j hj => ?_⟩
      have e1 := loadAll_mono w docs (show g1 ≤ j by omega) id items voc ([] : Data Node) (by rw [hD]; simp)
      simp only [byShown, e1, hD, ← interp_progAll]
      have e2 := h2 j (by omega)
      rw [progAll_mono _ w (show f ≤ j by omega) v c D, e2]
      rw [e2]
      intro h
      rw [h] at hd
      rcases hd with ⟨_, h⟩ | ⟨_, h⟩ <;> cases h
    | ref o d p => exact absurd rfl (hr o d p)
    | _ =>
      obtain rfl := same (by simp) (by simp)
      exact lift _ _ (view_plain_ev docs (by simp)) ⟨0, fun _ _ => rfl⟩

end Verif
