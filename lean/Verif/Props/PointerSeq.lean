import Verif.Model.PointerSeq
import Verif.Spec.Slice
import Verif.Props.Pointer
/-! # Property C82: a pointer is the sequence of its tokens -/

namespace Verif.Props
open Verif

namespace Ptr
open Pointer

theorem sliceLen_iff (a b st : Int) (hst : st ≠ 0) (k : Nat) :
    k < sliceLen a b st ↔ (if st < 0 then b < a + k * st else a + k * st < b) := by
  unfold sliceLen
  split
  · next h =>
    split
    · next hl =>
      have hd : 0 ≤ (a - b - 1) / -st := Int.ediv_nonneg (by omega) (by omega)
      have hm := Int.le_ediv_iff_mul_le (a := (k : Int)) (b := a - b - 1) (c := -st) (by omega)
      have : (k : Int) * -st = -(k * st) := by rw [Int.mul_neg]
      omega
    · next hl =>
      have : (k : Int) * st ≤ 0 := Int.mul_nonpos_of_nonneg_of_nonpos (by omega) (by omega)
      omega
  · next h =>
    split
    · next hl =>
      have hd : 0 ≤ (b - a - 1) / st := Int.ediv_nonneg (by omega) (by omega)
      have hm := Int.le_ediv_iff_mul_le (a := (k : Int)) (b := b - a - 1) (c := st) (by omega)
      omega
    · next hl =>
      have : 0 ≤ (k : Int) * st := Int.mul_nonneg (by omega) (by omega)
      omega

theorem filterMap_range {α : Type} (c : Nat) (f : Nat → Option α) (h : ∀ k < c, (f k).isSome) (k : Nat) :
    ((List.range c).filterMap f)[k]? = if k < c then f k else none := by
  have hl : ∀ c, (∀ k < c, (f k).isSome) → ((List.range c).filterMap f).length = c := by
    intro c
    induction c with
    | zero => intro _; rfl
    | succ c ih =>
      intro h
      obtain ⟨x, hx⟩ := Option.isSome_iff_exists.1 (h c (by omega))
      rw [List.range_succ, List.filterMap_append, List.length_append, ih fun k hk => h k (by omega)]
      simp [hx]
  induction c with
  | zero => simp
  | succ c ih =>
    have h' : ∀ k < c, (f k).isSome := fun k hk => h k (by omega)
    obtain ⟨x, hx⟩ := Option.isSome_iff_exists.1 (h c (by omega))
    rw [List.range_succ, List.filterMap_append, List.getElem?_append, hl c h']
    split
    · next hk => rw [ih h', if_pos hk, if_pos (by omega)]
    · next hk =>
      by_cases e : k = c
      · subst e; simp [hx]
      · rw [if_neg (by omega)]
        have : k - c ≠ 0 := by omega
        obtain ⟨d, hd⟩ := Nat.exists_eq_succ_of_ne_zero this
        rw [hd]; simp [hx]

/-- A slice is made of what is at its positions, in its order. -/
theorem listSlice_spec {α : Type} (nodes : List α) (a b c : Option Int) (hc : c ≠ some 0) :
    ∃ r, listSlice nodes a b c = .ok r ∧ ∀ k : Nat,
      let fwd := decide (0 < c.getD 1)
      let i := sliceStart nodes.length fwd a + k * c.getD 1
      (0 ≤ i ∧ sliceInside nodes.length fwd i b → r[k]? = nodes[i.toNat]?) ∧
      (¬ (0 ≤ i ∧ sliceInside nodes.length fwd i b) → r[k]? = none) := by
  have hst : c.getD 1 ≠ 0 := by
    cases c with
    | none => simp
    | some x => simpa using hc
  simp only [listSlice]
  generalize c.getD 1 = st at hst
  rw [if_neg hst]
  refine ⟨_, rfl, fun k => ?_⟩
  have hn : (0 : Int) ≤ nodes.length := by omega
  have hx : (0 < st → 0 ≤ (k : Int) * st) ∧ (st < 0 → (k : Int) * st ≤ 0) :=
    ⟨fun h => Int.mul_nonneg (by omega) (by omega), fun h => Int.mul_nonpos_of_nonneg_of_nonpos (by omega) (by omega)⟩
  rw [filterMap_range]
  · simp only [sliceLen_iff _ _ _ hst]
    by_cases hp : 0 < st
    · have hng : ¬ st < 0 := by omega
      have hx' := hx.1 hp
      generalize (k : Int) * st = x at hx'
      simp only [if_neg hng, hp, decide_true]
      have eq_none : ∀ j : Int, (nodes.length : Int) ≤ j → nodes[j.toNat]? = none := fun j hj => List.getElem?_eq_none_iff.2 (by omega)
      constructor
      · rintro ⟨h0, h1⟩
        by_cases hin : sliceStart nodes.length true a + x < nodes.length
        · have e : adjust (↑nodes.length) 0 (↑nodes.length) 0 a = sliceStart nodes.length true a := by
            unfold adjust sliceStart at *
            split
            · simp
            · simp only [if_true] at *; split <;> (simp_all; try omega)
          rw [e, if_pos]
          unfold adjust
          split
          · exact hin
          · simp only [sliceInside, if_true] at h1
            split <;> split at h1 <;> omega
        · rw [eq_none (sliceStart nodes.length true a + x) (by omega)]
          split
          · next hlt =>
            exfalso
            unfold adjust sliceStart at *
            cases a <;> cases b <;> simp only [if_true] at * <;> (repeat' split at hlt) <;> (repeat' split at hin) <;> omega
          · rfl
      · intro hno
        rw [if_neg]
        intro hlt
        apply hno
        unfold adjust sliceStart sliceInside at *
        cases a <;> cases b <;> simp only [if_true] at * <;> (repeat' split at hlt) <;> (repeat' split) <;> first | omega | (constructor <;> first | trivial | omega)
    · have hng : st < 0 := by omega
      have hx' := hx.2 hng
      generalize (k : Int) * st = x at hx'
      simp only [if_pos hng, hp, decide_false]
      constructor
      · rintro ⟨h0, h1⟩
        have e : adjust (↑nodes.length) (-1) (↑nodes.length - 1) (↑nodes.length - 1) a = sliceStart nodes.length false a := by
          unfold adjust sliceStart at *
          cases a
          · simp
          · simp only [Bool.false_eq_true, if_false] at *; split <;> (simp_all; try omega)
        rw [e, if_pos]
        unfold adjust
        cases b
        · simp only; omega
        · simp only [sliceInside, Bool.false_eq_true, if_false] at h1 ⊢
          split <;> split at h1 <;> omega
      · intro hno
        rw [if_neg]
        intro hlt
        apply hno
        unfold adjust sliceStart sliceInside at *
        cases a <;> cases b <;> simp only [Bool.false_eq_true, if_false] at * <;> (repeat' split at hlt) <;> (repeat' split) <;> first | omega | (constructor <;> first | trivial | omega)
  · intro j hj
    rw [sliceLen_iff _ _ _ hst] at hj
    have hy : (0 < st → 0 ≤ (j : Int) * st) ∧ (st < 0 → (j : Int) * st ≤ 0) :=
      ⟨fun h => Int.mul_nonneg (by omega) (by omega), fun h => Int.mul_nonpos_of_nonneg_of_nonpos (by omega) (by omega)⟩
    generalize (j : Int) * st = y at hj hy
    rw [Option.isSome_iff_ne_none, ne_eq, List.getElem?_eq_none_iff]
    by_cases hp : st < 0
    · simp only [if_pos hp] at *
      unfold adjust at *
      cases a <;> cases b <;> simp only at * <;> (repeat' split at hj) <;> (repeat' split) <;> omega
    · simp only [if_neg hp] at *
      unfold adjust at *
      cases a <;> cases b <;> simp only at * <;> (repeat' split at hj) <;> (repeat' split) <;> omega

/-- An index is what is at that place, counted from the end if negative. -/
theorem listAt_spec {α : Type} (nodes : List α) (i : Int) :
    (∀ k : Nat, (i = k ∨ i = k - (nodes.length : Int)) → ∀ t, nodes[k]? = some t → listAt nodes i = .ok t) ∧
    (i < -nodes.length ∨ (nodes.length : Int) ≤ i → listAt nodes i = .err .indexError) := by
  constructor
  · intro k hk t ht
    have hl : k < nodes.length := (List.getElem?_eq_some_iff.1 ht).1
    have e : (if i < 0 then i + nodes.length else i) = k := by split <;> omega
    simp only [listAt, e, Int.toNat_natCast, ht]
    rw [if_neg (by omega)]
  · intro h
    simp only [listAt]
    generalize hj : (if i < 0 then i + (nodes.length : Int) else i) = j
    have hj' : j < 0 ∨ (nodes.length : Int) ≤ j := by split at hj <;> omega
    by_cases h1 : j < 0
    · rw [if_pos h1]
    · rw [if_neg h1, List.getElem?_eq_none_iff.2 (by omega)]

end Ptr

open Pointer Ptr

/-- C82: a slice is the pointer made of the tokens at the positions of the slice, in its order. -/
theorem C82_slice (nodes : List Str) (a b c : Option Int) (hc : c ≠ some 0) :
    ∃ r, getItem nodes (.slice a b c) = .ok (.pointer r) ∧ ∀ k : Nat,
      let fwd := decide (0 < c.getD 1)
      let i := sliceStart nodes.length fwd a + k * c.getD 1
      (0 ≤ i ∧ sliceInside nodes.length fwd i b → r[k]? = nodes[i.toNat]?) ∧
      (¬ (0 ≤ i ∧ sliceInside nodes.length fwd i b) → r[k]? = none) := by
  obtain ⟨r, hr, h⟩ := listSlice_spec nodes a b c hc
  exact ⟨r, by simp only [getItem, hr]; rfl, h⟩

/-- Instance: `pointer[-1::-2]` of `/a/b/c/d` is `/d/b`. -/
example : getItem [c!"a", c!"b", c!"c", c!"d"] (.slice (some (-1)) none (some (-2))) = .ok (.pointer [c!"d", c!"b"]) := by decide

/-- C82: a step of 0 raises `ValueError`, what is neither an `int` nor a slice raises `TypeError`. -/
theorem C82_refused (nodes : List Str) (a b : Option Int) :
    getItem nodes (.slice a b (some 0)) = .err .valueError ∧ getItem nodes .other = .err .typeError := ⟨rfl, rfl⟩

/-- C82: an index is the token at that place, counted from the end if negative; outside `IndexError` is raised. -/
theorem C82_index (nodes : List Str) (i : Int) :
    (∀ k : Nat, (i = k ∨ i = k - (nodes.length : Int)) → ∀ t, nodes[k]? = some t → getItem nodes (.int i) = .ok (.token t)) ∧
    (i < -nodes.length ∨ (nodes.length : Int) ≤ i → getItem nodes (.int i) = .err .indexError) := by
  refine ⟨fun k hk t ht => ?_, fun h => ?_⟩
  · simp only [getItem, (listAt_spec nodes i).1 k hk t ht]; rfl
  · simp only [getItem, (listAt_spec nodes i).2 h]; rfl

/-- C82: membership, length and iteration are those of the tokens. -/
theorem C82_members (nodes : List Str) : len nodes = nodes.length ∧ iter nodes = nodes ∧
    (∀ t, contains nodes t = true ↔ t ∈ nodes) := by
  refine ⟨rfl, rfl, fun t => ?_⟩
  simp [contains]

theorem indexLoop_spec (nodes : List Str) (v : Str) (stop : Option Int) : ∀ f i, nodes.length < f + i → 0 < f →
    (∃ k : Nat, indexLoop nodes v stop f i = .ok k ∧ i ≤ k ∧ (∀ b, stop = some b → (k : Int) < b) ∧ nodes[k]? = some v ∧
      ∀ j : Nat, i ≤ j → j < k → nodes[j]? ≠ some v) ∨
    indexLoop nodes v stop f i = .err .valueError ∧ ∀ k : Nat, i ≤ k → (∀ b, stop = some b → (k : Int) < b) → nodes[k]? ≠ some v
  | 0, i => by intro h1 h2; omega
  | f + 1, i => by
    intro h1 _
    by_cases hs : stop.any (fun b : Int => decide (b ≤ (i : Int))) = true
    · refine .inr ⟨by simp only [indexLoop, hs, if_true], fun k hk hb => ?_⟩
      cases stop with
      | none => simp at hs
      | some b =>
        have := hb b rfl
        simp at hs
        omega
    · have hs' : ∀ b, stop = some b → (i : Int) < b := by
        rintro b rfl
        simp at hs
        exact hs
      by_cases hi : i < nodes.length
      · have e : getItem nodes (.int i) = .ok (.token nodes[i]) :=
          (C82_index nodes i).1 i (.inl rfl) _ (List.getElem?_eq_getElem hi)
        simp only [indexLoop, e, if_neg hs]
        split
        · next h => exact .inl ⟨i, rfl, Nat.le_refl _, hs', by rw [List.getElem?_eq_getElem hi, h], by intro j h1 h2; omega⟩
        · next h =>
          have hne : nodes[i]? ≠ some v := by rw [List.getElem?_eq_getElem hi]; simpa using h
          rcases indexLoop_spec nodes v stop f (i + 1) (by omega) (by omega) with ⟨k, e, h1, h2, h3, h4⟩ | ⟨e, h1⟩
          · refine .inl ⟨k, e, by omega, h2, h3, fun j g1 g2 => ?_⟩
            by_cases e2 : j = i
            · subst e2; exact hne
            · exact h4 j (by omega) g2
          · refine .inr ⟨e, fun k g1 g2 => ?_⟩
            by_cases e2 : k = i
            · subst e2; exact hne
            · exact h1 k (by omega) g2
      · have e : getItem nodes (.int i) = .err .indexError := (C82_index nodes i).2 (.inr (by omega))
        refine .inr ⟨by simp only [indexLoop, e, if_neg hs], fun k hk _ => ?_⟩
        rw [List.getElem?_eq_none (by omega)]
        simp

/-- The places between `start` and `stop`, which are counted from the end if negative. -/
def Between (n : Nat) (start : Int) (stop : Option Int) (k : Nat) : Prop :=
  (0 ≤ start → start ≤ k) ∧ (start < 0 → start + n ≤ k) ∧ ∀ b, stop = some b → (0 ≤ b → (k : Int) < b) ∧ (b < 0 → (k : Int) < b + n)

/-- C82: `index` with `start` and `stop` finds the first place of a token between them, or raises `ValueError`; with `None` for `start` it
raises `TypeError`. -/
theorem C82_index_range (nodes : List Str) (v : Str) (start : Int) (stop : Option Int) :
    ((∃ k : Nat, indexFrom nodes v (some start) stop = .ok k ∧ Between nodes.length start stop k ∧ nodes[k]? = some v ∧
      ∀ j < k, Between nodes.length start stop j → nodes[j]? ≠ some v) ∨
    indexFrom nodes v (some start) stop = .err .valueError ∧ ∀ k, Between nodes.length start stop k → nodes[k]? ≠ some v) ∧
    indexFrom nodes v none stop = .err .typeError := by
  refine ⟨?_, rfl⟩
  generalize hi : (if start < 0 then max ((nodes.length : Int) + start) 0 else start).toNat = i
  generalize ht : (stop.map fun b => if b < 0 then b + (nodes.length : Int) else b) = t
  have e : indexFrom nodes v (some start) stop = indexLoop nodes v t (nodes.length + 1) i := by rw [← hi, ← ht]; rfl
  have hb : ∀ k : Nat, Between nodes.length start stop k ↔ i ≤ k ∧ ∀ b, t = some b → (k : Int) < b := by
    intro k
    have h1 : ((0 ≤ start → start ≤ k) ∧ (start < 0 → start + (nodes.length : Int) ≤ k)) ↔ i ≤ k := by
      rw [← hi]
      split <;> omega
    have h2 : (∀ b, stop = some b → (0 ≤ b → (k : Int) < b) ∧ (b < 0 → (k : Int) < b + (nodes.length : Int))) ↔ ∀ b, t = some b → (k : Int) < b := by
      rw [← ht]
      cases stop with
      | none => simp
      | some b =>
        simp only [Option.some.injEq, Option.map_some, forall_eq']
        split <;> omega
    rw [← h1, ← h2, Between, and_assoc]
  rw [e]
  simp only [hb]
  rcases indexLoop_spec nodes v t (nodes.length + 1) i (by omega) (by omega) with ⟨k, h0, h1, h2, h3, h4⟩ | ⟨h0, h1⟩
  · exact .inl ⟨k, h0, ⟨h1, h2⟩, h3, fun j hj hk => h4 j hk.1 hj⟩
  · exact .inr ⟨h0, fun k hk => h1 k hk.1 hk.2⟩

/-- Instance: the second `a` of `/a/b/a` is found from the end. -/
example : indexFrom [c!"a", c!"b", c!"a"] c!"a" (some (-1)) none = .ok 2 := by decide

/-- C82: `index` finds the first place of a token, or raises `ValueError`; `count` counts it; `reversed` turns the tokens round. -/
theorem C82_sequence (nodes : List Str) (v : Str) :
    (v ∈ nodes → ∃ k, index nodes v = .ok k ∧ nodes[k]? = some v ∧ ∀ j < k, nodes[j]? ≠ some v) ∧
    (v ∉ nodes → index nodes v = .err .valueError) ∧ count nodes v = nodes.count v ∧ reversed nodes = .ok nodes.reverse := by
  have hb : ∀ k, Between nodes.length 0 none k := fun k => ⟨fun _ => by omega, fun h => by omega, by simp⟩
  have h : (v ∈ nodes → ∃ k, index nodes v = .ok k ∧ nodes[k]? = some v ∧ ∀ j < k, nodes[j]? ≠ some v) ∧
      (v ∉ nodes → index nodes v = .err .valueError) := by
    rcases (C82_index_range nodes v 0 none).1 with ⟨k, h0, -, h1, h2⟩ | ⟨h0, h1⟩
    · exact ⟨fun _ => ⟨k, h0, h1, fun j hj => h2 j hj (hb j)⟩, fun hn => absurd (List.mem_of_getElem? h1) hn⟩
    · refine ⟨fun hm => ?_, fun _ => h0⟩
      obtain ⟨k, hk⟩ := List.mem_iff_getElem?.1 hm
      exact absurd hk (h1 k (hb k))
  refine ⟨h.1, h.2, rfl, ?_⟩
  have : ∀ i ≤ nodes.length, reversedFrom nodes i = .ok (nodes.take i).reverse := by
    intro i
    induction i with
    | zero => intro _; rfl
    | succ i ih =>
      intro hi
      have e : getItem nodes (.int i) = .ok (.token nodes[i]) :=
        (C82_index nodes i).1 i (.inl rfl) _ (List.getElem?_eq_getElem (by omega))
      simp only [reversedFrom, e, Res.ok_bind, ih (by omega)]
      rw [List.take_succ_eq_append_getElem (by omega), List.reverse_append]
      rfl
  simpa [reversed, len] using this nodes.length (by omega)

/-- C82: a pointer made from a list has these tokens, and is printed and read back if it is not empty. -/
theorem C82_from_list (ts : List Str) (h : ts ≠ []) : parse (print (fromList ts)) = .ok ts := C01_token_round_trip ts h

/-- C82 fails: two pointers with the same tokens are not equal. -/
theorem C82_equal_violated : ∃ a b : Obj, a.nodes = b.nodes ∧ objEq a b = false := ⟨⟨0, []⟩, ⟨1, []⟩, rfl, rfl⟩

/-- C82 fails: the text of a pointer is not the texts of its two parts one after the other, since the empty pointer is printed as `/`. -/
theorem C82_parts_violated : ∃ (nodes : List Str) (a b : List Str), getItem nodes (.slice none (some 0) none) = .ok (.pointer a) ∧
    getItem nodes (.slice (some 0) none none) = .ok (.pointer b) ∧ print a ++ print b ≠ print nodes :=
  ⟨[c!"a"], [], [c!"a"], by decide, by decide, by decide⟩

/-- C82: with two parts that are not empty it is. -/
theorem C82_parts (a b : List Str) (ha : a ≠ []) (hb : b ≠ []) : print (a ++ b) = print a ++ print b := by
  simp [print, ha, hb]

end Verif.Props
