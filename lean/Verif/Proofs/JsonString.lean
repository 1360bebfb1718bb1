import Verif.Model.JsonString
import Verif.Spec.Substring
/-! # Searching texts in texts -/

namespace Verif.Props.JS
open Verif Verif.JStr

theorem at_iff (s sub : Str) (i : Nat) : AtPlace s sub i ↔ i + sub.length ≤ s.length ∧ (s.drop i).take sub.length = sub := by
  constructor
  · rintro ⟨p, q, rfl, rfl⟩
    simp
  · rintro ⟨h1, h2⟩
    refine ⟨s.take i, s.drop (i + sub.length), ?_, by rw [List.length_take]; omega⟩
    conv => lhs; rw [← List.take_append_drop i s, ← List.take_append_drop sub.length (s.drop i), h2, List.drop_drop]

theorem at_zero (s sub : Str) : AtPlace s sub 0 ↔ sub.isPrefixOf s = true := by
  rw [List.isPrefixOf_iff_prefix]
  constructor
  · rintro ⟨p, q, rfl, h⟩
    obtain rfl := List.length_eq_zero_iff.1 h
    exact ⟨q, rfl⟩
  · rintro ⟨q, rfl⟩; exact ⟨[], q, rfl, rfl⟩

theorem at_add (s sub : Str) (k i : Nat) (hk : k ≤ s.length) : AtPlace (s.drop k) sub i ↔ AtPlace s sub (k + i) := by
  rw [at_iff, at_iff, List.drop_drop, List.length_drop]
  constructor
  · rintro ⟨h1, h2⟩; exact ⟨by omega, h2⟩
  · rintro ⟨h1, h2⟩; exact ⟨by omega, h2⟩

theorem at_succ (c : Char) (r sub : Str) (i : Nat) : AtPlace (c :: r) sub (i + 1) ↔ AtPlace r sub i := by
  have := at_add (c :: r) sub 1 i (by simp)
  rw [Nat.add_comm] at this
  exact this.symm

theorem at_drop (s sub : Str) (i : Nat) (hi : i ≤ s.length) : AtPlace s sub i ↔ sub.isPrefixOf (s.drop i) = true := by
  rw [← at_zero, at_add s sub i 0 hi, Nat.add_zero]

theorem at_len {s sub : Str} {i : Nat} (h : AtPlace s sub i) : i + sub.length ≤ s.length := ((at_iff _ _ _).1 h).1

/-- Places of a window. -/
theorem at_window (s sub : Str) (a b k : Nat) (hb : b ≤ s.length) (hab : a ≤ b) :
    AtPlace ((s.take b).drop a) sub k ↔ AtPlace s sub (a + k) ∧ a + k + sub.length ≤ b := by
  rw [at_iff, at_iff, List.drop_drop, List.length_drop, List.length_take, List.drop_take, List.take_take]
  constructor
  · rintro ⟨h1, h2⟩
    rw [Nat.min_eq_left (by omega)] at h2
    exact ⟨⟨by omega, h2⟩, by omega⟩
  · rintro ⟨⟨h1, h2⟩, h3⟩
    refine ⟨by omega, ?_⟩
    rw [Nat.min_eq_left (by omega)]
    exact h2

theorem search_spec (sub : Str) : ∀ (w : Str) (i0 : Nat),
    (∀ k, search sub w i0 = some k → ∃ d, k = i0 + d ∧ AtPlace w sub d ∧ ∀ e < d, ¬ AtPlace w sub e) ∧
    (search sub w i0 = none → ∀ d, ¬ AtPlace w sub d)
  | [], i0 => by
    unfold search
    cases sub with
    | nil => exact ⟨fun k h => ⟨0, by simpa using h.symm, ⟨[], [], rfl, rfl⟩, by omega⟩, by simp⟩
    | cons c r =>
      refine ⟨by simp, fun _ d hd => ?_⟩
      have := at_len hd
      simp at this
  | c :: r, i0 => by
    unfold search
    obtain ⟨h1, h2⟩ := search_spec sub r (i0 + 1)
    split
    · next h =>
      refine ⟨fun k hk => ⟨0, by simpa using hk.symm, (at_zero _ _).2 h, by omega⟩, by simp⟩
    · next h =>
      have h0 : ¬ AtPlace (c :: r) sub 0 := fun x => h ((at_zero _ _).1 x)
      refine ⟨fun k hk => ?_, fun hn d hd => ?_⟩
      · obtain ⟨d, e, ha, hl⟩ := h1 k hk
        refine ⟨d + 1, by omega, (at_succ c r sub d).2 ha, fun e he hx => ?_⟩
        cases e with
        | zero => exact h0 hx
        | succ e => exact hl e (by omega) ((at_succ c r sub e).1 hx)
      · cases d with
        | zero => exact h0 hd
        | succ d => exact h2 hn d ((at_succ c r sub d).1 hd)

theorem searchBack_spec (sub w : Str) : ∀ i, i ≤ w.length →
    (∀ k, searchBack sub w i = some k → k ≤ i ∧ AtPlace w sub k ∧ ∀ e, e ≤ i → k < e → ¬ AtPlace w sub e) ∧
    (searchBack sub w i = none → ∀ e ≤ i, ¬ AtPlace w sub e)
  | 0, _ => by
    unfold searchBack
    split
    · next h =>
      refine ⟨fun k hk => ?_, by simp⟩
      obtain rfl : 0 = k := by simpa using hk
      exact ⟨by omega, (at_zero _ _).2 h, by omega⟩
    · next h =>
      refine ⟨by simp, fun _ e he hx => ?_⟩
      obtain rfl : e = 0 := by omega
      exact h ((at_zero _ _).1 hx)
  | i + 1, hi => by
    unfold searchBack
    obtain ⟨h1, h2⟩ := searchBack_spec sub w i (by omega)
    split
    · next h =>
      refine ⟨fun k hk => ?_, by simp⟩
      obtain rfl : i + 1 = k := by simpa using hk
      exact ⟨by omega, (at_drop _ _ _ hi).2 h, by omega⟩
    · next h =>
      have h0 : ¬ AtPlace w sub (i + 1) := fun x => h ((at_drop _ _ _ hi).1 x)
      refine ⟨fun k hk => ?_, fun hn e he hx => ?_⟩
      · obtain ⟨a, b, c⟩ := h1 k hk
        refine ⟨by omega, b, fun e he hl hx => ?_⟩
        by_cases e1 : e = i + 1
        · exact h0 (e1 ▸ hx)
        · exact c e (by omega) hl hx
      · by_cases e1 : e = i + 1
        · exact h0 (e1 ▸ hx)
        · exact h2 hn e (by omega) hx

/-- The ends of the window, as numbers. -/
theorem ends_spec (n : Nat) (start stop : Int) :
    ends n start stop = (windowStart n start, windowEnd n stop) := by
  unfold ends windowStart windowEnd
  simp only [Prod.mk.injEq]
  constructor <;> (repeat' split) <;> omega

theorem start_nonneg (n : Nat) (start : Int) : 0 ≤ windowStart n start := by unfold windowStart; omega
theorem end_le (n : Nat) (stop : Int) : 0 ≤ windowEnd n stop ∧ windowEnd n stop ≤ n := by unfold windowEnd; omega

/-- A window in natural numbers. -/
theorem window (n : Nat) (start stop : Int) (m : Nat) (h : ¬ windowEnd n stop - windowStart n start < m) :
    ∃ a b : Nat, windowStart n start = a ∧ windowEnd n stop = b ∧ a + m ≤ b ∧ b ≤ n := by
  have := start_nonneg n start
  have := end_le n stop
  exact ⟨(windowStart n start).toNat, (windowEnd n stop).toNat, by omega, by omega, by omega, by omega⟩

theorem none_within {s sub : Str} {start stop : Int} (h : windowEnd s.length stop - windowStart s.length start < sub.length) (i : Nat) :
    ¬ Within s sub start stop i := by
  rintro ⟨_, h1, h2⟩
  omega

theorem strFind_spec (s sub : Str) (start stop : Int) :
    (∀ k, strFind s sub start stop = some k → ∃ i : Nat, k = i ∧ Within s sub start stop i ∧ ∀ j < i, ¬ Within s sub start stop j) ∧
    (strFind s sub start stop = none → ∀ i, ¬ Within s sub start stop i) := by
  unfold strFind
  simp only [ends_spec]
  split
  · next h => exact ⟨by simp, fun _ => none_within h⟩
  · next h =>
    obtain ⟨a, b, ea, eb, hab, hb⟩ := window _ _ _ _ h
    obtain ⟨h1, h2⟩ := search_spec sub ((s.take b).drop a) 0
    have hw : ∀ i, Within s sub start stop i ↔ ∃ d, i = a + d ∧ AtPlace ((s.take b).drop a) sub d := by
      intro i
      unfold Within
      rw [ea, eb]
      constructor
      · rintro ⟨x, y, z⟩
        refine ⟨i - a, by omega, (at_window _ _ _ _ _ hb (by omega)).2 ⟨?_, by omega⟩⟩
        rw [show a + (i - a) = i by omega]; exact x
      · rintro ⟨d, rfl, x⟩
        obtain ⟨x1, x2⟩ := (at_window _ _ _ _ _ hb (by omega)).1 x
        exact ⟨x1, by omega, by omega⟩
    rw [ea, eb]
    simp only [Int.toNat_natCast]
    refine ⟨fun k hk => ?_, fun hn i hi => ?_⟩
    · obtain ⟨x, hx, rfl⟩ := Option.map_eq_some_iff.1 hk
      obtain ⟨d, rfl, hd, hl⟩ := h1 x hx
      refine ⟨a + d, by omega, (hw _).2 ⟨d, rfl, hd⟩, fun j hj hx => ?_⟩
      obtain ⟨e, rfl, he⟩ := (hw j).1 hx
      exact hl e (by omega) he
    · obtain ⟨d, rfl, hd⟩ := (hw i).1 hi
      exact h2 (Option.map_eq_none_iff.1 hn) d hd

theorem strRfind_spec (s sub : Str) (start stop : Int) :
    (∀ k, strRfind s sub start stop = some k → ∃ i : Nat, k = i ∧ Within s sub start stop i ∧ ∀ j > i, ¬ Within s sub start stop j) ∧
    (strRfind s sub start stop = none → ∀ i, ¬ Within s sub start stop i) := by
  unfold strRfind
  simp only [ends_spec]
  split
  · next h => exact ⟨by simp, fun _ => none_within h⟩
  · next h =>
    obtain ⟨a, b, ea, eb, hab, hb⟩ := window _ _ _ _ h
    have hl : ((s.take b).drop a).length = b - a := by rw [List.length_drop, List.length_take]; omega
    obtain ⟨h1, h2⟩ := searchBack_spec sub ((s.take b).drop a) (b - a - sub.length) (by omega)
    have hw : ∀ i, Within s sub start stop i ↔ ∃ d, i = a + d ∧ AtPlace ((s.take b).drop a) sub d := by
      intro i
      unfold Within
      rw [ea, eb]
      constructor
      · rintro ⟨x, y, z⟩
        refine ⟨i - a, by omega, (at_window _ _ _ _ _ hb (by omega)).2 ⟨?_, by omega⟩⟩
        rw [show a + (i - a) = i by omega]; exact x
      · rintro ⟨d, rfl, x⟩
        obtain ⟨x1, x2⟩ := (at_window _ _ _ _ _ hb (by omega)).1 x
        exact ⟨x1, by omega, by omega⟩
    rw [ea, eb]
    have e : ((b : Int) - a - sub.length).toNat = b - a - sub.length := by omega
    simp only [Int.toNat_natCast, e]
    refine ⟨fun k hk => ?_, fun hn i hi => ?_⟩
    · obtain ⟨x, hx, rfl⟩ := Option.map_eq_some_iff.1 hk
      obtain ⟨_, hd, hl'⟩ := h1 x hx
      refine ⟨a + x, by omega, (hw _).2 ⟨x, rfl, hd⟩, fun j hj hx => ?_⟩
      obtain ⟨e, rfl, he⟩ := (hw j).1 hx
      have := at_len he
      exact hl' e (by omega) (by omega) he
    · obtain ⟨d, rfl, hd⟩ := (hw i).1 hi
      have := at_len hd
      exact h2 (Option.map_eq_none_iff.1 hn) d (by omega) hd

theorem countLoop_skip (sub : Str) : ∀ k w, countLoop sub k w = countLoop sub 0 (w.drop k)
  | 0, w => rfl
  | k + 1, [] => by simp [countLoop]
  | k + 1, c :: r => by rw [countLoop, List.drop_succ_cons]; exact countLoop_skip sub k r

/-- How many texts fit: the greatest number of places that are apart. -/
def Most (P : Nat → Prop) (m c : Nat) : Prop :=
  (∃ is : List Nat, is.length = c ∧ Apart m is ∧ ∀ i ∈ is, P i) ∧ ∀ is : List Nat, Apart m is → (∀ i ∈ is, P i) → is.length ≤ c

theorem apart_add {m : Nat} {is : List Nat} (a : Nat) (h : Apart m is) : Apart m (is.map (a + ·)) := by
  unfold Apart at *
  rw [List.pairwise_map]
  exact h.imp fun hx => by omega

theorem apart_sub {m : Nat} {is : List Nat} (a : Nat) (h : Apart m is) (hb : ∀ i ∈ is, a ≤ i) : Apart m (is.map (· - a)) := by
  unfold Apart at *
  rw [List.pairwise_map]
  exact h.imp_of_mem fun hx hy hxy => by have := hb _ hx; have := hb _ hy; omega

theorem most_shift {P Q : Nat → Prop} {m c : Nat} (a : Nat) (h : ∀ i, Q i ↔ ∃ d, i = a + d ∧ P d) (hp : Most P m c) : Most Q m c := by
  obtain ⟨⟨is, hl, hap, hin⟩, hmax⟩ := hp
  refine ⟨⟨is.map (a + ·), by simpa using hl, apart_add a hap, fun i hi => ?_⟩, fun is hap hin => ?_⟩
  · obtain ⟨d, hd, rfl⟩ := List.mem_map.1 hi
    exact (h _).2 ⟨d, rfl, hin d hd⟩
  · have hb : ∀ i ∈ is, a ≤ i := fun i hi => by obtain ⟨d, rfl, _⟩ := (h i).1 (hin i hi); omega
    have := hmax (is.map (· - a)) (apart_sub a hap hb) fun i hi => by
      obtain ⟨x, hx, rfl⟩ := List.mem_map.1 hi
      obtain ⟨d, rfl, hd⟩ := (h x).1 (hin x hx)
      rwa [Nat.add_sub_cancel_left]
    simpa using this

theorem countLoop_spec (sub : Str) (hs : sub ≠ []) : ∀ (n : Nat) (w : Str), w.length ≤ n → Most (AtPlace w sub) sub.length (countLoop sub 0 w) := by
  have hm : 1 ≤ sub.length := by cases sub with | nil => exact absurd rfl hs | cons _ _ => simp
  intro n
  induction n with
  | zero =>
    intro w hw
    obtain rfl : w = [] := List.length_eq_zero_iff.1 (by omega)
    refine ⟨⟨[], rfl, List.Pairwise.nil, by simp⟩, fun is _ hin => ?_⟩
    cases is with
    | nil => simp
    | cons i r => have := at_len (hin i (by simp)); rw [List.length_nil] at this; omega
  | succ n ih =>
    intro w hw
    cases w with
    | nil =>
      refine ⟨⟨[], rfl, List.Pairwise.nil, by simp⟩, fun is _ hin => ?_⟩
      cases is with
      | nil => simp
      | cons i r => have := at_len (hin i (by simp)); rw [List.length_nil] at this; omega
    | cons c r =>
      unfold countLoop
      split
      · next h =>
        have h0 := (at_zero _ _).2 h
        rw [countLoop_skip]
        have hlen := at_len h0
        have hd : r.drop (sub.length - 1) = (c :: r).drop sub.length := by
          obtain ⟨k, hk⟩ := Nat.exists_eq_add_of_le' hm
          rw [hk]; rfl
        rw [hd]
        obtain ⟨⟨is, hl, hap, hin⟩, hmax⟩ := ih ((c :: r).drop sub.length) (by rw [List.length_drop]; simp at hw ⊢; omega)
        have hadd := fun i => at_add (c :: r) sub sub.length i (by omega)
        refine ⟨⟨0 :: is.map (sub.length + ·), by simpa using hl, ?_, ?_⟩, fun js hjp hj => ?_⟩
        · unfold Apart
          rw [List.pairwise_cons]
          refine ⟨fun i hi => ?_, apart_add _ hap⟩
          obtain ⟨d, _, rfl⟩ := List.mem_map.1 hi
          omega
        · intro i hi
          rcases List.mem_cons.1 hi with rfl | hi
          · exact h0
          · obtain ⟨d, hd, rfl⟩ := List.mem_map.1 hi
            exact (hadd d).1 (hin d hd)
        · cases js with
          | nil => simp
          | cons x t =>
            unfold Apart at hjp
            rw [List.pairwise_cons] at hjp
            have hb : ∀ i ∈ t, sub.length ≤ i := fun i hi => by have := hjp.1 i hi; omega
            have := hmax (t.map (· - sub.length)) (apart_sub _ hjp.2 hb) fun i hi => by
              obtain ⟨y, hy, rfl⟩ := List.mem_map.1 hi
              refine (hadd _).2 ?_
              rw [Nat.add_sub_cancel' (hb y hy)]
              exact hj y (by simp [hy])
            simpa using this
      · next h =>
        have h0 : ¬ AtPlace (c :: r) sub 0 := fun x => h ((at_zero _ _).1 x)
        refine most_shift 1 (fun i => ?_) (ih r (by simpa using hw))
        constructor
        · intro hi
          cases i with
          | zero => exact absurd hi h0
          | succ i => exact ⟨i, by omega, (at_succ c r sub i).1 hi⟩
        · rintro ⟨d, rfl, hd⟩
          rw [Nat.add_comm]
          exact (at_succ c r sub d).2 hd

theorem rising_le : ∀ (is : List Nat) (N lo : Nat), is.Pairwise (fun i j => i + 1 ≤ j) → (∀ i ∈ is, lo ≤ i ∧ i ≤ N) → lo ≤ N + 1 → is.length + lo ≤ N + 1
  | [], N, lo, _, _, h => by simpa using h
  | i :: r, N, lo, hp, hb, h => by
    rw [List.pairwise_cons] at hp
    obtain ⟨h1, h2⟩ := hb i (by simp)
    have := rising_le r N (i + 1) hp.2 (fun j hj => ⟨hp.1 j hj, (hb j (by simp [hj])).2⟩) (by omega)
    simp only [List.length_cons]
    omega

theorem empty_most (w : Str) : Most (AtPlace w []) 0 (w.length + 1) := by
  refine ⟨⟨List.range (w.length + 1), by simp, ?_, fun i hi => ?_⟩, fun is hp hin => ?_⟩
  · exact List.pairwise_lt_range.imp fun h => by omega
  · exact (at_iff _ _ _).2 ⟨by simp at hi ⊢; omega, by simp⟩
  · have := rising_le is w.length 0 (hp.imp fun h => by omega) (fun i hi => ⟨by omega, by simpa using at_len (hin i hi)⟩) (by omega)
    omega

theorem strCount_spec (s sub : Str) (start stop : Int) : Most (Within s sub start stop) sub.length (strCount s sub start stop) := by
  unfold strCount
  simp only [ends_spec]
  split
  · next h =>
    refine ⟨⟨[], rfl, List.Pairwise.nil, by simp⟩, fun is _ hin => ?_⟩
    cases is with
    | nil => simp
    | cons i r => exact absurd (hin i (by simp)) (none_within h i)
  · next h =>
    obtain ⟨a, b, ea, eb, hab, hb⟩ := window _ _ _ _ h
    have hw : ∀ i, Within s sub start stop i ↔ ∃ d, i = a + d ∧ AtPlace ((s.take b).drop a) sub d := by
      intro i
      unfold Within
      rw [ea, eb]
      constructor
      · rintro ⟨x, y, z⟩
        refine ⟨i - a, by omega, (at_window _ _ _ _ _ hb (by omega)).2 ⟨?_, by omega⟩⟩
        rw [show a + (i - a) = i by omega]; exact x
      · rintro ⟨d, rfl, x⟩
        obtain ⟨x1, x2⟩ := (at_window _ _ _ _ _ hb (by omega)).1 x
        exact ⟨x1, by omega, by omega⟩
    rw [ea, eb]
    simp only [Int.toNat_natCast]
    refine most_shift a hw ?_
    cases sub with
    | nil => exact empty_most _
    | cons c r => exact countLoop_spec (c :: r) (by simp) _ _ (Nat.le_refl _)

theorem strStarts_spec (s sub : Str) (start stop : Int) :
    strStarts s sub start stop = true ↔ ∃ i : Nat, i = windowStart s.length start ∧ Within s sub start stop i := by
  unfold strStarts
  simp only [ends_spec]
  split
  · next h =>
    refine ⟨by simp, ?_⟩
    rintro ⟨i, _, hi⟩
    exact absurd hi (none_within (by omega) i)
  · next h =>
    obtain ⟨a, b, ea, eb, hab, hb⟩ := window s.length start stop sub.length (by omega)
    rw [ea, Int.toNat_natCast, Bool.or_eq_true, beq_iff_eq]
    constructor
    · intro hx
      refine ⟨a, rfl, (at_iff _ _ _).2 ⟨by omega, ?_⟩, by omega, by omega⟩
      rcases hx with hx | hx
      · rw [List.isEmpty_iff.1 hx]; simp
      · exact hx
    · rintro ⟨i, e, hi, _⟩
      obtain rfl : i = a := by omega
      exact .inr ((at_iff _ _ _).1 hi).2

theorem strEnds_spec (s sub : Str) (start stop : Int) :
    strEnds s sub start stop = true ↔ ∃ i : Nat, (i + sub.length : Int) = windowEnd s.length stop ∧ Within s sub start stop i := by
  unfold strEnds
  simp only [ends_spec]
  split
  · next h =>
    refine ⟨by simp, ?_⟩
    rintro ⟨i, _, hi⟩
    exact absurd hi (none_within (by omega) i)
  · next h =>
    obtain ⟨a, b, ea, eb, hab, hb⟩ := window s.length start stop sub.length (by omega)
    have e : ((b : Int) - sub.length).toNat = b - sub.length := by omega
    rw [eb, e, Bool.or_eq_true, beq_iff_eq]
    constructor
    · intro hx
      refine ⟨b - sub.length, by omega, (at_iff _ _ _).2 ⟨by omega, ?_⟩, by omega, by omega⟩
      rcases hx with hx | hx
      · rw [List.isEmpty_iff.1 hx]; simp
      · exact hx
    · rintro ⟨i, e, hi, _⟩
      obtain rfl : i = b - sub.length := by omega
      exact .inr ((at_iff _ _ _).1 hi).2

theorem times_spec (s : Str) : ∀ n, (times s n).length = n * s.length ∧ ∀ k < n * s.length, (times s n)[k]? = s[k % s.length]?
  | 0 => by simp [times]
  | n + 1 => by
    obtain ⟨h1, h2⟩ := times_spec s n
    refine ⟨by rw [times, List.length_append, h1, Nat.succ_mul, Nat.add_comm], fun k hk => ?_⟩
    rw [times, List.getElem?_append]
    split
    · next h => rw [Nat.mod_eq_of_lt h]
    · next h =>
      rw [Nat.succ_mul] at hk
      rw [h2 _ (by omega), Nat.mod_eq_sub_mod (a := k) (by omega)]

end Verif.Props.JS
