import Verif.Model.Schema
import Verif.Spec.Query
import Verif.Spec.Json
import Verif.Proofs.Dict
/-! # Following pointers: lemmas for C06 and C10 -/

namespace Verif
open Verif.Spec

/-! ## `int` -/

theorem digit_iff (c : Char) : asciiDigit c = true ↔ ('0' ≤ c ∧ c ≤ '9') := by simp [asciiDigit]

theorem digit_not_cspace {c : Char} (h : '0' ≤ c ∧ c ≤ '9') : ¬ CSpace c := by
  rintro (rfl | rfl | rfl | rfl | rfl | rfl) <;> revert h <;> decide

theorem stripL_not {c : Char} {r : Str} (h : ¬ CSpace c) : stripL (c :: r) = c :: r := by
  unfold stripL
  exact if_neg h

theorem stripL_split (s : Str) : ∃ a, s = a ++ stripL s ∧ ∀ c ∈ a, CSpace c := by
  induction s with
  | nil => exact ⟨[], rfl, by simp⟩
  | cons c s ih =>
    by_cases h : CSpace c
    · obtain ⟨a, e, ha⟩ := ih
      refine ⟨c :: a, ?_, ?_⟩
      · unfold stripL
        rw [if_pos (show _ ∨ _ from h), List.cons_append, ← e]
      · intro x hx
        rcases List.mem_cons.1 hx with rfl | hx
        · exact h
        · exact ha x hx
    · exact ⟨[], by rw [stripL_not h]; rfl, by simp⟩

theorem strip_split (s : Str) : ∃ a b, s = a ++ (stripL (stripL s).reverse).reverse ++ b ∧
    (∀ c ∈ a, CSpace c) ∧ ∀ c ∈ b, CSpace c := by
  obtain ⟨a, e, ha⟩ := stripL_split s
  obtain ⟨b, e', hb⟩ := stripL_split (stripL s).reverse
  refine ⟨a, b.reverse, ?_, ha, by simpa using hb⟩
  have : stripL s = (stripL (stripL s).reverse).reverse ++ b.reverse := by
    rw [← List.reverse_append, ← e', List.reverse_reverse]
  rw [List.append_assoc, ← this, ← e]

theorem strip_digits {s : Str} (hd : ∀ c ∈ s, '0' ≤ c ∧ c ≤ '9') : (stripL (stripL s).reverse).reverse = s := by
  have key : ∀ s : Str, (∀ c ∈ s, '0' ≤ c ∧ c ≤ '9') → stripL s = s := by
    intro s hs
    cases s with
    | nil => rfl
    | cons c r => exact stripL_not (digit_not_cspace (hs c (by simp)))
  rw [key s hd, key s.reverse (by simpa using hd), List.reverse_reverse]

theorem intDigits_digits {s : Str} (hd : ∀ c ∈ s, '0' ≤ c ∧ c ≤ '9') (n : Nat) (b : Bool) (h : s ≠ [] ∨ b = true) :
    intDigits n b s = some (s.foldl (fun n c => 10 * n + (c.toNat - '0'.toNat)) n) := by
  induction s generalizing n b with
  | nil =>
    rcases h with h | h
    · exact absurd rfl h
    · subst h; rfl
  | cons c r ih =>
    unfold intDigits
    rw [if_pos (hd c (by simp)), ih (fun x hx => hd x (by simp [hx])) _ _ (.inr rfl), List.foldl_cons, Nat.mul_comm]
    rfl

theorem intDigits_text {s : Str} {n m : Nat} {b : Bool} (h : intDigits n b s = some m) :
    Digits s ∨ (b = true ∧ (s = [] ∨ ∃ r, s = '_' :: r ∧ Digits r)) := by
  induction s generalizing n b with
  | nil =>
    unfold intDigits at h
    by_cases hb : b = true
    · exact .inr ⟨hb, .inl rfl⟩
    · simp [hb] at h
  | cons c r ih =>
    unfold intDigits at h
    split at h
    · next hc =>
      rcases ih h with h | ⟨-, rfl | ⟨r', rfl, h'⟩⟩
      · exact .inl (.more hc h)
      · exact .inl (.one hc)
      · exact .inl (.under hc h')
    · split at h
      · next hc =>
        obtain ⟨rfl, hb⟩ := hc
        rcases ih h with h | ⟨hb', -⟩
        · exact .inr ⟨hb, .inr ⟨r, rfl, h⟩⟩
        · cases hb'
      · cases h

/-- `int` reads only texts of its own grammar. -/
theorem pyInt_text {s : Str} {i : Int} (h : pyInt s = some i) : IntText s := by
  obtain ⟨a, b, e, ha, hb⟩ := strip_split s
  unfold pyInt at h
  split at h
  · cases h
  · generalize (stripL (stripL s).reverse).reverse = t at e h
    split at h
    · next r =>
      simp only [Option.map_eq_some_iff] at h
      obtain ⟨n, hn, -⟩ := h
      rcases intDigits_text hn with h | ⟨h, -⟩
      · exact ⟨a, c!"-", r, b, by rw [e]; simp, ha, .inr (.inl rfl), h, hb⟩
      · exact absurd h (by simp)
    · next r =>
      simp only [Option.map_eq_some_iff] at h
      obtain ⟨n, hn, -⟩ := h
      rcases intDigits_text hn with h | ⟨h, -⟩
      · exact ⟨a, c!"+", r, b, by rw [e]; simp, ha, .inr (.inr rfl), h, hb⟩
      · exact absurd h (by simp)
    · simp only [Option.map_eq_some_iff] at h
      obtain ⟨n, hn, -⟩ := h
      rcases intDigits_text hn with h | ⟨h, -⟩
      · exact ⟨a, [], t, b, by rw [e]; simp, ha, .inl rfl, h, hb⟩
      · exact absurd h (by simp)

/-- `int` reads an RFC 6901 index as it is meant. -/
theorem pyInt_index {t : Str} {i : Nat} (h : ArrayIndex t i) (hl : t.length ≤ 4300) : pyInt t = some i := by
  obtain ⟨h0, hd, rfl⟩ := h
  have hne : t ≠ [] := by rcases h0 with rfl | ⟨c, r, rfl, -⟩ <;> simp
  have hf : ¬ 4300 < (t.filter asciiDigit).length := by
    have := List.length_filter_le asciiDigit t
    omega
  unfold pyInt
  rw [if_neg hf, strip_digits hd]
  split
  · next r => exact absurd (hd '-' (by simp)) (by decide)
  · next r => exact absurd (hd '+' (by simp)) (by decide)
  · rw [intDigits_digits hd 0 false (.inl hne)]; rfl

theorem index_ascii {t : Str} {i : Nat} (h : ArrayIndex t i) : isAscii t = true := by
  simp only [isAscii, List.all_eq_true, decide_eq_true_eq]
  intro c hc
  have h := (h.2.1 c hc).2
  have h : c.toNat ≤ '9'.toNat := h
  have e : '9'.toNat = 57 := rfl
  omega

theorem foldl_append_digit (s : Str) (x : Char) (n : Nat) :
    (s ++ [x]).foldl (fun n c => 10 * n + (c.toNat - '0'.toNat)) n =
      10 * (s.foldl (fun n c => 10 * n + (c.toNat - '0'.toNat)) n) + (x.toNat - '0'.toNat) := by
  simp [List.foldl_append]

/-- `str(i)` is the RFC 6901 index `i`. -/
theorem index_natStr (i : Nat) : ArrayIndex (natStr i) i := by
  have key : ∀ n < 10, ('0' ≤ n.digitChar ∧ n.digitChar ≤ '9') ∧ n.digitChar.toNat - '0'.toNat = n ∧
      (n.digitChar = '0' → n = 0) := by decide
  have main : ∀ n, (0 < n → ∃ c r, natStr n = c :: r ∧ c ≠ '0') ∧ (∀ c ∈ natStr n, '0' ≤ c ∧ c ≤ '9') ∧
      n = (natStr n).foldl (fun n c => 10 * n + (c.toNat - '0'.toNat)) 0 := by
    intro n
    unfold natStr
    induction n using Nat.strongRecOn with
    | ind n ih =>
      by_cases h : n < 10
      · obtain ⟨h1, h2, h3⟩ := key n h
        rw [Nat.toDigits_of_lt_base h]
        refine ⟨fun hp => ⟨_, [], rfl, fun e => by have := h3 e; omega⟩, by simpa using h1, ?_⟩
        simp only [List.foldl_cons, List.foldl_nil]; omega
      · rw [Nat.toDigits_of_base_le (by decide) (by omega)]
        obtain ⟨i1, i2, i3⟩ := ih (n / 10) (by omega)
        obtain ⟨h1, h2, h3⟩ := key (n % 10) (by omega)
        refine ⟨fun _ => ?_, ?_, ?_⟩
        · obtain ⟨c, r, e, hc⟩ := i1 (by omega)
          exact ⟨c, r ++ [(n % 10).digitChar], by rw [e]; rfl, hc⟩
        · intro c hc
          simp only [List.mem_append, List.mem_singleton] at hc
          rcases hc with hc | rfl
          · exact i2 c hc
          · exact h1
        · rw [foldl_append_digit, ← i3, h2]; omega
  obtain ⟨a, b, c⟩ := main i
  refine ⟨?_, b, c⟩
  rcases Nat.eq_zero_or_pos i with rfl | h
  · exact .inl rfl
  · exact .inr (a h)

theorem index_unique {t : Str} {i j : Nat} (h : ArrayIndex t i) (h' : ArrayIndex t j) : i = j := h.2.2.trans h'.2.2.symm

/-! ## One step -/

theorem pyIndex_nat {α : Type} (xs : List α) (i : Nat) :
    pyIndex xs (i : Int) = match xs[i]? with | some x => .ok x | none => .err .indexError := by
  have h : ¬ ((i : Int) < 0) := by omega
  simp only [pyIndex, if_neg h, Int.toNat_natCast]
  cases xs[i]? <;> rfl

theorem step_arr {n : Node} (xs : List Node) (hn : ∀ o d p, n ≠ .ref o d p) (k : Str) (ha : isAscii k = true) :
    queryStep n (.arr xs) k = match pyInt k with | none => .err .valueError | some i => pyIndex xs i := by
  unfold queryStep
  cases n <;> first | exact absurd rfl (hn _ _ _) | (simp only [ha, Bool.not_true, Bool.false_eq_true, if_false]; cases pyInt k <;> rfl)

/-! ## The loop -/

theorem eval_functional {n m m' : Node} {ptr : List Str} (hr : n.RefFree) (h : Eval n ptr m) (h' : Eval n ptr m') : m = m' := by
  induction h with
  | here n => cases h'; rfl
  | @member kvs k x m ks hx h ih =>
    cases h' with
    | @member _ _ y _ _ hy h' =>
      rw [Node.RefFree] at hr
      have := dictGet_of_mem hr.1 hx
      rw [dictGet_of_mem hr.1 hy] at this
      cases this
      exact ih (Node.refFreeD_iff.1 hr.2 _ hx) h'
  | @index xs t i x m ks hi hx h ih =>
    cases h' with
    | @index _ _ j y _ _ hj hy h' =>
      cases index_unique hi hj
      rw [hx] at hy
      cases hy
      rw [Node.RefFree] at hr
      exact ih (Node.refFreeL_iff.1 hr _ (List.mem_of_getElem? hx)) h'

theorem eval_refFree {n m : Node} {ptr : List Str} (hr : n.RefFree) (h : Eval n ptr m) : m.RefFree := by
  induction h with
  | here n => exact hr
  | member hx h ih => rw [Node.RefFree] at hr; exact ih (Node.refFreeD_iff.1 hr.2 _ hx)
  | index hi hx h ih => rw [Node.RefFree] at hr; exact ih (Node.refFreeL_iff.1 hr _ (List.mem_of_getElem? hx))

theorem refFree_not_ref {n : Node} (h : n.RefFree) : ∀ o d p, n ≠ .ref o d p := by
  rintro o d p rfl; exact h

section
variable {vw : Node → Res Node} (hv : ∀ n, n.RefFree → vw n = .ok n)
include hv

theorem loop_found {n m : Node} {a b : List Str} (hr : n.RefFree) (h : Eval n a m) (hs : ∀ k ∈ a, ∀ i, ArrayIndex k i → k.length ≤ 4300) :
    queryLoop vw n (a ++ b) = queryLoop vw m b := by
  induction h with
  | here n => rfl
  | @member kvs k x m ks hx h ih =>
    have hd := hr
    rw [Node.RefFree] at hd
    rw [List.cons_append, queryLoop, hv _ hr, Res.ok_bind, queryStep, dictGet_of_mem hd.1 hx]
    exact ih (Node.refFreeD_iff.1 hd.2 _ hx) fun k hk => hs k (by simp [hk])
  | @index xs t i x m ks hi hx h ih =>
    have hd := hr
    rw [Node.RefFree] at hd
    rw [List.cons_append, queryLoop, hv _ hr, Res.ok_bind, step_arr xs (refFree_not_ref hr) t (index_ascii hi),
      pyInt_index hi (hs t (by simp) _ hi)]
    change (pyIndex xs (i : Int) >>= _) = _
    rw [pyIndex_nat, hx]
    exact ih (Node.refFreeL_iff.1 hd _ (List.mem_of_getElem? hx)) fun k hk => hs k (by simp [hk])

theorem loop_key {n : Node} {ptr : List Str} (hr : n.RefFree) (hs : ∀ k ∈ ptr, ∀ i, ArrayIndex k i → k.length ≤ 4300) (h : MissesKey n ptr) :
    queryLoop vw n ptr = .err .keyError := by
  obtain ⟨a, k, b, m, rfl, he, hna, hk⟩ := h
  rw [loop_found hv hr he fun k hk => hs k (by simp [hk]), queryLoop, hv _ (eval_refFree hr he), Res.ok_bind]
  cases m with
  | arr xs => exact absurd rfl (hna xs)
  | obj kvs => simp only [queryStep, dictGet_none.2 (hk kvs rfl)]; rfl
  | _ => rfl

theorem loop_index {n : Node} {ptr : List Str} (hr : n.RefFree) (hs : ∀ k ∈ ptr, ∀ i, ArrayIndex k i → k.length ≤ 4300) (h : MissesIndex n ptr) :
    queryLoop vw n ptr = .err .indexError := by
  obtain ⟨a, t, i, b, xs, rfl, he, hi, hl⟩ := h
  have hm := eval_refFree hr he
  rw [loop_found hv hr he fun k hk => hs k (by simp [hk]), queryLoop, hv _ hm, Res.ok_bind,
    step_arr xs (refFree_not_ref hm) t (index_ascii hi), pyInt_index hi (hs t (by simp) _ hi)]
  change (pyIndex xs (i : Int) >>= _) = _
  rw [pyIndex_nat, List.getElem?_eq_none hl]
  rfl

theorem loop_value {n : Node} {ptr : List Str} (hr : n.RefFree) (hs : ∀ k ∈ ptr, ∀ i, ArrayIndex k i → k.length ≤ 4300)
    (ha : ∀ k ∈ ptr, isAscii k = true) (hi : ∀ k ∈ ptr, IntText k → ∃ i, ArrayIndex k i) (h : NotAnIndex n ptr) :
    queryLoop vw n ptr = .err .valueError := by
  obtain ⟨a, t, b, xs, rfl, he, hn⟩ := h
  have hm := eval_refFree hr he
  rw [loop_found hv hr he fun k hk => hs k (by simp [hk]), queryLoop, hv _ hm, Res.ok_bind,
    step_arr xs (refFree_not_ref hm) t (ha t (by simp))]
  have : pyInt t = none := by
    cases e : pyInt t with
    | none => rfl
    | some i => exact absurd (hi t (by simp) (pyInt_text e)) hn
  rw [this]; rfl

end

/-- A pointer leads somewhere, or fails in one of three ways. -/
theorem eval_cases (n : Node) (ptr : List Str) (hr : n.RefFree) :
    (∃ m, Eval n ptr m) ∨ MissesKey n ptr ∨ MissesIndex n ptr ∨ NotAnIndex n ptr := by
  induction ptr generalizing n with
  | nil => exact .inl ⟨n, .here n⟩
  | cons k ks ih =>
    have scalar : (∀ xs, n ≠ .arr xs) → (∀ kvs, n = .obj kvs → k ∉ kvs.map Prod.fst) → MissesKey n (k :: ks) :=
      fun h1 h2 => ⟨[], k, ks, n, rfl, .here n, h1, h2⟩
    have down : ∀ x : Node, x.RefFree → (∀ a m, Eval x a m → Eval n (k :: a) m) →
        (∃ m, Eval n (k :: ks) m) ∨ MissesKey n (k :: ks) ∨ MissesIndex n (k :: ks) ∨ NotAnIndex n (k :: ks) := by
      intro x hx hup
      rcases ih x hx with ⟨m, h⟩ | ⟨a, k', b, m, rfl, h, h1, h2⟩ | ⟨a, t, i, b, xs, rfl, h, h1, h2⟩ | ⟨a, t, b, xs, rfl, h, h1⟩
      · exact .inl ⟨m, hup _ _ h⟩
      · exact .inr (.inl ⟨k :: a, k', b, m, rfl, hup _ _ h, h1, h2⟩)
      · exact .inr (.inr (.inl ⟨k :: a, t, i, b, xs, rfl, hup _ _ h, h1, h2⟩))
      · exact .inr (.inr (.inr ⟨k :: a, t, b, xs, rfl, hup _ _ h, h1⟩))
    cases n with
    | arr xs =>
      by_cases hi : ∃ i, ArrayIndex k i
      · obtain ⟨i, hi⟩ := hi
        cases e : xs[i]? with
        | none => exact .inr (.inr (.inl ⟨[], k, i, ks, xs, rfl, .here _, hi, List.getElem?_eq_none_iff.1 e⟩))
        | some x =>
          rw [Node.RefFree] at hr
          exact down x (Node.refFreeL_iff.1 hr _ (List.mem_of_getElem? e)) fun a m h => .index hi e h
      · exact .inr (.inr (.inr ⟨[], k, ks, xs, rfl, .here _, hi⟩))
    | obj kvs =>
      cases e : dictGet k kvs with
      | none => exact .inr (.inl (scalar (by simp) (by rintro _ ⟨rfl⟩; exact dictGet_none.1 e)))
      | some x =>
        rw [Node.RefFree] at hr
        exact down x (Node.refFreeD_iff.1 hr.2 _ (dictGet_mem e)) fun a m h => .member (dictGet_mem e) h
    | _ => exact .inr (.inl (scalar (by simp) (by simp)))

end Verif
