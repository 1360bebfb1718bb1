import Verif.Proofs.Query
import Verif.Spec.Leads
/-! # `int` and `query`, exactly (C10) -/

namespace Verif
open Verif.Spec

def digitStep (n : Nat) (c : Char) : Nat := 10 * n + (c.toNat - '0'.toNat)

theorem numeral_eq (d : Str) : numeral d = (d.filter (· ≠ '_')).foldl digitStep 0 := rfl

theorem digit_ne_under {c : Char} (h : '0' ≤ c ∧ c ≤ '9') : c ≠ '_' := by rintro rfl; revert h; decide

theorem intDigits_cons {n : Nat} {b : Bool} {c : Char} {r : Str} (h : '0' ≤ c ∧ c ≤ '9') : intDigits n b (c :: r) = intDigits (digitStep n c) true r := by
  rw [intDigits, if_pos h, digitStep, Nat.mul_comm]; rfl

theorem intDigits_of {d : Str} (h : Digits d) : ∀ n b, intDigits n b d = some ((d.filter (· ≠ '_')).foldl digitStep n) := by
  induction h with
  | one h => intro n b; rw [intDigits_cons h]; simp [intDigits, digit_ne_under h]
  | more h _ ih => intro n b; rw [intDigits_cons h, ih]; simp [digit_ne_under h]
  | under h _ ih =>
    intro n b
    rw [intDigits_cons h, intDigits, if_neg (by decide), if_pos ⟨rfl, rfl⟩, ih]; simp [digit_ne_under h]

theorem intDigits_iff {d : Str} {n : Nat} : intDigits 0 false d = some n ↔ Digits d ∧ n = numeral d := by
  constructor
  · intro h
    have hd : Digits d := by
      rcases intDigits_text h with h | ⟨h, -⟩
      · exact h
      · cases h
    exact ⟨hd, by rw [intDigits_of hd] at h; exact (Option.some.inj h).symm⟩
  · rintro ⟨h, rfl⟩; exact intDigits_of h _ _

theorem digits_ends {d : Str} (h : Digits d) : (∃ c r, d = c :: r ∧ '0' ≤ c ∧ c ≤ '9') ∧ ∃ r c, d = r ++ [c] ∧ '0' ≤ c ∧ c ≤ '9' := by
  induction h with
  | one h => exact ⟨⟨_, _, rfl, h⟩, [], _, rfl, h⟩
  | @more c r h _ ih => obtain ⟨-, r', c', rfl, h'⟩ := ih; exact ⟨⟨_, _, rfl, h⟩, c :: r', c', rfl, h'⟩
  | @under c r h _ ih => obtain ⟨-, r', c', rfl, h'⟩ := ih; exact ⟨⟨_, _, rfl, h⟩, c :: '_' :: r', c', rfl, h'⟩

theorem stripL_spaces {a : Str} (h : ∀ c ∈ a, CSpace c) (r : Str) : stripL (a ++ r) = stripL r := by
  induction a with
  | nil => rfl
  | cons c a ih =>
    rw [List.cons_append]
    conv => lhs; unfold stripL
    rw [if_pos (show _ ∨ _ from h c (by simp)), ih fun c hc => h c (by simp [hc])]

theorem strip_between {a t b : Str} (ha : ∀ c ∈ a, CSpace c) (hb : ∀ c ∈ b, CSpace c) (h1 : ∃ c r, t = c :: r ∧ ¬ CSpace c)
    (h2 : ∃ r c, t = r ++ [c] ∧ ¬ CSpace c) : (stripL (stripL (a ++ t ++ b)).reverse).reverse = t := by
  obtain ⟨c, r, e, hc⟩ := h1
  obtain ⟨r', c', e', hc'⟩ := h2
  have : stripL (t ++ b) = t ++ b := by rw [e]; exact stripL_not hc
  rw [List.append_assoc, stripL_spaces ha, this, List.reverse_append, stripL_spaces (by simpa using hb), e', List.reverse_append]
  change (stripL (c' :: r'.reverse)).reverse = _
  rw [stripL_not hc']; simp

/-- `int` on an ASCII text reads exactly the numbers of its grammar, up to 4300 digits. -/
theorem pyInt_iff {t : Str} {i : Int} : pyInt t = some i ↔ Spells t i ∧ digitCount t ≤ 4300 := by
  have hf : t.filter asciiDigit = t.filter fun c => decide ('0' ≤ c ∧ c ≤ '9') := rfl
  unfold pyInt digitCount
  rw [hf]
  constructor
  · intro h
    split at h
    · cases h
    · next hl =>
      refine ⟨?_, by omega⟩
      obtain ⟨a, b, e, ha, hb⟩ := strip_split t
      generalize (stripL (stripL t).reverse).reverse = u at e h
      split at h
      · next r =>
        obtain ⟨n, hn, rfl⟩ := Option.map_eq_some_iff.1 h
        obtain ⟨hd, rfl⟩ := intDigits_iff.1 hn
        exact ⟨a, c!"-", r, b, by rw [e]; simp, ha, hd, hb, .inr ⟨rfl, rfl⟩⟩
      · next r =>
        obtain ⟨n, hn, rfl⟩ := Option.map_eq_some_iff.1 h
        obtain ⟨hd, rfl⟩ := intDigits_iff.1 hn
        exact ⟨a, c!"+", r, b, by rw [e]; simp, ha, hd, hb, .inl ⟨.inr rfl, rfl⟩⟩
      · obtain ⟨n, hn, rfl⟩ := Option.map_eq_some_iff.1 h
        obtain ⟨hd, rfl⟩ := intDigits_iff.1 hn
        exact ⟨a, [], u, b, by rw [e]; simp, ha, hd, hb, .inl ⟨.inl rfl, rfl⟩⟩
  · rintro ⟨⟨a, s, d, b, e, ha, hd, hb, hs⟩, hl⟩
    rw [if_neg (by omega)]
    obtain ⟨⟨c, r, e1, h1⟩, r', c', e2, h2⟩ := digits_ends hd
    have hstrip : (stripL (stripL t).reverse).reverse = s ++ d := by
      rw [e, List.append_assoc a s d]
      refine strip_between ha hb ?_ ⟨s ++ r', c', by rw [e2]; simp, digit_not_cspace h2⟩
      rcases hs with ⟨rfl | rfl, -⟩ | ⟨rfl, -⟩
      · exact ⟨c, r, by simpa using e1, digit_not_cspace h1⟩
      · exact ⟨'+', d, rfl, by simp [CSpace]⟩
      · exact ⟨'-', d, rfl, by simp [CSpace]⟩
    rw [hstrip]
    rcases hs with ⟨rfl | rfl, rfl⟩ | ⟨rfl, rfl⟩
    · rw [List.nil_append]
      have hm : c ≠ '-' ∧ c ≠ '+' := ⟨by rintro rfl; revert h1; decide, by rintro rfl; revert h1; decide⟩
      have hn := intDigits_iff.2 ⟨hd, rfl⟩
      subst e1
      split
      · next h => exact absurd (List.cons.inj h).1 hm.1
      · next h => exact absurd (List.cons.inj h).1 hm.2
      · rw [hn]; rfl
    · change (intDigits 0 false d).map _ = _; rw [intDigits_iff.2 ⟨hd, rfl⟩]; rfl
    · change (intDigits 0 false d).map _ = _; rw [intDigits_iff.2 ⟨hd, rfl⟩]; rfl

theorem spells_unique {t : Str} {i j : Int} (hl : digitCount t ≤ 4300) (h : Spells t i) (h' : Spells t j) : i = j := by
  have := pyInt_iff.2 ⟨h, hl⟩
  rw [pyInt_iff.2 ⟨h', hl⟩] at this
  exact (Option.some.inj this).symm

/-- `xs[i]`. -/
theorem pyIndex_iff {α : Type} {xs : List α} {i : Int} {x : α} : pyIndex xs i = .ok x ↔ ElementAt xs i x := by
  unfold pyIndex ElementAt
  constructor
  · intro h
    dsimp only at h
    generalize hg : (if i < 0 then i + (xs.length : Int) else i) = j at h
    split at h
    · cases h
    · next hj =>
      split at h
      · next y hy =>
        cases h
        have hlt := (List.getElem?_eq_some_iff.1 hy).1
        refine ⟨xs.take j.toNat, xs.drop (j.toNat + 1), ?_, ?_⟩
        · obtain ⟨h1, h2⟩ := List.getElem?_eq_some_iff.1 hy
          rw [← h2, ← List.drop_eq_getElem_cons h1, List.take_append_drop]
        · simp only [List.length_take, List.length_drop]
          by_cases hi : i < 0
          · rw [if_pos hi] at hg; right; omega
          · rw [if_neg hi] at hg; left; omega
      · cases h
  · rintro ⟨pre, post, rfl, h⟩
    have hl : (pre ++ x :: post).length = pre.length + post.length + 1 := by simp; omega
    have hg : (if i < 0 then i + ((pre ++ x :: post).length : Int) else i) = pre.length := by
      rw [hl]; split <;> rcases h with h | h <;> omega
    dsimp only
    rw [hg, if_neg (by omega)]
    simp

theorem pyIndex_cases {α : Type} (xs : List α) (i : Int) : (∃ x, pyIndex xs i = .ok x) ∨ pyIndex xs i = .err .indexError := by
  unfold pyIndex
  dsimp only
  generalize (if i < 0 then i + (xs.length : Int) else i) = j
  split
  · exact .inr rfl
  · split
    · exact .inl ⟨_, rfl⟩
    · exact .inr rfl

theorem elementAt_mem {α : Type} {xs : List α} {i : Int} {x : α} (h : ElementAt xs i x) : x ∈ xs := by
  obtain ⟨pre, post, rfl, -⟩ := h; simp

theorem elementAt_unique {α : Type} {xs : List α} {i : Int} {x y : α} (h : ElementAt xs i x) (h' : ElementAt xs i y) : x = y := by
  have := pyIndex_iff.2 h
  rw [pyIndex_iff.2 h'] at this
  exact (Res.ok.inj this).symm

section
variable {vw : Node → Res Node} (hv : ∀ n, n.RefFree → vw n = .ok n)
include hv

theorem loop_leads {n m : Node} {a b : List Str} (hr : n.RefFree) (ha : ∀ k ∈ a, isAscii k = true) (h : Follows n a m) :
    queryLoop vw n (a ++ b) = queryLoop vw m b ∧ m.RefFree := by
  induction h with
  | here n => exact ⟨rfl, hr⟩
  | @member kvs k x m ks hx h ih =>
    have hd := hr
    rw [Node.RefFree] at hd
    rw [List.cons_append, queryLoop, hv _ hr, Res.ok_bind, queryStep, dictGet_of_mem hd.1 hx]
    exact ih (Node.refFreeD_iff.1 hd.2 _ hx) fun k hk => ha k (by simp [hk])
  | @element xs t i x m ks hi hl hx h ih =>
    have hd := hr
    rw [Node.RefFree] at hd
    rw [List.cons_append, queryLoop, hv _ hr, Res.ok_bind, step_arr xs (refFree_not_ref hr) t (ha t (by simp)), pyInt_iff.2 ⟨hi, hl⟩]
    change (pyIndex xs i >>= _) = _ ∧ _
    rw [pyIndex_iff.2 hx]
    exact ih (Node.refFreeL_iff.1 hd _ (elementAt_mem hx)) fun k hk => ha k (by simp [hk])

theorem loop_stops {n : Node} {ptr : List Str} {e : PyErr} (hr : n.RefFree) (ha : ∀ k ∈ ptr, isAscii k = true) (h : Stops n ptr e) :
    queryLoop vw n ptr = .err e := by
  induction h with
  | @key n k ks hn hk =>
    rw [queryLoop, hv _ hr, Res.ok_bind]
    cases n with
    | arr xs => exact absurd rfl (hn xs)
    | obj kvs => simp only [queryStep, dictGet_none.2 (hk kvs rfl)]; rfl
    | _ => rfl
  | @index xs t i ks hi hl hx =>
    rw [queryLoop, hv _ hr, Res.ok_bind, step_arr xs (refFree_not_ref hr) t (ha t (by simp)), pyInt_iff.2 ⟨hi, hl⟩]
    change (pyIndex xs i >>= _) = _
    rcases pyIndex_cases xs i with ⟨x, h⟩ | h
    · exact absurd (pyIndex_iff.1 h) (hx x)
    · rw [h]; rfl
  | @number xs t ks h =>
    rw [queryLoop, hv _ hr, Res.ok_bind, step_arr xs (refFree_not_ref hr) t (ha t (by simp))]
    have : pyInt t = none := by
      cases e : pyInt t with
      | none => rfl
      | some i => have := pyInt_iff.1 e; have := h i this.1; omega
    rw [this]; rfl
  | @member kvs k x ks e hx h ih =>
    have hd := hr
    rw [Node.RefFree] at hd
    rw [queryLoop, hv _ hr, Res.ok_bind, queryStep, dictGet_of_mem hd.1 hx]
    exact ih (Node.refFreeD_iff.1 hd.2 _ hx) fun k hk => ha k (by simp [hk])
  | @element xs t i x ks e hi hl hx h ih =>
    have hd := hr
    rw [Node.RefFree] at hd
    rw [queryLoop, hv _ hr, Res.ok_bind, step_arr xs (refFree_not_ref hr) t (ha t (by simp)), pyInt_iff.2 ⟨hi, hl⟩]
    change (pyIndex xs i >>= _) = _
    rw [pyIndex_iff.2 hx]
    exact ih (Node.refFreeL_iff.1 hd _ (elementAt_mem hx)) fun k hk => ha k (by simp [hk])

end

theorem leads_or_stops (n : Node) (ptr : List Str) (hr : n.RefFree) : (∃ m, Follows n ptr m) ∨ ∃ e, Stops n ptr e := by
  induction ptr generalizing n with
  | nil => exact .inl ⟨n, .here n⟩
  | cons k ks ih =>
    cases n with
    | arr xs =>
      cases hp : pyInt k with
      | none =>
        refine .inr ⟨_, .number fun i hi => ?_⟩
        apply Classical.byContradiction
        intro hl
        rw [pyInt_iff.2 ⟨hi, by omega⟩] at hp; cases hp
      | some i =>
        obtain ⟨hi, hl⟩ := pyInt_iff.1 hp
        rcases pyIndex_cases xs i with ⟨x, h⟩ | h
        · have hx := pyIndex_iff.1 h
          rw [Node.RefFree] at hr
          rcases ih x (Node.refFreeL_iff.1 hr _ (elementAt_mem hx)) with ⟨m, h⟩ | ⟨e, h⟩
          · exact .inl ⟨m, .element hi hl hx h⟩
          · exact .inr ⟨e, .element hi hl hx h⟩
        · refine .inr ⟨_, .index hi hl fun x hx => ?_⟩
          rw [pyIndex_iff.2 hx] at h; cases h
    | obj kvs =>
      cases e : dictGet k kvs with
      | none => exact .inr ⟨_, .key (by simp) (by rintro _ ⟨rfl⟩; exact dictGet_none.1 e)⟩
      | some x =>
        rw [Node.RefFree] at hr
        rcases ih x (Node.refFreeD_iff.1 hr.2 _ (dictGet_mem e)) with ⟨m, h⟩ | ⟨e', h⟩
        · exact .inl ⟨m, .member (dictGet_mem e) h⟩
        · exact .inr ⟨e', .member (dictGet_mem e) h⟩
    | _ => exact .inr ⟨_, .key (by simp) (by simp)⟩

end Verif
