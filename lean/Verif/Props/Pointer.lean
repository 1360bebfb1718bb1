import Verif.Proofs.Pointer
/-! # Properties C01–C04: JSON pointers -/

namespace Verif.Props
open Verif Verif.Pointer Verif.Spec.Pointer

/-- C02: `JsonPointer(p)` succeeds exactly on RFC 6901 pointers, and then has exactly the tokens RFC 6901 assigns. -/
theorem C02_parse_iff (p : Str) (ts : List Str) : parse p = .ok ts ↔ IsPointer p ∧ Denotes p ts := by
  unfold parse
  by_cases h : IsPointer p
  · rw [if_pos ((fullmatch_pointer p).2 h)]
    simp only [Res.ok.injEq, h, true_and]
    exact (denotes_iff p h ts).symm
  · rw [if_neg (fun e => h ((fullmatch_pointer p).1 e))]
    simp [h]

/-- C02: every other string raises `ValueError`, and every RFC 6901 pointer is accepted. -/
theorem C02_parse_total (p : Str) :
    (IsPointer p → ∃ ts, parse p = .ok ts ∧ Denotes p ts) ∧ (¬ IsPointer p → parse p = .err .valueError) := by
  unfold parse
  constructor
  · intro h
    rw [if_pos ((fullmatch_pointer p).2 h)]
    exact ⟨_, rfl, (denotes_iff p h _).2 rfl⟩
  · intro h
    rw [if_neg (fun e => h ((fullmatch_pointer p).1 e))]

example : parse c!"/a~1b/m~0n//~01" = .ok [c!"a/b", c!"m~n", [], c!"~1"] := by decide
example : parse c!"a" = .err .valueError ∧ parse c!"/~2" = .err .valueError ∧ parse c!"/a\n" = .ok [c!"a\n"] := by
  decide

/-- C01: printing a non-empty list of tokens and parsing the text gives the tokens back. -/
theorem C01_token_round_trip (ts : List Str) (h : ts ≠ []) : parse (print ts) = .ok ts := by
  rw [C02_parse_iff]
  have hs := print_spec ts
  unfold print
  rw [if_neg h]
  refine ⟨⟨denotes_head hs.2, (okT_iff _).1 hs.1⟩, hs.2⟩

example : [c!"~1/~", [], c!"~0"] ≠ [] := by decide

/-- C03: printing an accepted text other than the empty one gives the text back. -/
theorem C03_text_round_trip (p : Str) (ts : List Str) (h : parse p = .ok ts) (hp : p ≠ []) : print ts = p := by
  rw [C02_parse_iff] at h
  obtain ⟨⟨_, h1⟩, h2⟩ := h
  rw [← okT_iff] at h1
  have key : (ts.flatMap fun n => '/' :: escape n) = p := by
    clear hp
    induction h2 with
    | nil => rfl
    | @cons tok rest ts hn hr ih =>
      rw [okT_cons (by decide)] at h1
      obtain ⟨ha, hb⟩ := okT_split h1 (denotes_head hr)
      rw [List.flatMap_cons, ih (denotes_head hr) hb, escape_decode tok ha hn]
      rfl
  unfold print
  split
  · next e => subst e; exact absurd key.symm hp
  · exact key

/-- C03: the empty text prints as `/`. -/
theorem C03_empty : parse [] = .ok [] ∧ print [] = c!"/" := by decide

example : parse c!"/a/~0" = .ok [c!"a", c!"~"] := by decide

/-- C04 fails: the pointer to the whole document and the pointer to the member named `""` print alike. -/
theorem C04_print_injective_violated : ¬ ∀ a b : List Str, print a = print b → a = b := by
  intro h
  exact absurd (h [] [[]] (by decide)) (by decide)

/-- C04, weaker: among non-empty token lists the text determines the pointer, and `[]` clashes with `[""]` only.
Missing: the text of the empty pointer. -/
theorem C04_print_injective_partial (a b : List Str) (h : print a = print b) :
    a = b ∨ (a = [] ∧ b = [[]]) ∨ (a = [[]] ∧ b = []) := by
  by_cases ha : a = []
  · by_cases hb : b = []
    · exact .inl (ha.trans hb.symm)
    · right; left
      have hb' := C01_token_round_trip b hb
      rw [← h, ha] at hb'
      have e : parse (print []) = .ok [[]] := by decide
      rw [e] at hb'
      exact ⟨ha, by injection hb' with h; exact h.symm⟩
  · have ha' := C01_token_round_trip a ha
    by_cases hb : b = []
    · right; right
      rw [h, hb] at ha'
      have e : parse (print []) = .ok [[]] := by decide
      rw [e] at ha'
      exact ⟨by injection ha' with h; exact h.symm, hb⟩
    · left
      have hb' := C01_token_round_trip b hb
      rw [h, hb'] at ha'
      injection ha' with h; exact h.symm

end Verif.Props
