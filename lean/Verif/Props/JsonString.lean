import Verif.Proofs.JsonString
import Verif.Props.PointerSeq
/-! # Property C105: a `JsonString` is used as the text it holds -/

namespace Verif.Props
open Verif Verif.JStr

/-- The text an argument stands for. -/
def textOf : Arg → Option Str
  | .str s => some s
  | .json j => some j.value
  | .other _ => none

/-- A `JsonString` of its own: a text without a parent and without a key. -/
def alone (s : Str) : JString := ⟨s, none, []⟩

/-- C105: length, `str`, and the characters from the front and from the back, each a `JsonString` of its own. -/
theorem C105_characters (j : JString) : len j = j.value.length ∧ toStr j = j.value ∧
    iter j = .ok (j.value.map fun c => alone [c]) ∧ reversed j = .ok (j.value.reverse.map fun c => alone [c]) := by
  have hget : ∀ i, (h : i < j.value.length) → getItem j (.int i) = .ok (alone [j.value[i]]) := by
    intro i h
    simp only [getItem, data, (Ptr.listAt_spec j.value i).1 i (.inl rfl) _ (List.getElem?_eq_getElem h)]
    rfl
  have hiter : ∀ f i, j.value.length < f + i → i ≤ j.value.length →
      iterLoop j f i = .ok ((j.value.drop i).map fun c => alone [c]) := by
    intro f
    induction f with
    | zero => intro i h1 h2; omega
    | succ f ih =>
      intro i h1 h2
      by_cases hi : i < j.value.length
      · simp only [iterLoop, hget i hi, ih (i + 1) (by omega) (by omega)]
        rw [List.drop_eq_getElem_cons hi]
        rfl
      · have e : getItem j (.int i) = .err .indexError := by
          simp only [getItem, data, (Ptr.listAt_spec j.value i).2 (.inr (by omega))]
          rfl
        simp only [iterLoop, e]
        rw [List.drop_eq_nil_of_le (by omega)]
        rfl
  have hrev : ∀ i, i ≤ j.value.length → reversedFrom j i = .ok ((j.value.take i).reverse.map fun c => alone [c]) := by
    intro i
    induction i with
    | zero => intro _; simp [reversedFrom]
    | succ i ih =>
      intro hi
      simp only [reversedFrom, hget i (by omega), ih (by omega)]
      rw [List.take_succ_eq_append_getElem (by omega), List.reverse_append]
      rfl
  refine ⟨rfl, rfl, ?_, ?_⟩
  · unfold iter
    rw [hiter _ _ (by simp [len, data]) (by omega)]
    simp
  · unfold reversed len data
    rw [hrev _ (Nat.le_refl _), List.take_length]

/-- C105: an index is the character at that place, counted from the end if negative; outside `IndexError` is raised. -/
theorem C105_index (j : JString) (i : Int) :
    (∀ k : Nat, (i = k ∨ i = k - (j.value.length : Int)) → ∀ c, j.value[k]? = some c → getItem j (.int i) = .ok (alone [c])) ∧
    (i < -j.value.length ∨ (j.value.length : Int) ≤ i → getItem j (.int i) = .err .indexError) := by
  refine ⟨fun k hk c hc => ?_, fun h => ?_⟩
  · simp only [getItem, data, (Ptr.listAt_spec j.value i).1 k hk c hc]; rfl
  · simp only [getItem, data, (Ptr.listAt_spec j.value i).2 h]; rfl

/-- C105: a slice is the text of the characters at its positions, in its order. -/
theorem C105_slice (j : JString) (a b c : Option Int) (hc : c ≠ some 0) :
    ∃ r, getItem j (.slice a b c) = .ok (alone r) ∧ ∀ k : Nat,
      let fwd := decide (0 < c.getD 1)
      let i := sliceStart j.value.length fwd a + k * c.getD 1
      (0 ≤ i ∧ sliceInside j.value.length fwd i b → r[k]? = j.value[i.toNat]?) ∧
      (¬ (0 ≤ i ∧ sliceInside j.value.length fwd i b) → r[k]? = none) := by
  obtain ⟨r, hr, h⟩ := Ptr.listSlice_spec j.value a b c hc
  exact ⟨r, by simp only [getItem, data, hr]; rfl, h⟩

/-- Instance: `x[::-1]` turns the text round. -/
example : getItem ⟨c!"abc", some 3, c!"k"⟩ (.slice none none (some (-1))) = .ok (alone c!"cba") := by decide

/-- C105: adding texts puts them one after the other, and multiplying repeats them; what comes out is a `JsonString` of its own. -/
theorem C105_add (j : JString) (x : Arg) (s : Str) (hx : textOf x = some s) :
    add j x = .ok (alone (j.value ++ s)) ∧ radd j x = .ok (alone (s ++ j.value)) := by
  cases x <;> simp only [textOf, Option.some.injEq, reduceCtorEq] at hx <;> subst hx <;> exact ⟨rfl, rfl⟩

theorem C105_repeat (j : JString) (n : Int) : ∃ r, mul j n = .ok (alone r) ∧ r.length = n.toNat * j.value.length ∧
    ∀ k < r.length, r[k]? = j.value[k % j.value.length]? := by
  obtain ⟨h1, h2⟩ := JS.times_spec j.value n.toNat
  exact ⟨_, rfl, h1, fun k hk => h2 k (by rw [← h1]; exact hk)⟩

/-- C105: `in` asks whether the text occurs anywhere. -/
theorem C105_contains (j : JString) (x : Arg) (s : Str) (hx : textOf x = some s) :
    ∃ b, contains j x = .ok b ∧ (b = true ↔ ∃ p q, j.value = p ++ s ++ q) := by
  have e : contains j x = .ok (strFind j.value s 0 j.value.length).isSome := by
    cases x <;> simp only [textOf, Option.some.injEq, reduceCtorEq] at hx <;> subst hx <;> rfl
  refine ⟨_, e, ?_⟩
  obtain ⟨h1, h2⟩ := JS.strFind_spec j.value s 0 j.value.length
  constructor
  · intro h
    obtain ⟨k, hk⟩ := Option.isSome_iff_exists.1 h
    obtain ⟨_, _, ⟨⟨p, q, hpq, _⟩, _⟩, _⟩ := h1 k hk
    exact ⟨p, q, by rw [hpq, List.append_assoc]⟩
  · rintro ⟨p, q, hpq⟩
    cases hf : strFind j.value s 0 j.value.length with
    | some _ => rfl
    | none =>
      refine absurd ?_ (h2 hf p.length)
      have hl : j.value.length = p.length + s.length + q.length := by rw [hpq]; simp; omega
      refine ⟨⟨p, q, by rw [hpq, List.append_assoc], rfl⟩, ?_, ?_⟩
      · simp [windowStart]
      · simp only [windowEnd]; split <;> omega

/-- C105: `find` and `rfind` give the first and the last place of a text between `start` and `end`, or `-1`. -/
theorem C105_find (j : JString) (start stop : Int) (x : Arg) (s : Str) (hx : textOf x = some s) :
    (∀ i, Within j.value s start stop i → (∀ k < i, ¬ Within j.value s start stop k) → find j start stop x = .ok i) ∧
    (∀ i, Within j.value s start stop i → (∀ k > i, ¬ Within j.value s start stop k) → rfind j start stop x = .ok i) ∧
    ((∀ i, ¬ Within j.value s start stop i) → find j start stop x = .ok (-1) ∧ rfind j start stop x = .ok (-1)) := by
  have e1 : find j start stop x = .ok (place (strFind j.value s start stop)) := by
    cases x <;> simp only [textOf, Option.some.injEq, reduceCtorEq] at hx <;> subst hx <;> rfl
  have e2 : rfind j start stop x = .ok (place (strRfind j.value s start stop)) := by
    cases x <;> simp only [textOf, Option.some.injEq, reduceCtorEq] at hx <;> subst hx <;> rfl
  rw [e1, e2]
  obtain ⟨h1, h2⟩ := JS.strFind_spec j.value s start stop
  obtain ⟨r1, r2⟩ := JS.strRfind_spec j.value s start stop
  refine ⟨fun i hi hl => ?_, fun i hi hl => ?_, fun hn => ⟨?_, ?_⟩⟩
  · cases hf : strFind j.value s start stop with
    | none => exact absurd hi (h2 hf i)
    | some k =>
      obtain ⟨i', rfl, hw, hl'⟩ := h1 k hf
      have : i' = i := by
        rcases Nat.lt_trichotomy i' i with h | h | h
        · exact absurd hw (hl _ h)
        · exact h
        · exact absurd hi (hl' _ h)
      rw [this]; rfl
  · cases hf : strRfind j.value s start stop with
    | none => exact absurd hi (r2 hf i)
    | some k =>
      obtain ⟨i', rfl, hw, hl'⟩ := r1 k hf
      have : i' = i := by
        rcases Nat.lt_trichotomy i' i with h | h | h
        · exact absurd hi (hl' _ h)
        · exact h
        · exact absurd hw (hl _ h)
      rw [this]; rfl
  · cases hf : strFind j.value s start stop with
    | none => rfl
    | some k => obtain ⟨i, _, hw, _⟩ := h1 k hf; exact absurd hw (hn i)
  · cases hf : strRfind j.value s start stop with
    | none => rfl
    | some k => obtain ⟨i, _, hw, _⟩ := r1 k hf; exact absurd hw (hn i)

/-- Instance: in `abcabc` the text `bc`, given as a `JsonString`, is first at 1 and last at 4; before the last character only at 1. -/
example : find (alone c!"abcabc") 0 100 (.json (alone c!"bc")) = .ok 1 ∧ rfind (alone c!"abcabc") 0 100 (.json (alone c!"bc")) = .ok 4 ∧
    rfind (alone c!"abcabc") 0 (-1) (.str c!"bc") = .ok 1 ∧ Within c!"abcabc" c!"bc" 0 100 1 := by
  refine ⟨by decide, by decide, by decide, ⟨c!"a", c!"abc", rfl, rfl⟩, by decide, by decide⟩

/-- C105: `count` gives the greatest number of places, between `start` and `end`, where the text is without overlapping. -/
theorem C105_count (j : JString) (start stop : Int) (x : Arg) (s : Str) (hx : textOf x = some s) :
    ∃ c, count j start stop x = .ok c ∧
      (∃ is : List Nat, is.length = c ∧ Apart s.length is ∧ ∀ i ∈ is, Within j.value s start stop i) ∧
      ∀ is : List Nat, Apart s.length is → (∀ i ∈ is, Within j.value s start stop i) → is.length ≤ c := by
  have e : count j start stop x = .ok (strCount j.value s start stop) := by
    cases x <;> simp only [textOf, Option.some.injEq, reduceCtorEq] at hx <;> subst hx <;> rfl
  exact ⟨_, e, JS.strCount_spec j.value s start stop⟩

/-- Instance: `aa` is twice in `aaaaa`, and the empty text six times. -/
example : count (alone c!"aaaaa") 0 100 (.str c!"aa") = .ok 2 ∧ count (alone c!"aaaaa") 0 100 (.json (alone [])) = .ok 6 := by decide

/-- C105, as far as it holds for `index`, `rindex`, `startswith` and `endswith`: with a `str` they answer as `str` does. Missing: the
same with a `JsonString`, which is refused (`C105_args_violated`). -/
theorem C105_where_partial (j : JString) (start stop : Int) (s : Str) :
    (∀ i, Within j.value s start stop i → (∀ k < i, ¬ Within j.value s start stop k) → index j start stop (.str s) = .ok i) ∧
    (∀ i, Within j.value s start stop i → (∀ k > i, ¬ Within j.value s start stop k) → rindex j start stop (.str s) = .ok i) ∧
    ((∀ i, ¬ Within j.value s start stop i) → index j start stop (.str s) = .err .valueError ∧ rindex j start stop (.str s) = .err .valueError) := by
  obtain ⟨f1, f2, f3⟩ := C105_find j start stop (.str s) s rfl
  simp only [find, rfind, index, rindex, data] at *
  refine ⟨fun i hi hl => ?_, fun i hi hl => ?_, fun hn => ?_⟩
  · have := f1 i hi hl
    cases h : strFind j.value s start stop with
    | none => exact absurd hi ((JS.strFind_spec _ _ _ _).2 h i)
    | some k => rw [h] at this; exact this
  · have := f2 i hi hl
    cases h : strRfind j.value s start stop with
    | none => exact absurd hi ((JS.strRfind_spec _ _ _ _).2 h i)
    | some k => rw [h] at this; exact this
  · constructor
    · cases h : strFind j.value s start stop with
      | none => rfl
      | some k => obtain ⟨i, _, hw, _⟩ := (JS.strFind_spec _ _ _ _).1 k h; exact absurd hw (hn i)
    · cases h : strRfind j.value s start stop with
      | none => rfl
      | some k => obtain ⟨i, _, hw, _⟩ := (JS.strRfind_spec _ _ _ _).1 k h; exact absurd hw (hn i)

theorem C105_affix_partial (j : JString) (start stop : Int) (s : Str) :
    (∃ b, startswith j start stop (.str s) = .ok b ∧
      (b = true ↔ ∃ i : Nat, i = windowStart j.value.length start ∧ Within j.value s start stop i)) ∧
    ∃ b, endswith j start stop (.str s) = .ok b ∧
      (b = true ↔ ∃ i : Nat, (i + s.length : Int) = windowEnd j.value.length stop ∧ Within j.value s start stop i) :=
  ⟨⟨_, rfl, JS.strStarts_spec _ _ _ _⟩, ⟨_, rfl, JS.strEnds_spec _ _ _ _⟩⟩

/-- Instance: `x.startswith("b", 1)` and `x.endswith("b", 0, -1)`. -/
example : startswith (alone c!"abc") 1 100 (.str c!"b") = .ok true ∧ endswith (alone c!"abc") 0 (-1) (.str c!"b") = .ok true ∧
    startswith (alone c!"abc") 0 100 (.str c!"b") = .ok false := by decide

/-- C105: a prefix or a suffix is taken off if it is there. -/
theorem C105_remove (j : JString) (x : Arg) (s : Str) (hx : textOf x = some s) :
    (∀ r, j.value = s ++ r → removeprefix j x = .ok (alone r)) ∧ ((¬ ∃ r, j.value = s ++ r) → removeprefix j x = .ok (alone j.value)) ∧
    (∀ r, j.value = r ++ s → removesuffix j x = .ok (alone r)) ∧ ((¬ ∃ r, j.value = r ++ s) → removesuffix j x = .ok (alone j.value)) := by
  have e1 : removeprefix j x = .ok (alone (if s.isPrefixOf j.value then j.value.drop s.length else j.value)) := by
    cases x <;> simp only [textOf, Option.some.injEq, reduceCtorEq] at hx <;> subst hx <;> rfl
  have e2 : removesuffix j x = .ok (alone (if s.isSuffixOf j.value then j.value.take (j.value.length - s.length) else j.value)) := by
    cases x <;> simp only [textOf, Option.some.injEq, reduceCtorEq] at hx <;> subst hx <;> rfl
  rw [e1, e2]
  refine ⟨fun r hr => ?_, fun hn => ?_, fun r hr => ?_, fun hn => ?_⟩
  · rw [if_pos (List.isPrefixOf_iff_prefix.2 ⟨r, hr.symm⟩), hr]; simp
  · rw [if_neg]
    intro h
    obtain ⟨r, hr⟩ := List.isPrefixOf_iff_prefix.1 h
    exact hn ⟨r, hr.symm⟩
  · rw [if_pos (List.isSuffixOf_iff_suffix.2 ⟨r, hr.symm⟩), hr]; simp
  · rw [if_neg]
    intro h
    obtain ⟨r, hr⟩ := List.isSuffixOf_iff_suffix.1 h
    exact hn ⟨r, hr.symm⟩

/-- C105, as far as it holds for `join`: `str`s are joined with the text between them. Missing: the parts as `JsonString`s, which are
refused (`C105_join_violated`). -/
theorem C105_join_partial (j : JString) : join j [] = .ok [] ∧ (∀ s, join j [.str s] = .ok s) ∧
    ∀ (s t : Str) (r : List Str), ∃ u, join j (.str t :: r.map .str) = .ok u ∧ join j (.str s :: .str t :: r.map .str) = .ok (s ++ j.value ++ u) := by
  have hp : ∀ r : List Str, strParts (r.map .str) = .ok r := by
    intro r
    induction r with
    | nil => rfl
    | cons s r ih => simp only [List.map_cons, strParts, ih]; rfl
  refine ⟨rfl, fun s => ?_, fun s t r => ?_⟩
  · simp [join, strParts, data, List.intercalate]
  · refine ⟨j.value.intercalate (t :: r), ?_, ?_⟩
    · simp only [join, strParts, hp, data]; rfl
    · simp only [join, strParts, hp, data]
      show Res.ok _ = _
      rw [List.intercalate, List.intercalate]
      simp [List.intersperse]

/-- C105 fails for a text given as a `JsonString` to `index`, `rindex`, `startswith` or `endswith`: `TypeError`, whatever the texts. -/
theorem C105_args_violated (j k : JString) (start stop : Int) : index j start stop (.json k) = .err .typeError ∧
    rindex j start stop (.json k) = .err .typeError ∧ startswith j start stop (.json k) = .err .typeError ∧
    endswith j start stop (.json k) = .err .typeError := ⟨rfl, rfl, rfl, rfl⟩

/-- C105 fails for joining: `JsonString`s cannot be joined, not even the characters of a `JsonString`. -/
theorem C105_join_violated (j k : JString) (hk : k.value ≠ []) : ∃ cs, iter k = .ok cs ∧ join j (cs.map .json) = .err .typeError := by
  refine ⟨_, (C105_characters k).2.2.1, ?_⟩
  cases h : k.value with
  | nil => exact absurd h hk
  | cons c r => rfl

/-- C105 fails for keys: a `JsonString` has no hash, so that it is no key of a dict and no member of a set. -/
theorem C105_hash_violated (j : JString) : hash j = .err .typeError := rfl

/-- C105 fails for making a `JsonString` of a `JsonString`, as `str` takes a `str`. -/
theorem C105_make_violated (s : Str) (j : JString) : make (.str s) = .ok (alone s) ∧ make (.json j) = .err .typeError := ⟨rfl, rfl⟩

/-- C105 fails for `repr`: the text with a closing parenthesis, from which the text cannot be told as from `repr` of a `str`; and adding a
`JsonNull` or a `JsonBoolean` adds such texts. -/
theorem C105_repr_violated (j : JString) : JStr.repr j = j.value ++ c!")" ∧
    (∃ t, shown .null = some t ∧ add j (.other t) = .ok (alone (j.value ++ c!"None)"))) ∧
    ∃ t, shown (.bool true) = some t ∧ add j (.other t) = .ok (alone (j.value ++ c!"JsonBool(True)")) :=
  ⟨rfl, ⟨_, rfl, rfl⟩, ⟨_, rfl, rfl⟩⟩

end Verif.Props
