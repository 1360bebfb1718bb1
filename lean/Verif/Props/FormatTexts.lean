import Verif.Props.Formats
import Verif.Spec.FormatTexts
import Verif.Proofs.DecimalRange
/-! # C73–C75: the formats `uuid`, `byte` and `decimal` -/

namespace Verif.Props
open Verif Verif.Spec Formats

/-! ## Characters -/

/-- Two sets of ASCII characters are equal if they have the same of the 128. -/
theorem char_set (p : Char → Bool) (l : List Char) (h : ∀ n, n < 128 → (p (Char.ofNat n) = decide (Char.ofNat n ∈ l)))
    (hp : ∀ c, p c = true → c.toNat < 128) (hl : ∀ c ∈ l, c.toNat < 128) (c : Char) : p c = true ↔ c ∈ l := by
  have e : c = Char.ofNat c.toNat := (Char.ofNat_toNat c).symm
  constructor
  · intro hc
    have := h c.toNat (hp c hc)
    rw [← e, hc] at this
    simpa using this.symm
  · intro hc
    have := h c.toNat (hl c hc)
    rw [← e] at this
    simpa [hc] using this

theorem hexChar_iff (c : Char) : hexChar c = true ↔ HexDigit c := by
  refine char_set hexChar _ (by decide) (fun c h => ?_) (by decide) c
  simp only [hexChar, Bool.or_eq_true, Bool.and_eq_true, decide_eq_true_eq, Char.le_def, UInt32.le_iff_toNat_le] at h
  have e : c.toNat = c.val.toNat := rfl
  simp at h
  omega
theorem b64Char_iff (c : Char) : b64Char c = true ↔ In64 c := by
  refine char_set b64Char _ (by decide) (fun c h => ?_) (by decide) c
  simp only [b64Char, Bool.or_eq_true, Bool.and_eq_true, decide_eq_true_eq, Char.le_def, UInt32.le_iff_toNat_le, beq_iff_eq] at h
  have e : c.toNat = c.val.toNat := rfl
  rcases h with (h | rfl) | rfl
  · simp at h; omega
  · decide
  · decide
theorem asciiDigit_iff (c : Char) : asciiDigit c = true ↔ c ∈ c!"0123456789" := by
  refine char_set asciiDigit _ (by decide) (fun c h => ?_) (by decide) c
  simp only [asciiDigit, decide_eq_true_eq, Char.le_def, UInt32.le_iff_toNat_le] at h
  have e : c.toNat = c.val.toNat := rfl
  simp at h
  omega

theorem hex_ascii {c : Char} (h : HexDigit c) : c.toNat < 127 := by
  revert c; unfold HexDigit; decide

/-! ## C73 -/

theorem removeAll_none {p : Char} {pat s : Str} (h : p ∉ s) : removeAll (p :: pat) s = s := by
  unfold removeAll
  induction s with
  | nil => rfl
  | cons x r ih =>
    simp only [List.mem_cons, not_or] at h
    rw [removeAux, if_neg (by simp [List.isPrefixOf, h.1]), ih h.2]

theorem removeAll_one (p : Char) (s : Str) : removeAll [p] s = s.filter fun c => c != p := by
  unfold removeAll
  induction s with
  | nil => rfl
  | cons x r ih =>
    rw [removeAux]
    by_cases h : p = x
    · subst h; simp [List.isPrefixOf, ih]
    · have h' : x ≠ p := fun e => h e.symm
      simp [List.isPrefixOf, h, h', ih]

theorem stripBraces_none {s : Str} (h : ∀ c ∈ s, c ≠ '{' ∧ c ≠ '}') : stripBraces s = s := by
  have key : ∀ s : Str, (∀ c ∈ s, c ≠ '{' ∧ c ≠ '}') → (s.dropWhile fun c => c == '{' || c == '}') = s := by
    intro s h
    cases s with
    | nil => rfl
    | cons c r => rw [List.dropWhile_cons_of_neg]; simpa using h c (by simp)
  unfold stripBraces
  rw [key s h, key s.reverse (fun c hc => h c (by simpa using hc)), List.reverse_reverse]

theorem stripBraces_braced {s : Str} (h : ∀ c ∈ s, c ≠ '{' ∧ c ≠ '}') : stripBraces ('{' :: (s ++ ['}'])) = s := by
  have e := stripBraces_none h
  unfold stripBraces at e ⊢
  rw [List.dropWhile_cons_of_pos (by simp)]
  cases s with
  | nil => rfl
  | cons c r =>
    rw [List.cons_append, List.dropWhile_cons_of_neg (by simpa using h c (by simp)), ← List.cons_append, List.reverse_append]
    rw [List.reverse_singleton, List.singleton_append, List.dropWhile_cons_of_pos (by simp)]
    rw [List.dropWhile_cons_of_neg (by simpa using h c (by simp))] at e
    exact e

theorem hexRun_hex {s : Str} (h : ∀ c ∈ s, HexDigit c) (p : Bool) (hp : p = true ∨ s ≠ []) : hexRun p s = true := by
  induction s generalizing p with
  | nil => simpa [hexRun] using hp
  | cons c r ih =>
    rw [hexRun, if_pos ((hexChar_iff c).2 (h c (by simp)))]
    exact ih (fun c hc => h c (by simp [hc])) true (.inl rfl)

theorem int16_hex (u : UDB) {s : Str} (h : ∀ c ∈ s, HexDigit c) (hs : s ≠ []) : int16Ok u s = true := by
  have e : s.map (asciiChar u) = s := by
    conv => rhs; rw [← List.map_id s]
    apply List.map_congr_left
    intro c hc
    simp [asciiChar, hex_ascii (h c hc)]
  unfold int16Ok
  rw [e]
  cases s with
  | nil => exact absurd rfl hs
  | cons c r =>
    have hc := h c (by simp)
    have h1 : ¬ (c = ' ' ∨ c = '\n' ∨ c = '\t' ∨ c = '\r' ∨ c = '\x0b' ∨ c = '\x0c') := by
      rintro (rfl | rfl | rfl | rfl | rfl | rfl) <;> exact absurd hc (by unfold HexDigit; decide)
    have h2 : ¬ (c = '+' ∨ c = '-') := by rintro (rfl | rfl) <;> exact absurd hc (by unfold HexDigit; decide)
    rw [stripL, if_neg h1, dropSign, if_neg h2]
    have h3 : drop0x (c :: r) = c :: r := by
      unfold drop0x
      split
      · next x r' e =>
        cases e
        have hx := h x (by simp)
        rw [if_neg]
        rintro (rfl | rfl) <;> exact absurd hx (by unfold HexDigit; decide)
      · rfl
    rw [h3]
    exact hexRun_hex h false (.inr (by simp))

theorem dash_chars {s : Str} (h : ∀ c ∈ s, HexDigit c ∨ c = '-') :
    'u' ∉ s ∧ ∀ c ∈ s, c ≠ '{' ∧ c ≠ '}' := by
  refine ⟨fun hu => ?_, fun c hc => ⟨?_, ?_⟩⟩
  · rcases h _ hu with h | h <;> exact absurd h (by first | decide | (unfold HexDigit; decide))
  all_goals
    rintro rfl
    rcases h _ hc with h | h <;> exact absurd h (by first | decide | (unfold HexDigit; decide))

/-- Hexadecimal digits and hyphens are taken if there are 32 digits. -/
theorem uuid_core {s : Str} (u : UDB) (h : ∀ c ∈ s, HexDigit c ∨ c = '-') (t : Str) (e : uuidCore t = s.filter fun c => c != '-') :
    uuidOk u t = true ↔ (s.filter fun c => c != '-').length = 32 := by
  unfold uuidOk
  rw [e, Bool.and_eq_true, beq_iff_eq]
  refine ⟨fun h => h.1, fun hl => ⟨hl, int16_hex u (fun c hc => ?_) (by rintro h; rw [h] at hl; simp at hl)⟩⟩
  simp only [List.mem_filter, bne_iff_ne, ne_eq] at hc
  exact (h c hc.1).resolve_right hc.2

theorem uuid_dashes {s : Str} (u : UDB) (h : ∀ c ∈ s, HexDigit c ∨ c = '-') : uuidOk u s = true ↔ (s.filter fun c => c != '-').length = 32 := by
  obtain ⟨h1, h2⟩ := dash_chars h
  refine uuid_core u h s ?_
  unfold uuidCore
  rw [removeAll_none h1, removeAll_none h1, stripBraces_none h2, removeAll_one]

theorem uuid_braced {s : Str} (u : UDB) (h : ∀ c ∈ s, HexDigit c ∨ c = '-') :
    uuidOk u ('{' :: (s ++ ['}'])) = true ↔ (s.filter fun c => c != '-').length = 32 := by
  obtain ⟨h1, h2⟩ := dash_chars h
  refine uuid_core u h _ ?_
  have h3 : 'u' ∉ '{' :: (s ++ ['}']) := by simp [h1]
  unfold uuidCore
  rw [removeAll_none h3, removeAll_none h3, stripBraces_braced h2, removeAll_one]

theorem uuid_urn {s : Str} (u : UDB) (h : ∀ c ∈ s, HexDigit c ∨ c = '-') :
    uuidOk u (c!"urn:uuid:" ++ s) = true ↔ (s.filter fun c => c != '-').length = 32 := by
  obtain ⟨h1, h2⟩ := dash_chars h
  refine uuid_core u h _ ?_
  have e1 : removeAll c!"urn:" (c!"urn:uuid:" ++ s) = c!"uuid:" ++ removeAll c!"urn:" s := by
    simp [removeAll, removeAux, List.isPrefixOf]
  have e2 : removeAll c!"uuid:" (c!"uuid:" ++ s) = removeAll c!"uuid:" s := by
    simp [removeAll, removeAux, List.isPrefixOf]
  unfold uuidCore
  rw [e1, removeAll_none h1, e2, removeAll_none h1, stripBraces_none h2, removeAll_one]

theorem uuid_digits {s : Str} (h : UuidText s) : (∀ c ∈ s, HexDigit c ∨ c = '-') ∧ (s.filter fun c => c != '-').length = 32 := by
  obtain ⟨a, b, c, d, e, ⟨la, ha⟩, ⟨lb, hb⟩, ⟨lc, hc⟩, ⟨ld, hd⟩, ⟨le, he⟩, rfl⟩ := h
  have key : ∀ s : Str, (∀ c ∈ s, HexDigit c) → s.filter (fun c => c != '-') = s := by
    intro s h
    rw [List.filter_eq_self]
    intro x hx
    simp only [bne_iff_ne, ne_eq]
    rintro rfl
    exact absurd (h _ hx) (by unfold HexDigit; decide)
  constructor
  · intro x hx
    simp only [List.mem_append, List.mem_cons] at hx
    rcases hx with h | h | h | h | h | h | h | h | h
    · exact .inl (ha x h)
    · exact .inr h
    · exact .inl (hb x h)
    · exact .inr h
    · exact .inl (hc x h)
    · exact .inr h
    · exact .inl (hd x h)
    · exact .inr h
    · exact .inl (he x h)
  · simp [key a ha, key b hb, key c hc, key d hd, key e he, la, lb, lc, ld, le]

/-! Characters that `UUID` never takes -/

theorem mem_dropWhile {p : Char → Bool} {c : Char} (hc : p c = false) : ∀ {s : Str}, c ∈ s → c ∈ s.dropWhile p
  | x :: r, h => by
    rw [List.dropWhile_cons]
    split
    · rename_i hx
      rcases List.mem_cons.1 h with rfl | h
      · rw [hc] at hx; cases hx
      · exact mem_dropWhile hc h
    · exact h

theorem mem_removeAux {pat : Str} {c : Char} (hne : pat ≠ []) (hc : c ∉ pat) : ∀ {s : Str} {n : Nat}, c ∈ s.drop n → c ∈ removeAux pat n s
  | [], n, h => by simp at h
  | x :: r, n + 1, h => by rw [removeAux]; exact mem_removeAux hne hc (by simpa using h)
  | x :: r, 0, h => by
    rw [removeAux]
    split
    · rename_i hp
      refine mem_removeAux hne hc ?_
      obtain ⟨t, ht⟩ := List.isPrefixOf_iff_prefix.1 hp
      have h' : c ∈ x :: r := by simpa using h
      cases pat with
      | nil => exact absurd rfl hne
      | cons y ps =>
        simp only [List.cons_append, List.cons.injEq] at ht
        obtain ⟨rfl, rfl⟩ := ht
        simp only [List.mem_cons, List.mem_append, not_or] at h' hc
        rcases h' with h' | h' | h'
        · exact absurd h' hc.1
        · exact absurd h' hc.2
        · simpa using h'
    · rcases List.mem_cons.1 (show c ∈ x :: r by simpa using h) with rfl | h'
      · simp
      · exact List.mem_cons_of_mem _ (mem_removeAux hne hc (by simpa using h'))

theorem mem_stripBraces {c : Char} (hc : c ≠ '{' ∧ c ≠ '}') {s : Str} (h : c ∈ s) : c ∈ stripBraces s := by
  unfold stripBraces
  have hp : (c == '{' || c == '}') = false := by simp [hc]
  simp only [List.mem_reverse]
  exact mem_dropWhile hp (by simpa using mem_dropWhile hp h)

/-- No digit, no white space, and none of the signs that `UUID` drops. -/
def Foreign (u : UDB) (c : Char) : Prop := ¬ HexDigit c ∧ c ∉ c!"urnid:xX_+-{}" ∧ u.space c = false ∧ u.digit c = none

theorem csp_space (u : UDB) {c : Char} (h : c = ' ' ∨ c = '\n' ∨ c = '\t' ∨ c = '\r' ∨ c = '\x0b' ∨ c = '\x0c') : u.space c = true := by
  rcases h with rfl | rfl | rfl | rfl | rfl | rfl <;> (rw [u.space_ascii _ (by decide)]; decide)

theorem foreign_ascii {u : UDB} {c : Char} (h : Foreign u c) : Foreign u (asciiChar u c) := by
  unfold asciiChar
  split
  · exact h
  · rw [h.2.2.1, h.2.2.2]
    refine ⟨by unfold HexDigit; decide, by decide, ?_, ?_⟩
    · show u.space '?' = false
      rw [u.space_ascii _ (by decide)]; decide
    · show u.digit '?' = none
      rw [u.digit_ascii _ (by decide)]; decide

theorem mem_stripL {u : UDB} {c : Char} (hc : Foreign u c) : ∀ {s : Str}, c ∈ s → c ∈ stripL s
  | x :: r, h => by
    rw [stripL]
    split
    · rename_i hx
      rcases List.mem_cons.1 h with rfl | h
      · have := csp_space u hx
        rw [hc.2.2.1] at this; cases this
      · exact mem_stripL hc h
    · exact h

theorem mem_dropSign {u : UDB} {c : Char} (hc : Foreign u c) {s : Str} (h : c ∈ s) : c ∈ dropSign s := by
  have h2 := hc.2.1
  cases s with
  | nil => exact h
  | cons x r =>
    rw [dropSign]
    split
    · rename_i hx
      rcases List.mem_cons.1 h with rfl | h
      · rcases hx with rfl | rfl <;> simp at h2
      · exact h
    · exact h

theorem mem_drop0x {u : UDB} {c : Char} (hc : Foreign u c) {s : Str} (h : c ∈ s) : c ∈ drop0x s := by
  have h1 : c ≠ '0' := by rintro rfl; exact hc.1 (by unfold HexDigit; decide)
  have h2 := hc.2.1
  unfold drop0x
  split
  · rename_i x r
    split
    · rename_i hx
      have h3 : c ≠ x := by rintro rfl; rcases hx with rfl | rfl <;> simp at h2
      have h4 : c ∈ r := by simpa [h1, h3] using h
      split
      · rename_i r'
        rcases List.mem_cons.1 h4 with rfl | h4
        · simp at h2
        · exact h4
      · exact h4
    · exact h
  · exact h

theorem hexRun_foreign {u : UDB} {c : Char} (hc : Foreign u c) : ∀ {s : Str} {p : Bool}, c ∈ s → hexRun p s = false
  | x :: r, p, h => by
    have tail : c ∈ r ∨ c = x := by rcases List.mem_cons.1 h with h | h; exacts [.inr h, .inl h]
    rw [hexRun]
    split
    · rename_i hx
      rcases tail with h' | rfl
      · exact hexRun_foreign hc h'
      · exact absurd ((hexChar_iff _).1 hx) hc.1
    · split
      · rename_i hx
        rcases tail with h' | rfl
        · rw [hexRun_foreign hc h', Bool.and_false]
        · subst hx; exact absurd hc.2.1 (by decide)
      · have := mem_stripL hc h
        cases e : stripL (x :: r) with
        | nil => rw [e] at this; simp at this
        | cons a b => simp

theorem uuid_foreign {u : UDB} {c : Char} (hc : Foreign u c) {s : Str} (h : c ∈ s) : uuidOk u s = false := by
  have h2 := hc.2.1
  simp only [List.mem_cons, not_or] at h2
  have m1 : c ∈ removeAll c!"urn:" s := mem_removeAux (by simp) (by simp [h2]) (by simpa using h)
  have m2 : c ∈ removeAll c!"uuid:" (removeAll c!"urn:" s) := mem_removeAux (by simp) (by simp [h2]) (by simpa using m1)
  have m3 := mem_stripBraces ⟨h2.2.2.2.2.2.2.2.2.2.2.2.1, h2.2.2.2.2.2.2.2.2.2.2.2.2.1⟩ m2
  have m4 : c ∈ uuidCore s := mem_removeAux (by simp) (by simp [h2]) (by simpa using m3)
  have : int16Ok u (uuidCore s) = false :=
    hexRun_foreign (foreign_ascii hc) (mem_drop0x (foreign_ascii hc) (mem_dropSign (foreign_ascii hc) (mem_stripL (foreign_ascii hc) (List.mem_map_of_mem m4))))
  simp [uuidOk, this]

variable (w : World) (docs : List Doc) (voc : List Kw) (f : Nat) (items : List (Str × Node)) (ctx : Ctx) (E : Env)

/-- C73, one half: `{format: uuid}` accepts every text in the form of RFC 4122, also in braces or after `urn:uuid:`. -/
theorem C73_accepts (hc : CtxOk ctx) (h : FormatSchema voc items c!"uuid") (s : Str) (hs : UuidText s) (t : Str)
    (ht : t = s ∨ t = '{' :: (s ++ ['}']) ∨ t = c!"urn:uuid:" ++ s) :
    validateN (withFormats E w []) docs voc (f + 2) (.obj items) (.str t) ctx = .ok () := by
  obtain ⟨h1, h2⟩ := uuid_digits hs
  refine (format_test w docs voc f items ctx E hc h rfl t rfl (P := True) ?_).1.2 trivial
  simp only [iff_true]
  rcases ht with rfl | rfl | rfl
  · exact (uuid_dashes E.u h1).2 h2
  · exact (uuid_braced E.u h1).2 h2
  · exact (uuid_urn E.u h1).2 h2

/-- C73, the other half, where it holds: of the texts of hexadecimal digits and hyphens, exactly those with 32 digits are accepted, wherever the
hyphens are. -/
theorem C73_digits_partial (hc : CtxOk ctx) (h : FormatSchema voc items c!"uuid") (s : Str) (hs : ∀ c ∈ s, HexDigit c ∨ c = '-') :
    (validateN (withFormats E w []) docs voc (f + 2) (.obj items) (.str s) ctx = .ok () ↔ (s.filter fun c => c != '-').length = 32) ∧
    ((s.filter fun c => c != '-').length ≠ 32 → validateN (withFormats E w []) docs voc (f + 2) (.obj items) (.str s) ctx =
      rejected c!"format_error" ctx.path c!"uuid") :=
  format_test w docs voc f items ctx E hc h rfl s rfl (uuid_dashes E.u hs)

/-- C73, more of the other half: a text with any other character than hexadecimal digits, hyphens, braces, `urn:uuid:`, `x`, `_`, `+`, white space and
decimal digits of other scripts is refused. -/
theorem C73_foreign_partial (hc : CtxOk ctx) (h : FormatSchema voc items c!"uuid") (s : Str) (c : Char) (hs : c ∈ s) (hx : ¬ HexDigit c)
    (hm : c ∉ c!"urnid:xX_+-{}") (hsp : E.u.space c = false) (hd : E.u.digit c = none) :
    validateN (withFormats E w []) docs voc (f + 2) (.obj items) (.str s) ctx = rejected c!"format_error" ctx.path c!"uuid" :=
  (format_test w docs voc f items ctx E hc h rfl s rfl (P := False) (by
    show uuidOk E.u s = true ↔ False
    rw [uuid_foreign ⟨hx, hm, hsp, hd⟩ hs]; simp)).2 id

/-- The hypotheses for a text with a `g` for every Unicode table. -/
example : 'g' ∈ c!"1234567g-1234-1234-1234-123456781234" ∧ ¬ HexDigit 'g' ∧ 'g' ∉ c!"urnid:xX_+-{}" ∧ E.u.space 'g' = false ∧ E.u.digit 'g' = none :=
  ⟨by decide, by unfold HexDigit; decide, by decide, by rw [E.u.space_ascii _ (by decide)]; decide, by rw [E.u.digit_ascii _ (by decide)]; decide⟩

/-- C73 fails: `0x`, a sign, underscores, spaces, hyphens anywhere. -/
theorem C73_violated (hc : CtxOk ctx) (h : FormatSchema voc items c!"uuid") : ∀ t ∈
    [c!"0x345678123456781234567812345678", c!"+2345678123456781234567812345678", c!"1_3456781234567812345678123456_8",
     c!" 2345678123456781234567812345678", c!"-1-2345678123456781234567812345678"],
    ¬ UuidText t ∧ validateN (withFormats E w []) docs voc (f + 2) (.obj items) (.str t) ctx = .ok () := by
  have dashes : ∀ t, UuidText t → t.length = 36 := by
    rintro t ⟨a, b, c, d, e, ⟨la, -⟩, ⟨lb, -⟩, ⟨lc, -⟩, ⟨ld, -⟩, ⟨le, -⟩, rfl⟩
    simp [la, lb, lc, ld, le]
  intro t ht
  refine ⟨fun hu => ?_, (format_test w docs voc f items ctx E hc h rfl t rfl (P := True) ?_).1.2 trivial⟩
  · have := dashes t hu
    revert ht this
    generalize hl : t.length = n
    intro ht e
    subst e
    simp only [List.mem_cons, List.not_mem_nil, or_false] at ht
    rcases ht with rfl | rfl | rfl | rfl | rfl <;> exact absurd hl (by decide)
  · simp only [iff_true]
    simp only [List.mem_cons, List.not_mem_nil, or_false] at ht
    have asc : ∀ s : Str, (s.all fun c => c.toNat < 127) = true → s.map (asciiChar E.u) = s := by
      intro s h
      conv => rhs; rw [← List.map_id s]
      apply List.map_congr_left
      intro c hc
      simp [asciiChar, by simpa using List.all_eq_true.1 h c hc]
    have key : ∀ s : Str, (uuidCore s).all (fun c => c.toNat < 127) = true → (uuidCore s).length = 32 →
        hexRun false (drop0x (dropSign (stripL (uuidCore s)))) = true → uuidOk E.u s = true := by
      intro s h1 h2 h3
      unfold uuidOk int16Ok
      rw [asc _ h1, h2, h3]; rfl
    rcases ht with rfl | rfl | rfl | rfl | rfl <;> exact key _ (by decide) (by decide) (by decide)

/-- A text in the form of RFC 4122, and the hypothesis on the schema. -/
example : UuidText c!"12345678-1234-5678-1234-56781234567f" ∧ FormatSchema [.format] [(c!"format", .str c!"uuid")] c!"uuid" :=
  ⟨⟨c!"12345678", c!"1234", c!"5678", c!"1234", c!"56781234567f", by unfold HexText HexDigit; decide, by unfold HexText HexDigit; decide,
    by unfold HexText HexDigit; decide, by unfold HexText HexDigit; decide, by unfold HexText HexDigit; decide, rfl⟩, ⟨⟨by decide, by decide⟩, rfl⟩⟩

/-! ## C74 -/

/-- The condition, when the group at hand has `q` characters. -/
def EnoughFrom (q : Nat) (t : Str) : Prop :=
  (q + count64 t) % 4 = 0 ∨ (∃ a r, t = a ++ '=' :: r ∧ (q + count64 a) % 4 = 3) ∨ ∃ a r, t = a ++ '=' :: '=' :: r ∧ (q + count64 a) % 4 = 2

theorem count_in {c : Char} (h : In64 c) (t : Str) : count64 (c :: t) = count64 t + 1 := by
  unfold count64
  rw [List.countP_cons_of_pos]
  exact decide_eq_true h

theorem count_pad (t : Str) : count64 ('=' :: t) = count64 t := by
  unfold count64
  rw [List.countP_cons_of_neg]
  decide

theorem enough_in {c : Char} (h : In64 c) (q : Nat) (t : Str) : EnoughFrom q (c :: t) ↔ EnoughFrom ((q + 1) % 4) t := by
  have ne : c ≠ '=' := by rintro rfl; exact absurd h (by unfold In64; decide)
  unfold EnoughFrom
  refine or_congr (by rw [count_in h]; omega) (or_congr ?_ ?_)
  · constructor
    · rintro ⟨a, r, e, h'⟩
      cases a with
      | nil => simp at e; exact absurd e.1 ne
      | cons x a =>
        simp only [List.cons_append, List.cons.injEq] at e
        obtain ⟨rfl, e⟩ := e
        rw [count_in h] at h'
        exact ⟨a, r, e, by omega⟩
    · rintro ⟨a, r, rfl, h'⟩
      exact ⟨c :: a, r, rfl, by rw [count_in h]; omega⟩
  · constructor
    · rintro ⟨a, r, e, h'⟩
      cases a with
      | nil => simp at e; exact absurd e.1 ne
      | cons x a =>
        simp only [List.cons_append, List.cons.injEq] at e
        obtain ⟨rfl, e⟩ := e
        rw [count_in h] at h'
        exact ⟨a, r, e, by omega⟩
    · rintro ⟨a, r, rfl, h'⟩
      exact ⟨c :: a, r, rfl, by rw [count_in h]; omega⟩

theorem enough_pad (q : Nat) (t : Str) : EnoughFrom q ('=' :: t) ↔ q % 4 = 3 ∨ (q % 4 = 2 ∧ ∃ r, t = '=' :: r) ∨ EnoughFrom q t := by
  unfold EnoughFrom
  rw [count_pad]
  constructor
  · rintro (h | ⟨a, r, e, h⟩ | ⟨a, r, e, h⟩)
    · exact .inr (.inr (.inl h))
    · cases a with
      | nil => exact .inl h
      | cons x a =>
        simp only [List.cons_append, List.cons.injEq] at e
        obtain ⟨rfl, e⟩ := e
        rw [count_pad] at h
        exact .inr (.inr (.inr (.inl ⟨a, r, e, h⟩)))
    · cases a with
      | nil =>
        simp only [List.nil_append, List.cons.injEq, true_and] at e
        exact .inr (.inl ⟨h, r, e⟩)
      | cons x a =>
        simp only [List.cons_append, List.cons.injEq] at e
        obtain ⟨rfl, e⟩ := e
        rw [count_pad] at h
        exact .inr (.inr (.inr (.inr ⟨a, r, e, h⟩)))
  · rintro (h | ⟨h, r, rfl⟩ | h | ⟨a, r, rfl, h⟩ | ⟨a, r, rfl, h⟩)
    · exact .inr (.inl ⟨[], t, rfl, h⟩)
    · exact .inr (.inr ⟨[], r, rfl, h⟩)
    · exact .inl h
    · exact .inr (.inl ⟨'=' :: a, r, rfl, by rw [count_pad]; exact h⟩)
    · exact .inr (.inr ⟨'=' :: a, r, rfl, by rw [count_pad]; exact h⟩)

theorem b64Run_filter (q p : Nat) (s : Str) : b64Run q p s = b64Run q p (s.filter fun c => b64Char c || c == '=') := by
  induction s generalizing q p with
  | nil => rfl
  | cons c s ih =>
    by_cases e : c = '='
    · subst e
      rw [List.filter_cons_of_pos (by simp)]
      simp only [b64Run, if_true, ← ih]
    · by_cases hc : b64Char c = true
      · rw [List.filter_cons_of_pos (by simp [hc])]
        simp only [b64Run, if_neg e, hc, if_true, ← ih]
      · rw [List.filter_cons_of_neg (by simp [hc, e])]
        simp only [b64Run, if_neg e, hc, ← ih]
        rfl

theorem b64Run_iff (t : Str) (ht : ∀ c ∈ t, In64 c ∨ c = '=') :
    (∀ q, q < 4 → (b64Run q 0 t = true ↔ EnoughFrom q t)) ∧ (b64Run 2 1 t = true ↔ (∃ r, t = '=' :: r) ∨ EnoughFrom 2 t) := by
  induction t with
  | nil =>
    refine ⟨fun q hq => ?_, ?_⟩
    · simp [b64Run, EnoughFrom, count64]; omega
    · simp [b64Run, EnoughFrom, count64]
  | cons c t ih =>
    obtain ⟨ih1, ih2⟩ := ih fun x hx => ht x (List.mem_cons_of_mem _ hx)
    rcases ht c List.mem_cons_self with hc | rfl
    · have ne : c ≠ '=' := by rintro rfl; exact absurd hc (by unfold In64; decide)
      have hb := (b64Char_iff c).2 hc
      refine ⟨fun q hq => ?_, ?_⟩
      · simp only [b64Run, if_neg ne, hb, if_true]
        rw [enough_in hc]
        exact ih1 _ (by omega)
      · simp only [b64Run, if_neg ne, hb, if_true]
        rw [enough_in hc, ih1 _ (by omega)]
        simp [ne]
    · refine ⟨fun q hq => ?_, ?_⟩
      · simp only [b64Run, if_true]
        rw [enough_pad]
        rcases (by omega : q = 0 ∨ q = 1 ∨ q = 2 ∨ q = 3) with rfl | rfl | rfl | rfl
        · simpa using ih1 0 (by omega)
        · simpa using ih1 1 (by omega)
        · simpa using ih2
        · simp
      · simp [b64Run]

theorem b64_iff (s : Str) : b64Ok s = true ↔ (∀ c ∈ s, c.toNat < 128) ∧ Enough (s.filter fun c => decide (In64 c ∨ c = '=')) := by
  have e : (s.filter fun c => b64Char c || c == '=') = s.filter fun c => decide (In64 c ∨ c = '=') := by
    apply List.filter_congr
    intro c _
    rw [Bool.eq_iff_iff]
    simp [b64Char_iff]
  unfold b64Ok
  rw [Bool.and_eq_true, b64Run_filter, e, (b64Run_iff _ fun c hc => by simpa using (List.mem_filter.1 hc).2).1 0 (by omega)]
  refine and_congr (by simp [isAscii]) ?_
  unfold EnoughFrom Enough
  simp only [Nat.zero_add]

/-- C74, exactly: `{format: byte}` accepts an ASCII text if what is left after dropping every character but the 64 and `=` is
`Enough`. -/
theorem C74_decides (hc : CtxOk ctx) (h : FormatSchema voc items c!"byte") (s : Str) :
    (validateN (withFormats E w []) docs voc (f + 2) (.obj items) (.str s) ctx = .ok () ↔
      (∀ c ∈ s, c.toNat < 128) ∧ Enough (s.filter fun c => decide (In64 c ∨ c = '='))) ∧
    (¬ ((∀ c ∈ s, c.toNat < 128) ∧ Enough (s.filter fun c => decide (In64 c ∨ c = '='))) →
      validateN (withFormats E w []) docs voc (f + 2) (.obj items) (.str s) ctx = rejected c!"format_error" ctx.path c!"byte") :=
  format_test w docs voc f items ctx E hc h rfl s rfl (b64_iff s)

theorem base64_chars {s : Str} (h : Base64Text s) : ∀ c ∈ s, In64 c ∨ c = '=' := by
  induction h with
  | nil => simp
  | two ha hb => simp [ha, hb]
  | three ha hb hc => simp [ha, hb, hc]
  | four ha hb hc hd _ ih => simp [ha, hb, hc, hd]; simpa using ih

theorem base64_enough {s : Str} (h : Base64Text s) : Enough s := by
  induction h with
  | nil => exact .inl rfl
  | @two a b ha hb =>
    exact .inr (.inr ⟨[a, b], [], rfl, by rw [count_in ha, count_in hb]; rfl⟩)
  | @three a b c ha hb hc =>
    exact .inr (.inl ⟨[a, b, c], [], rfl, by rw [count_in ha, count_in hb, count_in hc]; rfl⟩)
  | @four a b c d s ha hb hc hd _ ih =>
    have key : ∀ t, count64 (a :: b :: c :: d :: t) % 4 = count64 t % 4 := fun t => by
      rw [count_in ha, count_in hb, count_in hc, count_in hd]; omega
    rcases ih with h | ⟨x, r, rfl, h⟩ | ⟨x, r, rfl, h⟩
    · exact .inl (by rw [key, h])
    · exact .inr (.inl ⟨a :: b :: c :: d :: x, r, rfl, by rw [key, h]⟩)
    · exact .inr (.inr ⟨a :: b :: c :: d :: x, r, rfl, by rw [key, h]⟩)

theorem in64_ascii {c : Char} (h : In64 c ∨ c = '=') : c.toNat < 128 := by
  rcases h with h | rfl
  · revert c; unfold In64; decide
  · decide

/-- C74, one half: every base64 text is accepted. -/
theorem C74_accepts (hc : CtxOk ctx) (h : FormatSchema voc items c!"byte") (s : Str) (hs : Base64Text s) :
    validateN (withFormats E w []) docs voc (f + 2) (.obj items) (.str s) ctx = .ok () := by
  refine (C74_decides w docs voc f items ctx E hc h s).1.2 ⟨fun c hc => in64_ascii (base64_chars hs c hc), ?_⟩
  rw [List.filter_eq_self.2 fun c hc => by simpa using base64_chars hs c hc]
  exact base64_enough hs

/-- C74, the other half, where it holds: a text that has only the 64 characters is accepted if it is a base64 text. -/
theorem C74_plain_partial (hc : CtxOk ctx) (h : FormatSchema voc items c!"byte") (s : Str) (hs : ∀ c ∈ s, In64 c) :
    (validateN (withFormats E w []) docs voc (f + 2) (.obj items) (.str s) ctx = .ok () ↔ Base64Text s) := by
  have cnt : count64 s = s.length := by
    unfold count64
    rw [List.countP_eq_length]
    intro c hc; simpa using hs c hc
  constructor
  · intro hv
    obtain ⟨-, he⟩ := (C74_decides w docs voc f items ctx E hc h s).1.1 hv
    rw [List.filter_eq_self.2 fun c hc => by simpa using Or.inl (hs c hc)] at he
    have nope : '=' ∉ s := fun hm => absurd (hs _ hm) (by decide)
    rcases he with he | ⟨a, r, rfl, -⟩ | ⟨a, r, rfl, -⟩
    · rw [cnt] at he
      clear hv cnt nope hc
      have : ∀ n (s : Str), s.length = 4 * n → (∀ c ∈ s, In64 c) → Base64Text s := by
        intro n
        induction n with
        | zero => intro s hl _; rw [List.length_eq_zero_iff.1 (by omega : s.length = 0)]; exact .nil
        | succ n ih =>
          intro s hl hs
          match s, hl, hs with
          | a :: b :: c :: d :: s, hl, hs =>
            exact .four (hs a (by simp)) (hs b (by simp)) (hs c (by simp)) (hs d (by simp))
              (ih s (by simp at hl; omega) fun c hc => hs c (by simp [hc]))
      exact this (s.length / 4) s (by omega) hs
    · exact absurd (by simp) nope
    · exact absurd (by simp) nope
  · exact C74_accepts w docs voc f items ctx E hc h s

/-- C74 fails: characters outside base64 are skipped, a padding ends the text, and lone paddings are nothing. -/
theorem C74_violated (hc : CtxOk ctx) (h : FormatSchema voc items c!"byte") : ∀ t ∈
    [c!"!!!", c!"not base64, sir", c!"AAA=A", c!"=", c!"AA==AAAAA", c!"A=AAA"],
    ¬ Base64Text t ∧ validateN (withFormats E w []) docs voc (f + 2) (.obj items) (.str t) ctx = .ok () := by
  have four : ∀ t, Base64Text t → t.length % 4 = 0 := by
    intro t ht
    induction ht with
    | four _ _ _ _ _ ih => simp; omega
    | _ => simp
  have key : ∀ t : Str, (b64Ok t = true) → t.length % 4 ≠ 0 →
      ¬ Base64Text t ∧ validateN (withFormats E w []) docs voc (f + 2) (.obj items) (.str t) ctx = .ok () := fun t h1 h2 =>
    ⟨fun hb => h2 (four t hb), (format_test w docs voc f items ctx E hc h rfl t rfl Iff.rfl).1.2 h1⟩
  intro t ht
  simp only [List.mem_cons, List.not_mem_nil, or_false] at ht
  rcases ht with rfl | rfl | rfl | rfl | rfl | rfl <;> exact key _ (by decide) (by decide)

/-- A base64 text, and one that is refused. -/
example : Base64Text c!"QUJD/w==" ∧ ¬ Enough c!"QUJD/" :=
  ⟨.four (by decide) (by decide) (by decide) (by decide) (.two (by decide) (by decide)), by
    rintro (h | ⟨a, r, e, -⟩ | ⟨a, r, e, -⟩)
    · exact absurd h (by decide)
    · exact absurd (e ▸ (by simp) : '=' ∈ c!"QUJD/") (by decide)
    · exact absurd (e ▸ (by simp) : '=' ∈ c!"QUJD/") (by decide)⟩

/-! ## C75 -/

theorem asciiDigit_all (s : Str) : s.all asciiDigit = true ↔ DigitText s := by
  simp only [List.all_eq_true, asciiDigit_iff, DigitText]

theorem dropSign_split (t : Str) : ∃ sg, SignText sg ∧ t = sg ++ dropSign t := by
  cases t with
  | nil => exact ⟨[], .inl rfl, rfl⟩
  | cons c r =>
    by_cases h : c = '+' ∨ c = '-'
    · refine ⟨[c], ?_, by simp [dropSign, h]⟩
      rcases h with rfl | rfl
      · exact .inr (.inl rfl)
      · exact .inr (.inr rfl)
    · exact ⟨[], .inl rfl, by simp [dropSign, h]⟩

theorem dropSign_sign {sg m : Str} (h : SignText sg) (hm : ∀ c, m.head? = some c → c ≠ '+' ∧ c ≠ '-') : dropSign (sg ++ m) = m := by
  rcases h with rfl | rfl | rfl
  · cases m with
    | nil => rfl
    | cons c r => simp [dropSign, hm c rfl]
  · simp [dropSign]
  · simp [dropSign]

theorem digit_sign {c : Char} (h : c ∈ c!"0123456789") : c ≠ '+' ∧ c ≠ '-' ∧ c ≠ '.' ∧ c ≠ 'e' ∧ c ≠ 'E' := by
  revert c; decide

theorem fold_number (d : Str) : d.foldl (fun n c => n * 10 + (c.toNat - 48)) 0 = digitNumber d := by
  have key : ∀ (d : Str) (n : Nat), d.foldl (fun n c => n * 10 + (c.toNat - 48)) n = n * 10 ^ d.length + digitNumber d := by
    intro d
    induction d with
    | nil => intro n; simp [digitNumber]
    | cons c d ih =>
      intro n
      rw [List.foldl_cons, ih, digitNumber, List.length_cons, Nat.pow_succ, Nat.add_mul]
      have : n * 10 * 10 ^ d.length = n * (10 ^ d.length * 10) := by rw [Nat.mul_assoc, Nat.mul_comm 10]
      rw [this, show '0'.toNat = 48 from rfl, Nat.add_assoc]
  simpa using key d 0

theorem exponent_iff (e : Str) (x : Int) : exponentOf e = some x ↔ ExponentText e x := by
  constructor
  · intro h
    cases e with
    | nil => exact .inl ⟨rfl, by simpa [exponentOf] using h.symm⟩
    | cons c r =>
      simp only [exponentOf] at h
      split at h
      · rename_i hx
        split at h
        · rename_i hd
          obtain ⟨sg, hs, e⟩ := dropSign_split r
          have hd' := (asciiDigit_all _).1 hd.2
          refine .inr ⟨c, sg, dropSign r, hx, hs, hd', hd.1, by rw [← e], ?_⟩
          rw [fold_number] at h
          have hm : r.head? = some '-' ↔ sg = c!"-" := by
            constructor
            · intro hh
              rcases hs with rfl | rfl | rfl
              · exfalso
                rw [List.nil_append] at e
                rw [e] at hh
                exact absurd rfl (digit_sign (hd' '-' (List.mem_of_mem_head? hh))).2.1
              · rw [e] at hh; simp at hh
              · rfl
            · rintro rfl; rw [e]; rfl
          simp only [hm] at h
          exact (Option.some.inj h).symm
        · cases h
      · cases h
  · rintro (⟨rfl, rfl⟩ | ⟨c, sg, d, hx, hs, hd, hn, rfl, rfl⟩)
    · rfl
    · have hh : ∀ c, d.head? = some c → c ≠ '+' ∧ c ≠ '-' := fun c hc => by
        have := digit_sign (hd c (List.mem_of_mem_head? hc))
        exact ⟨this.1, this.2.1⟩
      have e1 : dropSign (sg ++ d) = d := dropSign_sign hs hh
      have hm : (sg ++ d).head? = some '-' ↔ sg = c!"-" := by
        rcases hs with rfl | rfl | rfl
        · simp only [List.nil_append]
          exact ⟨fun h => absurd rfl (hh _ h).2, fun h => by cases h⟩
        · simp
        · simp
      simp only [exponentOf, e1, if_pos hx, fold_number, hm]
      rw [if_pos ⟨hn, (asciiDigit_all d).2 hd⟩]

theorem takeWhile_digits {i r : Str} (hi : DigitText i) (hr : ∀ c, r.head? = some c → c ∉ c!"0123456789") :
    (i ++ r).takeWhile asciiDigit = i ∧ (i ++ r).dropWhile asciiDigit = r := by
  induction i with
  | nil =>
    cases r with
    | nil => exact ⟨rfl, rfl⟩
    | cons c r =>
      have : asciiDigit c = false := by
        rw [Bool.eq_false_iff]; exact fun h => hr c rfl ((asciiDigit_iff c).1 h)
      simp [this]
  | cons c i ih =>
    obtain ⟨h1, h2⟩ := ih fun x hx => hi x (List.mem_cons_of_mem _ hx)
    have : asciiDigit c = true := (asciiDigit_iff c).2 (hi c List.mem_cons_self)
    simp [this, h1, h2]

theorem takeWhile_all (s : Str) : DigitText (s.takeWhile asciiDigit) := by
  induction s with
  | nil => simp [DigitText]
  | cons c s ih =>
    by_cases h : asciiDigit c = true
    · rw [List.takeWhile_cons_of_pos h]
      intro x hx
      rcases List.mem_cons.1 hx with rfl | hx
      · exact (asciiDigit_iff _).1 h
      · exact ih x hx
    · rw [List.takeWhile_cons_of_neg h]; simp [DigitText]

theorem decimal_fwd {t i f : Str} {x : Int} (h : decimalParts t = some (i, f, x)) : NumeralParts t i f x := by
  obtain ⟨sg, hs, e⟩ := dropSign_split t
  unfold decimalParts at h
  have e2 : dropSign t = (dropSign t).takeWhile asciiDigit ++ (dropSign t).dropWhile asciiDigit := List.takeWhile_append_dropWhile.symm
  have hi := takeWhile_all (dropSign t)
  generalize dropSign t = s at *
  simp only at h
  generalize s.takeWhile asciiDigit = i' at *
  generalize s.dropWhile asciiDigit = r at *
  subst e2
  split at h
  · rename_i _ r'
    split at h
    · cases h
    · rename_i hne
      obtain ⟨y, hy, hq⟩ := Option.map_eq_some_iff.1 h
      cases hq
      have e3 : r' = r'.takeWhile asciiDigit ++ r'.dropWhile asciiDigit := List.takeWhile_append_dropWhile.symm
      refine ⟨sg, _, hs, hi, takeWhile_all r', ?_, (exponent_iff _ _).1 hy, .inr ?_⟩
      · by_cases hi0 : i = []
        · exact .inr fun h0 => hne ⟨hi0, h0⟩
        · exact .inl hi0
      · rw [← e3]; exact e
  · split at h
    · cases h
    · rename_i hi0
      obtain ⟨y, hy, hq⟩ := Option.map_eq_some_iff.1 h
      cases hq
      exact ⟨sg, _, hs, hi, by simp [DigitText], .inl hi0, (exponent_iff _ _).1 hy, .inl ⟨rfl, e⟩⟩

theorem exponent_head {e : Str} {x : Int} (h : ExponentText e x) : ∀ c, e.head? = some c → c ∉ c!"0123456789" ∧ c ≠ '.' := by
  rcases h with ⟨rfl, -⟩ | ⟨x, sg, d, hx, -, -, -, rfl, -⟩
  · simp
  · rintro c hc
    simp at hc
    subst hc
    rcases hx with rfl | rfl <;> decide

theorem decimal_bwd {t i f : Str} {x : Int} (h : NumeralParts t i f x) : decimalParts t = some (i, f, x) := by
  obtain ⟨sg, e, hs, hi, hf, hne, he, ht⟩ := h
  have eh := exponent_head he
  have hn := (exponent_iff _ _).2 he
  unfold decimalParts
  rcases ht with ⟨rfl, rfl⟩ | rfl
  · have hi0 : i ≠ [] := by simpa using hne
    have : dropSign (sg ++ (i ++ e)) = i ++ e := by
      refine dropSign_sign hs fun c hc => ?_
      cases i with
      | nil => exact absurd rfl hi0
      | cons y i =>
        simp at hc; subst hc
        have := digit_sign (hi y List.mem_cons_self)
        exact ⟨this.1, this.2.1⟩
    obtain ⟨h1, h2⟩ := takeWhile_digits hi fun c hc => (eh c hc).1
    simp only [this, h1, h2]
    split
    · exact absurd rfl (eh '.' rfl).2
    · rw [if_neg hi0, hn]; rfl
  · have : dropSign (sg ++ (i ++ '.' :: (f ++ e))) = i ++ '.' :: (f ++ e) := by
      refine dropSign_sign hs fun c hc => ?_
      cases i with
      | nil => simp at hc; subst hc; decide
      | cons y i =>
        simp at hc; subst hc
        have := digit_sign (hi y List.mem_cons_self)
        exact ⟨this.1, this.2.1⟩
    obtain ⟨h1, h2⟩ := takeWhile_digits (r := '.' :: (f ++ e)) hi fun c hc => by simp at hc; subst hc; decide
    obtain ⟨h3, h4⟩ := takeWhile_digits hf fun c hc => (eh c hc).1
    simp only [this, h1, h2, h3, h4]
    rw [if_neg (by rintro ⟨rfl, rfl⟩; simp at hne), hn]; rfl

/-- A numeral is a numeral with its parts. -/
theorem numeral_parts (t : Str) : NumeralText t ↔ ∃ i f x, NumeralParts t i f x := by
  constructor
  · rintro ⟨sg, m, e, hs, hm, rfl, he⟩
    have : ∃ x, ExponentText e x := by
      rcases he with rfl | ⟨c, sg', d, h1, h2, h3, h4, rfl⟩
      · exact ⟨0, .inl ⟨rfl, rfl⟩⟩
      · exact ⟨_, .inr ⟨c, sg', d, h1, h2, h3, h4, rfl, rfl⟩⟩
    obtain ⟨x, hx⟩ := this
    rcases hm with ⟨hm, hm0⟩ | ⟨i, f, hi, hf, hne, rfl⟩
    · exact ⟨m, [], x, sg, e, hs, hm, by simp [DigitText], .inl hm0, hx, .inl ⟨rfl, by simp⟩⟩
    · exact ⟨i, f, x, sg, e, hs, hi, hf, hne, hx, .inr (by simp)⟩
  · rintro ⟨i, f, x, sg, e, hs, hi, hf, hne, hx, ht⟩
    have he : e = [] ∨ ∃ x sg' d, (x = 'e' ∨ x = 'E') ∧ SignText sg' ∧ DigitText d ∧ d ≠ [] ∧ e = x :: (sg' ++ d) := by
      rcases hx with ⟨rfl, -⟩ | ⟨c, sg', d, h1, h2, h3, h4, rfl, -⟩
      · exact .inl rfl
      · exact .inr ⟨c, sg', d, h1, h2, h3, h4, rfl⟩
    rcases ht with ⟨rfl, rfl⟩ | rfl
    · exact ⟨sg, i, e, hs, .inl ⟨hi, by simpa using hne⟩, by simp, he⟩
    · exact ⟨sg, i ++ '.' :: f, e, hs, .inr ⟨i, f, hi, hf, hne, rfl⟩, by simp, he⟩

theorem ranged_numeral {t : Str} (h : RangedNumeral t) : NumeralText t := by
  obtain ⟨i, f, x, h, -⟩ := h
  exact (numeral_parts t).2 ⟨i, f, x, h⟩

theorem decimal_iff (u : UDB) (s t : Str) (e : decimalText u s = t) : decimalOk u s = true ↔ RangedNumeral t := by
  unfold decimalOk
  rw [e]
  constructor
  · intro h
    split at h
    · cases h
    · rename_i i f x hp
      have := decimal_fwd hp
      obtain ⟨_, _, _, _, _, hne, _⟩ := this
      exact ⟨i, f, x, decimal_fwd hp, (fits_iff i f x hne).1 h⟩
  · rintro ⟨i, f, x, hp, hr⟩
    rw [decimal_bwd hp]
    obtain ⟨_, _, _, _, _, hne, _⟩ := hp
    exact (fits_iff i f x hne).2 hr

theorem number_bound (d : Str) (hd : DigitText d) : digitNumber d < 10 ^ d.length := by
  induction d with
  | nil => simp [digitNumber]
  | cons c d ih =>
    have hc : c.toNat - '0'.toNat ≤ 9 := by
      have : c ∈ c!"0123456789" := hd c List.mem_cons_self
      clear hd ih
      revert c; decide
    have h1 := ih fun x hx => hd x (List.mem_cons_of_mem _ hx)
    have h2 := Nat.mul_le_mul_right (10 ^ d.length) hc
    rw [digitNumber, List.length_cons, Nat.pow_succ]
    omega

/-- The exponents written in the text have 17 digits at most. -/
def SmallExponent (s : Str) : Prop := ∀ p d, s = p ++ d → DigitText d → ('e' ∈ p ∨ 'E' ∈ p) → d.length ≤ 17

/-- A numeral of at most 10^17 characters whose exponent has at most 17 digits is in range. -/
theorem ranged_of_small {t : Str} (h : NumeralText t) (hl : t.length ≤ 10 ^ 17) (hx : SmallExponent t) : RangedNumeral t := by
  obtain ⟨i, f, x, hp⟩ := (numeral_parts t).1 h
  refine ⟨i, f, x, hp, ?_⟩
  obtain ⟨sg, e, hs, hi, hf, hne, he, ht⟩ := hp
  have hlen : i.length + f.length ≤ 10 ^ 17 := by
    rcases ht with ⟨rfl, rfl⟩ | rfl <;> simp at hl ⊢ <;> omega
  have hb : -(10 ^ 17 : Int) ≤ x ∧ x ≤ 10 ^ 17 := by
    rcases he with ⟨rfl, rfl⟩ | ⟨c, sg', d, hc, hsg, hd, hd0, rfl, rfl⟩
    · omega
    · have h17 : d.length ≤ 17 := by
        rcases ht with ⟨rfl, rfl⟩ | rfl
        · refine hx (sg ++ (i ++ c :: sg')) d (by simp) hd ?_
          rcases hc with rfl | rfl <;> simp
        · refine hx (sg ++ (i ++ '.' :: (f ++ c :: sg'))) d (by simp) hd ?_
          rcases hc with rfl | rfl <;> simp
      have h1 := number_bound d hd
      have h2 : 10 ^ d.length ≤ 10 ^ 17 := Nat.pow_le_pow_right (by omega) h17
      split <;> omega
  refine ⟨by omega, by omega, fun z c r hz _ => ?_⟩
  have := congrArg List.length hz
  simp at this
  omega

theorem blank_iff (u : UDB) {c : Char} (h : c.toNat < 128) : u.space c = true ↔ Blank c := by
  rw [u.space_ascii c h]
  have e : c = Char.ofNat c.toNat := (Char.ofNat_toNat c).symm
  generalize c.toNat = n at *
  subst e
  revert n
  unfold Blank
  decide

theorem digit_char (u : UDB) {c : Char} (h : c.toNat < 128) : (match u.digit c with
    | some d => Char.ofNat (48 + d)
    | none => c) = c := by
  rw [u.digit_ascii c h]
  split
  · rename_i h1
    split at h1
    · cases h1
      rename_i h2
      have : 48 + (c.toNat - 48) = c.toNat := by omega
      rw [this, Char.ofNat_toNat]
    · cases h1
  · rfl

theorem dropWhile_blank (p : Char → Bool) {a t : Str} (ha : ∀ c ∈ a, p c = true) (ht : ∀ c, t.head? = some c → p c = false) :
    (a ++ t).dropWhile p = t := by
  induction a with
  | nil =>
    cases t with
    | nil => rfl
    | cons c t => simp [ht c rfl]
  | cons c a ih => simp [ha c List.mem_cons_self, ih fun x hx => ha x (List.mem_cons_of_mem _ hx)]

theorem decimalText_ascii (u : UDB) {a t b : Str} (ha : ∀ c ∈ a, Blank c) (hb : ∀ c ∈ b, Blank c) (h : ∀ c ∈ t, c.toNat < 128)
    (h1 : ∀ c, t.head? = some c → ¬ Blank c) (h2 : ∀ c, t.getLast? = some c → ¬ Blank c) (h0 : t ≠ []) :
    decimalText u (a ++ t ++ b) = t.filter fun c => c != '_' := by
  have bl : ∀ c, Blank c → u.space c = true := fun c hc =>
    (blank_iff u (by revert c; unfold Blank; decide)).2 hc
  have nb : ∀ c ∈ t, ¬ Blank c → u.space c = false := fun c hc hn => by
    rw [Bool.eq_false_iff]; exact fun h' => hn ((blank_iff u (h c hc)).1 h')
  have e1 : (a ++ t ++ b).dropWhile u.space = t ++ b := by
    rw [List.append_assoc]
    refine dropWhile_blank _ (fun c hc => bl c (ha c hc)) fun c hc => ?_
    cases t with
    | nil => exact absurd rfl h0
    | cons x t => simp at hc; subst hc; exact nb x List.mem_cons_self (h1 x rfl)
  have e2 : ((t ++ b).reverse.dropWhile u.space).reverse = t := by
    rw [List.reverse_append, dropWhile_blank, List.reverse_reverse]
    · exact fun c hc => bl c (hb c (List.mem_reverse.1 hc))
    · intro c hc
      rw [List.head?_reverse] at hc
      exact nb c (List.mem_of_getLast? hc) (h2 c hc)
  unfold decimalText
  rw [e1, e2]
  conv => rhs; rw [← List.map_id (t.filter _)]
  apply List.map_congr_left
  intro c hc
  exact digit_char u (h c (List.mem_filter.1 hc).1)

/-- C75, what the code does with ASCII texts: `{format: decimal}` accepts a text if between the white space around it there is a numeral in
the range of `Decimal`, underscores not counted. -/
theorem C75_decides (hc : CtxOk ctx) (h : FormatSchema voc items c!"decimal") (a t b : Str) (ha : ∀ c ∈ a, Blank c) (hb : ∀ c ∈ b, Blank c)
    (ht : ∀ c ∈ t, c.toNat < 128) (h1 : ∀ c, t.head? = some c → ¬ Blank c) (h2 : ∀ c, t.getLast? = some c → ¬ Blank c) (h0 : t ≠ []) :
    (validateN (withFormats E w []) docs voc (f + 2) (.obj items) (.str (a ++ t ++ b)) ctx = .ok () ↔ RangedNumeral (t.filter fun c => c != '_')) ∧
    (¬ RangedNumeral (t.filter fun c => c != '_') →
      validateN (withFormats E w []) docs voc (f + 2) (.obj items) (.str (a ++ t ++ b)) ctx = rejected c!"format_error" ctx.path c!"decimal") :=
  format_test w docs voc f items ctx E hc h rfl _ rfl (decimal_iff E.u _ _ (decimalText_ascii E.u ha hb ht h1 h2 h0))

/-- The characters of a numeral. -/
theorem numeral_chars {s : Str} (h : NumeralText s) : (∀ c ∈ s, c ∈ c!"0123456789+-.eE") ∧ s ≠ [] := by
  have dig : ∀ {d : Str}, DigitText d → ∀ c ∈ d, c ∈ c!"0123456789+-.eE" := fun hd c hc => by
    have := hd c hc
    clear hc
    revert this; revert c; decide
  have sig : ∀ {d : Str}, SignText d → ∀ c ∈ d, c ∈ c!"0123456789+-.eE" := by
    rintro d (rfl | rfl | rfl) <;> decide
  obtain ⟨sg, m, e, hs, hm, rfl, he⟩ := h
  have hm1 : (∀ c ∈ m, c ∈ c!"0123456789+-.eE") ∧ m ≠ [] := by
    rcases hm with ⟨hm, hm0⟩ | ⟨i, fr, hi, hf, -, rfl⟩
    · exact ⟨dig hm, hm0⟩
    · refine ⟨fun c hc => ?_, by simp⟩
      rcases List.mem_append.1 hc with hc | hc
      · exact dig hi c hc
      · rcases List.mem_cons.1 hc with rfl | hc
        · decide
        · exact dig hf c hc
  refine ⟨fun c hc => ?_, by simp [hm1.2]⟩
  rcases List.mem_append.1 hc with hc | hc
  · rcases List.mem_append.1 hc with hc | hc
    · exact sig hs c hc
    · exact hm1.1 c hc
  · rcases he with rfl | ⟨x, sg', d, hx, hs', hd, -, rfl⟩
    · simp at hc
    · rcases List.mem_cons.1 hc with rfl | hc
      · rcases hx with rfl | rfl <;> decide
      · rcases List.mem_append.1 hc with hc | hc
        · exact sig hs' c hc
        · exact dig hd c hc

/-- C75, without white space and underscores: accepted are the numerals in range. -/
theorem C75_plain_partial (hc : CtxOk ctx) (h : FormatSchema voc items c!"decimal") (s : Str)
    (ht : ∀ c ∈ s, c.toNat < 128 ∧ ¬ Blank c ∧ c ≠ '_') :
    (validateN (withFormats E w []) docs voc (f + 2) (.obj items) (.str s) ctx = .ok () ↔ RangedNumeral s) ∧
    (¬ RangedNumeral s → validateN (withFormats E w []) docs voc (f + 2) (.obj items) (.str s) ctx = rejected c!"format_error" ctx.path c!"decimal") := by
  by_cases h0 : s = []
  · subst h0
    exact format_test w docs voc f items ctx E hc h rfl [] rfl (decimal_iff E.u [] [] rfl)
  · have e : (s.filter fun c => c != '_') = s := List.filter_eq_self.2 fun c hc => by simpa using (ht c hc).2.2
    have := C75_decides w docs voc f items ctx E hc h [] s [] (by simp) (by simp) (fun c hc => (ht c hc).1)
      (fun c hc => (ht c (List.mem_of_mem_head? hc)).2.1) (fun c hc => (ht c (List.mem_of_getLast? hc)).2.1) h0
    simpa [e] using this

theorem decimal_plain {s : Str} (hs : NumeralText s) : ∀ c ∈ s, c.toNat < 128 ∧ ¬ Blank c ∧ c ≠ '_' := fun c hc => by
  have := (numeral_chars hs).1 c hc
  clear hc
  revert c; unfold Blank; decide

/-- C75, one half: every numeral of at most 10^17 characters whose exponent has at most 17 digits is accepted. -/
theorem C75_accepts_partial (hc : CtxOk ctx) (h : FormatSchema voc items c!"decimal") (s : Str) (hs : NumeralText s) (hl : s.length ≤ 10 ^ 17)
    (hx : SmallExponent s) : validateN (withFormats E w []) docs voc (f + 2) (.obj items) (.str s) ctx = .ok () :=
  (C75_plain_partial w docs voc f items ctx E hc h s (decimal_plain hs)).1.2 (ranged_of_small hs hl hx)

/-- C75 fails: a numeral with a large exponent, such as 1e1000000000000000000, is refused. -/
theorem C75_range_violated (hc : CtxOk ctx) (h : FormatSchema voc items c!"decimal") : ∀ t ∈
    [c!"1e1000000000000000000", c!"10e999999999999999999", c!"-1E-1999999999999999998", c!"0e1000000000000000000"],
    NumeralText t ∧ validateN (withFormats E w []) docs voc (f + 2) (.obj items) (.str t) ctx = rejected c!"format_error" ctx.path c!"decimal" := by
  have key : ∀ t i fr x, decimalParts t = some (i, fr, x) → DecimalText.fits i fr x = false →
      NumeralText t ∧ validateN (withFormats E w []) docs voc (f + 2) (.obj items) (.str t) ctx = rejected c!"format_error" ctx.path c!"decimal" := by
    intro t i fr x hp hf
    have hn := (numeral_parts t).2 ⟨i, fr, x, decimal_fwd hp⟩
    refine ⟨hn, (C75_plain_partial w docs voc f items ctx E hc h t (decimal_plain hn)).2 ?_⟩
    rintro ⟨i', f', x', hp', hr⟩
    have := decimal_bwd hp'
    rw [hp] at this
    cases this
    obtain ⟨_, _, _, _, _, hne, _⟩ := hp'
    rw [(fits_iff _ _ _ hne).2 hr] at hf
    cases hf
  intro t ht
  simp only [List.mem_cons, List.not_mem_nil, or_false] at ht
  rcases ht with rfl | rfl | rfl | rfl
  · exact key _ c!"1" [] 1000000000000000000 (by decide) (by decide)
  · exact key _ c!"10" [] 999999999999999999 (by decide) (by decide)
  · exact key _ c!"1" [] (-1999999999999999998) (by decide) (by decide)
  · exact key _ c!"0" [] 1000000000000000000 (by decide) (by decide)

/-- C75 fails: underscores anywhere, white space around. -/
theorem C75_violated (hc : CtxOk ctx) (h : FormatSchema voc items c!"decimal") : ∀ t ∈ [c!"_1_", c!"1__0", c!"1e_5", c!"_-_._5_", c!" 1 "],
    ¬ NumeralText t ∧ validateN (withFormats E w []) docs voc (f + 2) (.obj items) (.str t) ctx = .ok () := by
  have key : ∀ a t b : Str, (∀ c ∈ a, Blank c) → (∀ c ∈ b, Blank c) → (∀ c ∈ t, c.toNat < 128) → (∀ c, t.head? = some c → ¬ Blank c) →
      (∀ c, t.getLast? = some c → ¬ Blank c) → t ≠ [] → (∃ i fr x, decimalParts (t.filter fun c => c != '_') = some (i, fr, x) ∧ DecimalText.fits i fr x = true) →
      (∃ c ∈ a ++ t ++ b, c ∉ c!"0123456789+-.eE") →
      ¬ NumeralText (a ++ t ++ b) ∧ validateN (withFormats E w []) docs voc (f + 2) (.obj items) (.str (a ++ t ++ b)) ctx = .ok () := by
    rintro a t b ha hb ht h1 h2 h0 ⟨i, fr, y, hn, hle⟩ ⟨x, hx, hx'⟩
    refine ⟨fun hn => hx' ((numeral_chars hn).1 x hx), (format_test w docs voc f items ctx E hc h rfl _ rfl Iff.rfl).1.2 ?_⟩
    show decimalOk _ _ = true
    unfold decimalOk
    rw [decimalText_ascii E.u ha hb ht h1 h2 h0, hn]
    exact hle
  intro t ht
  simp only [List.mem_cons, List.not_mem_nil, or_false] at ht
  rcases ht with rfl | rfl | rfl | rfl | rfl
  · exact key [] c!"_1_" [] (by simp) (by simp) (by decide) (by unfold Blank; simp) (by unfold Blank; simp) (by decide) ⟨_, _, _, rfl, by decide⟩ ⟨'_', by decide, by decide⟩
  · exact key [] c!"1__0" [] (by simp) (by simp) (by decide) (by unfold Blank; simp) (by unfold Blank; simp) (by decide) ⟨_, _, _, rfl, by decide⟩ ⟨'_', by decide, by decide⟩
  · exact key [] c!"1e_5" [] (by simp) (by simp) (by decide) (by unfold Blank; simp) (by unfold Blank; simp) (by decide) ⟨_, _, _, rfl, by decide⟩ ⟨'_', by decide, by decide⟩
  · exact key [] c!"_-_._5_" [] (by simp) (by simp) (by decide) (by unfold Blank; simp) (by unfold Blank; simp) (by decide) ⟨_, _, _, rfl, by decide⟩ ⟨'_', by decide, by decide⟩
  · exact key c!" " c!"1" c!" " (by unfold Blank; decide) (by unfold Blank; decide) (by decide) (by unfold Blank; simp) (by unfold Blank; simp) (by decide) ⟨_, _, _, rfl, by decide⟩ ⟨' ', by decide, by decide⟩

/-- Two numerals, both in range, and texts that are none. -/
example : RangedNumeral c!"-.5e+10" ∧ RangedNumeral c!"007." ∧ ¬ NumeralText c!"1e" ∧ ¬ NumeralText c!"." ∧ ¬ NumeralText c!"NaN" := by
  have key : ∀ t i fr x, decimalParts t = some (i, fr, x) → DecimalText.fits i fr x = true → RangedNumeral t := fun t i fr x hp hf => by
    have hq := decimal_fwd hp
    obtain ⟨_, _, _, _, _, hne, _⟩ := decimal_fwd hp
    exact ⟨i, fr, x, hq, (fits_iff _ _ _ hne).1 hf⟩
  refine ⟨key _ [] c!"5" 10 (by decide) (by decide), key _ c!"007" [] 0 (by decide) (by decide), ?_, ?_, ?_⟩ <;>
  · intro h
    obtain ⟨i, fr, x, hp⟩ := (numeral_parts _).1 h
    exact absurd (decimal_bwd hp) (by simp [decimalParts, dropSign, exponentOf, asciiDigit])

/-- The exponents of a text of at most 18 characters are small. -/
theorem small_of_length {s : Str} (h : s.length ≤ 18) : SmallExponent s := by
  rintro p d rfl - hp
  have : 0 < p.length := by
    rcases hp with hp | hp <;> exact List.length_pos_of_mem hp
  simp at h; omega

/-- Values that are not texts: `uuid` and `byte` refuse them all; `decimal` takes numbers and truth values but not null and objects. -/
theorem C75_others (hc : CtxOk ctx) :
    (∀ v, (∀ s, v ≠ .str s) → (FormatSchema voc items c!"uuid" → validateN (withFormats E w []) docs voc (f + 2) (.obj items) v ctx =
        rejected c!"format_error" ctx.path c!"uuid") ∧
      (FormatSchema voc items c!"byte" → validateN (withFormats E w []) docs voc (f + 2) (.obj items) v ctx =
        rejected c!"format_error" ctx.path c!"byte")) ∧
    (FormatSchema voc items c!"decimal" →
      (∀ n, validateN (withFormats E w []) docs voc (f + 2) (.obj items) (.int n) ctx = .ok ()) ∧
      (∀ b, validateN (withFormats E w []) docs voc (f + 2) (.obj items) (.bool b) ctx = .ok ()) ∧
      validateN (withFormats E w []) docs voc (f + 2) (.obj items) .null ctx = rejected c!"format_error" ctx.path c!"decimal" ∧
      ∀ kvs, validateN (withFormats E w []) docs voc (f + 2) (.obj items) (.dict kvs) ctx = rejected c!"format_error" ctx.path c!"decimal") := by
  refine ⟨fun v hv => ⟨fun h => ?_, fun h => ?_⟩, fun h => ⟨fun n => ?_, fun b => ?_, ?_, fun kvs => ?_⟩⟩
  · rw [format_known (withFormats E w []) docs voc f items ctx (check := fun v => .ok (uuidV E v)) hc h rfl]
    cases v <;> first | rfl | exact absurd rfl (hv _)
  · rw [format_known (withFormats E w []) docs voc f items ctx (check := fun v => .ok (byteOk v)) hc h rfl]
    cases v <;> first | rfl | exact absurd rfl (hv _)
  all_goals
    rw [format_known (withFormats E w []) docs voc f items ctx (check := fun v => .ok (decimalV E v)) hc h rfl]
    rfl

end Verif.Props
