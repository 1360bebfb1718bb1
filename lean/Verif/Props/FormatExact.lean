import Verif.Props.FormatTexts
import Verif.Spec.FormatExact
/-! # C73 and C75: exactly which texts the formats `uuid` and `decimal` take -/

namespace Verif.Props
open Verif Verif.Spec Formats

/-! ## Removing and trimming -/

theorem removeAux_drop (pat : Str) : ∀ (n : Nat) (s : Str), removeAux pat n s = removeAux pat 0 (s.drop n)
  | 0, s => by simp
  | n + 1, [] => by simp [removeAux]
  | n + 1, x :: r => by rw [removeAux, removeAux_drop pat n r]; simp

theorem removed_iff {p : Char} {pat s t : Str} : Removed (p :: pat) s t ↔ removeAll (p :: pat) s = t := by
  unfold removeAll
  constructor
  · intro h
    induction h with
    | nil => rfl
    | hit h ih =>
      rw [List.cons_append, removeAux, if_pos (by rw [List.isPrefixOf_iff_prefix]; exact ⟨_, rfl⟩), removeAux_drop]
      simpa using ih
    | miss hn h ih => rw [removeAux, if_neg (by rwa [List.isPrefixOf_iff_prefix]), ih]
  · rintro rfl
    generalize hl : s.length = l
    induction l using Nat.strongRecOn generalizing s with
    | _ l ih =>
      subst hl
      cases s with
      | nil => exact .nil
      | cons x r =>
        rw [removeAux]
        split
        · rename_i h
          rw [List.isPrefixOf_iff_prefix] at h
          obtain ⟨q, hq⟩ := h
          have hr : r = pat ++ q := by simpa using (List.cons.inj hq).2.symm
          rw [← hq, removeAux_drop, hr]
          have : (pat ++ q).drop ((p :: pat).length - 1) = q := by simp
          rw [this]
          exact .hit (ih q.length (by rw [← hq]; simp; omega) rfl)
        · rename_i h
          exact .miss (by rwa [List.isPrefixOf_iff_prefix] at h) (ih r.length (by simp) rfl)

theorem dropWhile_split (p : Char → Bool) (s : Str) : ∃ a, s = a ++ s.dropWhile p ∧ (∀ c ∈ a, p c = true) ∧
    ∀ c, (s.dropWhile p).head? = some c → p c = false := by
  induction s with
  | nil => exact ⟨[], by simp⟩
  | cons x r ih =>
    cases hx : p x with
    | true =>
      rw [List.dropWhile_cons_of_pos hx]
      obtain ⟨a, h1, h2, h3⟩ := ih
      refine ⟨x :: a, by rw [List.cons_append, ← h1], ?_, h3⟩
      intro c hc
      rcases List.mem_cons.1 hc with rfl | hc
      · exact hx
      · exact h2 c hc
    | false =>
      rw [List.dropWhile_cons_of_neg (by simp [hx])]
      exact ⟨[], rfl, by simp, by simp [hx]⟩

/-- Trimming is what `strip` does. -/
theorem trimmed_iff (p : Char → Bool) {s t : Str} : Trimmed (fun c => p c = true) s t ↔ ((s.dropWhile p).reverse.dropWhile p).reverse = t := by
  constructor
  · rintro ⟨a, b, rfl, ha, hb, h1, h2⟩
    by_cases h0 : t = []
    · subst h0
      have : ((a ++ [] ++ b).dropWhile p) = [] := by
        have := dropWhile_blank p (a := a ++ b) (t := []) (by
          intro c hc
          rcases List.mem_append.1 hc with hc | hc
          · exact ha c hc
          · exact hb c hc) (by simp)
        simpa using this
      rw [this]; rfl
    · have e1 : (a ++ t ++ b).dropWhile p = t ++ b := by
        rw [List.append_assoc]
        refine dropWhile_blank _ ha fun c hc => ?_
        cases t with
        | nil => exact absurd rfl h0
        | cons x t => simpa using h1 c (by simpa using hc)
      rw [e1, List.reverse_append, dropWhile_blank, List.reverse_reverse]
      · exact fun c hc => hb c (List.mem_reverse.1 hc)
      · intro c hc
        rw [List.head?_reverse] at hc
        simpa using h2 c hc
  · rintro rfl
    obtain ⟨a, h1, h2, h3⟩ := dropWhile_split p s
    obtain ⟨b, h4, h5, h6⟩ := dropWhile_split p (s.dropWhile p).reverse
    have e : s.dropWhile p = ((s.dropWhile p).reverse.dropWhile p).reverse ++ b.reverse := by
      have := congrArg List.reverse h4
      simpa using this
    refine ⟨a, b.reverse, by rw [List.append_assoc, ← e, ← h1], h2, by simpa using h5, ?_, ?_⟩
    · intro c hc
      have : (s.dropWhile p).head? = some c := by
        rw [e]
        cases hr : ((s.dropWhile p).reverse.dropWhile p).reverse with
        | nil => rw [hr] at hc; simp at hc
        | cons x t => rw [hr] at hc; simpa using hc
      simpa using h3 c this
    · intro c hc
      rw [List.getLast?_reverse] at hc
      simpa using h6 c hc

/-! ## Characters beyond ASCII -/

theorem countsAs_iff (u : UDB) {c d : Char} (hd : d ≠ '?') : CountsAs u c d ↔ asciiChar u c = d := by
  unfold CountsAs asciiChar
  by_cases h : c.toNat < 127
  · simp only [h, true_and, if_true, eq_comm (a := d)]
    constructor
    · rintro (h | h | h)
      · exact h
      · omega
      · omega
    · exact .inl
  · rw [if_neg h]
    cases hs : u.space c with
    | true =>
      simp only [if_true]
      constructor
      · rintro (h' | h' | ⟨-, n, hn, -⟩)
        · exact absurd h'.1 h
        · exact h'.2.2.symm
        · rw [u.digit_not_space c n hn] at hs; cases hs
      · rintro rfl; exact .inr (.inl ⟨by omega, trivial, rfl⟩)
    | false =>
      simp only [Bool.false_eq_true, if_false]
      constructor
      · rintro (h' | h' | ⟨-, n, hn, rfl⟩)
        · exact absurd h'.1 h
        · simp at h'
        · rw [hn]
      · intro h'
        split at h'
        · rename_i n hn; exact .inr (.inr ⟨by omega, n, hn, h'.symm⟩)
        · exact absurd h'.symm hd

theorem reads_iff (u : UDB) {s t : Str} (ht : '?' ∉ t) : Reads u s t ↔ s.map (asciiChar u) = t := by
  constructor
  · intro h
    induction h with
    | nil => rfl
    | cons h hs ih =>
      simp only [List.mem_cons, not_or] at ht
      rw [List.map_cons, (countsAs_iff u (Ne.symm ht.1)).1 h, ih ht.2]
  · rintro rfl
    induction s with
    | nil => exact .nil
    | cons c s ih =>
      simp only [List.map_cons, List.mem_cons, not_or] at ht
      exact .cons ((countsAs_iff u (Ne.symm ht.1)).2 rfl) (ih ht.2)

/-! ## Hexadecimal numbers -/

theorem gap_iff (c : Char) : (c = ' ' ∨ c = '\n' ∨ c = '\t' ∨ c = '\r' ∨ c = '\x0b' ∨ c = '\x0c') ↔ Gap c := by simp [Gap]

theorem stripL_gaps {a t : Str} (ha : ∀ c ∈ a, Gap c) (ht : ∀ c, t.head? = some c → ¬ Gap c) : stripL (a ++ t) = t := by
  induction a with
  | nil =>
    cases t with
    | nil => rfl
    | cons c t =>
      have := ht c rfl
      rw [← gap_iff] at this
      rw [List.nil_append, stripL, if_neg this]
  | cons c a ih =>
    rw [List.cons_append, stripL, if_pos ((gap_iff c).2 (ha c (by simp)))]
    exact ih fun x hx => ha x (by simp [hx])

theorem stripL_split (s : Str) : ∃ a, s = a ++ stripL s ∧ ∀ c ∈ a, Gap c := by
  induction s with
  | nil => exact ⟨[], rfl, by simp⟩
  | cons c s ih =>
    rw [stripL]
    split
    · rename_i h
      obtain ⟨a, h1, h2⟩ := ih
      refine ⟨c :: a, by rw [List.cons_append, ← h1], ?_⟩
      intro x hx
      rcases List.mem_cons.1 hx with rfl | hx
      · exact (gap_iff x).1 h
      · exact h2 x hx
    · exact ⟨[], rfl, by simp⟩

theorem stripL_empty {s : Str} : (stripL s).isEmpty = true ↔ ∀ c ∈ s, Gap c := by
  constructor
  · intro h
    obtain ⟨a, h1, h2⟩ := stripL_split s
    rw [List.isEmpty_iff] at h
    rw [h, List.append_nil] at h1
    rwa [h1]
  · intro h
    have := stripL_gaps (t := []) h (by simp)
    rw [List.append_nil] at this
    rw [this]; rfl

theorem gap_not_hex {c : Char} (h : Gap c) : ¬ HexDigit c ∧ c ≠ '_' ∧ c ≠ 'x' ∧ c ≠ 'X' ∧ c ≠ '+' ∧ c ≠ '-' ∧ c ≠ '?' := by
  revert c; unfold Gap HexDigit; decide

theorem hex_not {c : Char} (h : HexDigit c) : c ≠ '_' ∧ c ≠ 'x' ∧ c ≠ 'X' ∧ c ≠ '+' ∧ c ≠ '-' ∧ c ≠ '?' ∧ ¬ Gap c := by
  revert c; unfold Gap HexDigit; decide

/-- What may come after a digit (`true`), or at the beginning or after an underscore (`false`). -/
def Tail : Bool → Str → Prop
  | true, d => d = [] ∨ HexGroups d ∨ ∃ d', d = '_' :: d' ∧ HexGroups d'
  | false, d => HexGroups d

theorem tail_digit {c : Char} {d : Str} (h : HexDigit c) (hd : Tail true d) : HexGroups (c :: d) := by
  rcases hd with rfl | hd | ⟨d', rfl, hd⟩
  exacts [.one h, .digit h hd, .under h hd]

theorem hexRun_iff {s : Str} {p : Bool} : hexRun p s = true ↔ ∃ d b, s = d ++ b ∧ Tail p d ∧ ∀ c ∈ b, Gap c := by
  induction s generalizing p with
  | nil =>
    rw [hexRun]
    constructor
    · rintro rfl; exact ⟨[], [], rfl, .inl rfl, by simp⟩
    · rintro ⟨d, b, h, ht, -⟩
      obtain ⟨rfl, rfl⟩ := List.append_eq_nil_iff.1 h.symm
      cases p with
      | true => rfl
      | false => cases ht
  | cons c cs ih =>
    rw [hexRun]
    split
    · rename_i hc
      rw [hexChar_iff] at hc
      rw [ih]
      constructor
      · rintro ⟨d, b, rfl, hd, hb⟩
        have := tail_digit hc hd
        exact ⟨c :: d, b, rfl, by cases p; exacts [this, .inr (.inl this)], hb⟩
      · rintro ⟨d, b, e, hd, hb⟩
        have hd' : (∃ d', d = c :: d' ∧ Tail true d' ∧ cs = d' ++ b) := by
          have key : ∀ d : Str, HexGroups d → c :: cs = d ++ b → ∃ d', d = c :: d' ∧ Tail true d' ∧ cs = d' ++ b := by
            intro d hd e
            cases hd with
            | one h => simp at e; exact ⟨[], by simp [e.1], .inl rfl, by simp [e.2]⟩
            | digit h hs => simp at e; exact ⟨_, by rw [e.1], .inr (.inl hs), e.2⟩
            | under h hs => simp at e; exact ⟨_, by rw [e.1], .inr (.inr ⟨_, rfl, hs⟩), by simp [e.2]⟩
          cases p with
          | false => exact key d hd e
          | true =>
            rcases hd with rfl | hd | ⟨d', rfl, -⟩
            · rw [List.nil_append] at e
              exact absurd hc (gap_not_hex (hb c (by rw [← e]; simp))).1
            · exact key d hd e
            · simp at e
              exact absurd e.1 (hex_not hc).1
        obtain ⟨d', rfl, h1, h2⟩ := hd'
        exact ⟨d', b, h2, h1, hb⟩
    · rename_i hc
      rw [hexChar_iff] at hc
      split
      · rename_i hu
        subst hu
        rw [Bool.and_eq_true, ih]
        constructor
        · rintro ⟨rfl, d, b, rfl, hd, hb⟩
          exact ⟨'_' :: d, b, rfl, .inr (.inr ⟨d, rfl, hd⟩), hb⟩
        · rintro ⟨d, b, e, hd, hb⟩
          have no : ∀ d : Str, HexGroups d → '_' :: cs ≠ d ++ b := by
            intro d hd e
            cases hd with
            | one h => simp at e; exact (hex_not h).1 e.1.symm
            | digit h _ => simp at e; exact (hex_not h).1 e.1.symm
            | under h _ => simp at e; exact (hex_not h).1 e.1.symm
          cases p with
          | false => exact absurd e (no d hd)
          | true =>
            rcases hd with rfl | hd | ⟨d', rfl, hd⟩
            · rw [List.nil_append] at e
              exact absurd rfl (gap_not_hex (hb '_' (by rw [← e]; simp))).2.1
            · exact absurd e (no d hd)
            · simp at e
              exact ⟨rfl, d', b, e, hd, hb⟩
      · rename_i hu
        rw [Bool.and_eq_true, stripL_empty]
        constructor
        · rintro ⟨rfl, h⟩; exact ⟨[], c :: cs, rfl, .inl rfl, h⟩
        · rintro ⟨d, b, e, hd, hb⟩
          have no : ∀ d : Str, HexGroups d → c :: cs ≠ d ++ b := by
            intro d hd e
            cases hd with
            | one h => simp at e; exact hc (e.1 ▸ h)
            | digit h _ => simp at e; exact hc (e.1 ▸ h)
            | under h _ => simp at e; exact hc (e.1 ▸ h)
          cases p with
          | false => exact absurd e (no d hd)
          | true =>
            rcases hd with rfl | hd | ⟨d', rfl, hd⟩
            · rw [List.nil_append] at e; exact ⟨rfl, e ▸ hb⟩
            · exact absurd e (no d hd)
            · simp at e; exact absurd e.1 hu

theorem groups_head {d b : Str} (h : HexGroups d) : ∃ c r, d ++ b = c :: r ∧ HexDigit c := by
  cases h with
  | one h => exact ⟨_, _, rfl, h⟩
  | digit h _ => exact ⟨_, _, rfl, h⟩
  | under h _ => exact ⟨_, _, rfl, h⟩

theorem groups_chars {d : Str} (h : HexGroups d) : ∀ c ∈ d, HexDigit c ∨ c = '_' := by
  induction h with
  | one h => simp [h]
  | digit h _ ih =>
    intro c hc
    rcases List.mem_cons.1 hc with rfl | hc
    exacts [.inl h, ih c hc]
  | under h _ ih =>
    intro c hc
    rcases List.mem_cons.1 hc with rfl | hc
    · exact .inl h
    · rcases List.mem_cons.1 hc with rfl | hc
      exacts [.inr rfl, ih c hc]

theorem drop0x_split (s : Str) : ∃ p, s = p ++ drop0x s ∧ HexPrefix p := by
  unfold drop0x
  split
  · rename_i x r
    split
    · rename_i hx
      split
      · exact ⟨['0', x, '_'], rfl, .inr ⟨x, hx, .inr rfl⟩⟩
      · exact ⟨['0', x], rfl, .inr ⟨x, hx, .inl rfl⟩⟩
    · exact ⟨[], rfl, .inl rfl⟩
  · exact ⟨[], rfl, .inl rfl⟩

theorem drop0x_prefix {p d b : Str} (hp : HexPrefix p) (hd : HexGroups d) (hb : ∀ c ∈ b, Gap c) : drop0x (p ++ (d ++ b)) = d ++ b := by
  rcases hp with rfl | ⟨x, hx, rfl | rfl⟩
  · rw [List.nil_append]
    unfold drop0x
    split
    · rename_i x r e
      refine Eq.trans (if_neg ?_) e.symm
      have hm : x ∈ d ++ b := by rw [e]; simp
      rcases List.mem_append.1 hm with h | h
      · rcases groups_chars hd x h with h | rfl
        · rintro (rfl | rfl)
          exacts [(hex_not h).2.1 rfl, (hex_not h).2.2.1 rfl]
        · decide
      · rintro (rfl | rfl)
        exacts [(gap_not_hex (hb _ h)).2.2.1 rfl, (gap_not_hex (hb _ h)).2.2.2.1 rfl]
    · rfl
  · obtain ⟨c, r, e, hc⟩ := groups_head (b := b) hd
    rw [e]
    show drop0x ('0' :: x :: c :: r) = c :: r
    rw [drop0x, if_pos hx]
    rintro r' e'
    cases e'
    exact (hex_not hc).1 rfl
  · show drop0x ('0' :: x :: '_' :: (d ++ b)) = d ++ b
    rw [drop0x, if_pos hx]

/-- `int(_, 16)` takes the hexadecimal numbers. -/
theorem int16_iff (t : Str) : hexRun false (drop0x (dropSign (stripL t))) = true ↔ HexNumeral t := by
  constructor
  · intro h
    obtain ⟨d, b, e, hd, hb⟩ := hexRun_iff.1 h
    obtain ⟨a, e1, ha⟩ := stripL_split t
    obtain ⟨sg, hs, e2⟩ := dropSign_split (stripL t)
    obtain ⟨p, e3, hp⟩ := drop0x_split (dropSign (stripL t))
    exact ⟨a, sg, p, d, b, by rw [← e, ← e3, ← e2, ← e1], ha, hs, hp, hd, hb⟩
  · rintro ⟨a, sg, p, d, b, rfl, ha, hs, hp, hd, hb⟩
    obtain ⟨c, r, e, hc⟩ := groups_head (b := b) hd
    have hpd : ∃ c r, p ++ (d ++ b) = c :: r ∧ HexDigit c := by
      rcases hp with rfl | ⟨x, hx, rfl | rfl⟩
      · exact ⟨c, r, e, hc⟩
      · exact ⟨'0', _, rfl, by unfold HexDigit; decide⟩
      · exact ⟨'0', _, rfl, by unfold HexDigit; decide⟩
    obtain ⟨c', r', e', hc'⟩ := hpd
    rw [stripL_gaps ha, dropSign_sign hs, drop0x_prefix hp hd hb]
    · exact hexRun_iff.2 ⟨d, b, rfl, hd, hb⟩
    · intro x hx
      rw [e'] at hx
      cases hx
      exact ⟨(hex_not hc').2.2.2.1, (hex_not hc').2.2.2.2.1⟩
    · intro x hx
      rw [e'] at hx
      rcases hs with rfl | rfl | rfl <;> simp at hx <;> subst hx
      · exact (hex_not hc').2.2.2.2.2.2
      · unfold Gap; decide
      · unfold Gap; decide

theorem numeral_plain {t : Str} (h : HexNumeral t) : '?' ∉ t := by
  obtain ⟨a, sg, p, d, b, rfl, ha, hs, hp, hd, hb⟩ := h
  simp only [List.mem_append, not_or]
  refine ⟨fun h => (gap_not_hex (ha _ h)).2.2.2.2.2.2 rfl, ?_, ?_, ?_, fun h => (gap_not_hex (hb _ h)).2.2.2.2.2.2 rfl⟩
  · rcases hs with rfl | rfl | rfl <;> decide
  · rcases hp with rfl | ⟨x, rfl | rfl, rfl | rfl⟩ <;> decide
  · intro h
    rcases groups_chars hd _ h with h | h
    · exact (hex_not h).2.2.2.2.2.1 rfl
    · exact absurd h (by decide)

theorem uuid_iff (u : UDB) (s : Str) : uuidOk u s = true ↔ UuidTaken u s := by
  unfold uuidOk UuidTaken
  rw [Bool.and_eq_true, beq_iff_eq, int16Ok, int16_iff]
  have hcore : uuidCore s = (stripBraces (removeAll c!"uuid:" (removeAll c!"urn:" s))).filter fun c => c != '-' := removeAll_one _ _
  have br : ∀ {a b : Str}, Trimmed (fun c => c = '{' ∨ c = '}') a b ↔ stripBraces a = b := by
    intro a b
    have := trimmed_iff (fun c => c == '{' || c == '}') (s := a) (t := b)
    simpa [stripBraces] using this
  constructor
  · rintro ⟨h1, h2⟩
    exact ⟨_, _, _, _, removed_iff.2 rfl, removed_iff.2 rfl, br.2 rfl, by rw [← hcore]; exact h1,
      (reads_iff u (numeral_plain h2)).2 (by rw [hcore]), h2⟩
  · rintro ⟨s₁, s₂, s₃, t, h1, h2, h3, h4, h5, h6⟩
    rw [removed_iff] at h1 h2
    rw [br] at h3
    subst h1 h2 h3
    rw [reads_iff u (numeral_plain h6)] at h5
    rw [hcore]
    exact ⟨h4, by rw [h5]; exact h6⟩

variable (w : World) (docs : List Doc) (voc : List Kw) (f : Nat) (items : List (Str × Node)) (ctx : Ctx) (E : Env)

/-- C73, what the code does with every text: `{format: uuid}` accepts exactly the texts `UuidTaken`. -/
theorem C73_decides (hc : CtxOk ctx) (h : FormatSchema voc items c!"uuid") (s : Str) :
    (validateN (withFormats E w []) docs voc (f + 2) (.obj items) (.str s) ctx = .ok () ↔ UuidTaken E.u s) ∧
    (¬ UuidTaken E.u s → validateN (withFormats E w []) docs voc (f + 2) (.obj items) (.str s) ctx = rejected c!"format_error" ctx.path c!"uuid") :=
  format_test w docs voc f items ctx E hc h rfl s rfl (uuid_iff E.u s)

/-- `UUID` takes `{urn:0x1_34567812345678123456-12345678}`. -/
example (u : UDB) : UuidTaken u c!"{urn:0x1_34567812345678123456-12345678}" := by
  refine ⟨c!"{0x1_34567812345678123456-12345678}", _, c!"0x1_34567812345678123456-12345678", c!"0x1_3456781234567812345612345678",
    removed_iff.2 rfl, removed_iff.2 rfl, ⟨c!"{", c!"}", by decide, by decide, by decide, by simp, by simp⟩, by decide,
    (reads_iff u (by decide)).2 ?_, [], [], c!"0x", c!"1_3456781234567812345612345678", [], by decide, by simp, .inl rfl,
    .inr ⟨'x', .inl rfl, .inl rfl⟩, ?_, by simp⟩
  · conv => rhs; rw [← List.map_id c!"0x1_3456781234567812345612345678"]
    apply List.map_congr_left
    intro c hc
    have : c.toNat < 127 := by revert c; decide
    simp [asciiChar, this]
  · refine .under (by unfold HexDigit; decide) ?_
    have key : ∀ s : Str, s ≠ [] → (∀ c ∈ s, HexDigit c) → HexGroups s := by
      intro s
      induction s with
      | nil => simp
      | cons c s ih =>
        intro _ h
        by_cases h0 : s = []
        · subst h0; exact .one (h c (by simp))
        · exact .digit (h c (by simp)) (ih h0 fun x hx => h x (by simp [hx]))
    exact key _ (by simp) (by unfold HexDigit; decide)

/-! ## Decimal numbers -/

theorem numeral_char {c : Char} (h : c ∈ c!"0123456789+-.eE") : c.toNat < 127 ∧ c ≠ ' ' := by revert c; decide

theorem decimal_char (u : UDB) {c d : Char} (hd : d ∈ c!"0123456789+-.eE") :
    CountsAs u c d ↔ (match u.digit c with | some n => Char.ofNat (48 + n) | none => c) = d := by
  by_cases h : c.toNat < 127
  · have e : (match u.digit c with | some n => Char.ofNat (48 + n) | none => c) = c := digit_char u (by omega)
    rw [e]
    unfold CountsAs
    simp only [h, true_and, eq_comm (a := d)]
    constructor
    · rintro (h | h | h)
      · exact h
      · omega
      · omega
    · exact .inl
  · unfold CountsAs
    constructor
    · rintro (h' | ⟨-, -, rfl⟩ | ⟨-, n, hn, rfl⟩)
      · exact absurd h'.1 h
      · exact absurd rfl (numeral_char hd).2
      · rw [hn]
    · intro h'
      split at h'
      · rename_i n hn; exact .inr (.inr ⟨by omega, n, hn, h'.symm⟩)
      · subst h'; exact absurd (numeral_char hd).1 h

theorem decimal_reads (u : UDB) (s t : Str) (ht : ∀ c ∈ t, c ∈ c!"0123456789+-.eE") : DecimalOf u s t ↔ decimalText u s = t := by
  have key : ∀ s t : Str, (∀ c ∈ t, c ∈ c!"0123456789+-.eE") →
      (Reads u s t ↔ s.map (fun c => match u.digit c with | some n => Char.ofNat (48 + n) | none => c) = t) := by
    intro s t ht
    constructor
    · intro h
      induction h with
      | nil => rfl
      | cons h hs ih => rw [List.map_cons, (decimal_char u (ht _ (by simp))).1 h, ih fun c hc => ht c (by simp [hc])]
    · rintro rfl
      induction s with
      | nil => exact .nil
      | cons c s ih => exact .cons ((decimal_char u (ht _ (by simp))).2 rfl) (ih fun c hc => ht c (by simp [hc]))
  unfold DecimalOf decimalText
  constructor
  · rintro ⟨s₁, h1, h2⟩
    rw [trimmed_iff] at h1
    subst h1
    exact (key _ _ ht).1 h2
  · intro h
    exact ⟨_, (trimmed_iff _).2 rfl, (key _ _ ht).2 h⟩

/-- C75, what the code does with every text, also beyond ASCII: `{format: decimal}` accepts exactly the texts that read as a numeral in the
range of `Decimal`. -/
theorem C75_all (hc : CtxOk ctx) (h : FormatSchema voc items c!"decimal") (s : Str) :
    (validateN (withFormats E w []) docs voc (f + 2) (.obj items) (.str s) ctx = .ok () ↔ ∃ t, DecimalOf E.u s t ∧ RangedNumeral t) ∧
    ((¬ ∃ t, DecimalOf E.u s t ∧ RangedNumeral t) →
      validateN (withFormats E w []) docs voc (f + 2) (.obj items) (.str s) ctx = rejected c!"format_error" ctx.path c!"decimal") := by
  refine format_test w docs voc f items ctx E hc h rfl s rfl ?_
  show decimalOk E.u s = true ↔ _
  constructor
  · intro h
    have hn := (decimal_iff E.u s _ rfl).1 h
    exact ⟨_, (decimal_reads E.u s _ (numeral_chars (ranged_numeral hn)).1).2 rfl, hn⟩
  · rintro ⟨t, ht, hn⟩
    exact (decimal_iff E.u s t ((decimal_reads E.u s t (numeral_chars (ranged_numeral hn)).1).1 ht)).2 hn

/-- With Arabic-Indic digits and a no-break space: `\u00a0٣_.٤` reads as `3.4`, for a table that knows them. -/
example (u : UDB) (h3 : u.digit '٣' = some 3) (h4 : u.digit '٤' = some 4) (hs : u.space '\u00a0' = true) :
    DecimalOf u ('\u00a0' :: c!"٣_.٤") c!"3.4" ∧ RangedNumeral c!"3.4" := by
  have s3 := u.digit_not_space _ _ h3
  have s4 := u.digit_not_space _ _ h4
  refine ⟨⟨c!"٣_.٤", ⟨['\u00a0'], [], rfl, by simp [hs], by simp, by simp [s3], by simp [s4]⟩, ?_⟩, ranged_of_small ?_ (by decide) ?_⟩
  · exact .cons (.inr (.inr ⟨by decide, 3, h3, by decide⟩)) (.cons (.inl ⟨by decide, rfl⟩) (.cons (.inr (.inr ⟨by decide, 4, h4, by decide⟩)) .nil))
  · exact ⟨[], c!"3.4", [], .inl rfl, .inr ⟨c!"3", c!"4", by unfold DigitText; decide, by unfold DigitText; decide, by simp, rfl⟩, rfl, .inl rfl⟩
  · intro p d h hd hp
    have := congrArg List.length h
    simp at this
    omega

end Verif.Props
