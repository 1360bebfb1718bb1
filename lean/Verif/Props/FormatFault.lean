import Verif.Props.Messages
import Verif.Spec.FormatFault
/-!
# C33: which exception takes the place of a validation error
-/

namespace Verif.Props
open Verif Verif.Spec

section
variable {known : List Str}

theorem decimal_mono (d : Str) (a : Nat) : a ≤ d.foldl addDigit a := by
  induction d generalizing a with
  | nil => exact Nat.le_refl _
  | cons c d ih => exact Nat.le_trans (by unfold addDigit; omega) (ih _)

theorem fmtInt_small {B : Nat} (hB : ∀ x, 9223372036854775807 < x ↔ B ≤ x) {d : Str} (hd : ∀ c ∈ d, c.isDigit) (m : Str) (a : Nat) (ha : d.foldl addDigit a < B) : fmtInt a (d ++ m) = fmtInt (d.foldl addDigit a) m := by
  induction d generalizing a with
  | nil => rfl
  | cons c d ih =>
    have hc : ('0' ≤ c && c ≤ '9') = true := by rw [isDigit_range]; exact hd c (by simp)
    rw [List.foldl_cons] at ha ⊢
    have := decimal_mono d (addDigit a c)
    rw [List.cons_append, fmtInt, if_pos hc, if_neg (by rw [hB]; unfold addDigit at *; omega)]
    exact ih (fun x hx => hd x (by simp [hx])) _ ha

theorem fmtInt_huge {B : Nat} (hB : ∀ x, 9223372036854775807 < x ↔ B ≤ x) {d : Str} (hd : ∀ c ∈ d, c.isDigit) (m : Str) (a : Nat) (h0 : a < B) (ha : B ≤ d.foldl addDigit a) : fmtInt a (d ++ m) = some .valueError := by
  induction d generalizing a with
  | nil => exact absurd (show B ≤ a from ha) (Nat.not_le.2 h0)
  | cons c d ih =>
    have hc : ('0' ≤ c && c ≤ '9') = true := by rw [isDigit_range]; exact hd c (by simp)
    rw [List.foldl_cons] at ha
    rw [List.cons_append, fmtInt, if_pos hc]
    by_cases h : 9223372036854775807 < a * 10 + (c.toNat - 48)
    · rw [if_pos h]
    · rw [if_neg h]
      exact ih (fun x hx => hd x (by simp [hx])) _ (by rw [hB] at h; omega) ha

theorem missing_field {n : Str} {e : PyErr} (h : Missing known n e) : fmtField known n = some e ∧ ∀ r, fmtCloses .name r = true → fmtOdd known n r = e := by
  cases h with
  | number hd h =>
    have := fmtInt_small (B := 2 ^ 63) (fun x => by omega) hd [] 0 h
    rw [List.append_nil, fmtInt] at this
    exact ⟨by simp [fmtField, this], fun r hr => by simp [fmtOdd, this, hr]⟩
  | @huge d m hd h =>
    have := fmtInt_huge (B := 2 ^ 63) (fun x => by omega) hd m 0 (by decide) h
    exact ⟨by simp [fmtField, this], fun r hr => by simp [fmtOdd, this, hr]⟩
  | @unknown d m c hd h hc ha hk =>
    have := fmtInt_small (B := 2 ^ 63) (fun x => by omega) hd (c :: m) 0 h
    rw [fmtInt, isDigit_range, hc] at this
    simp only [Bool.false_eq_true, if_false, if_neg (show ¬ 127 < c.toNat by omega)] at this
    exact ⟨by simp [fmtField, this, hk], fun r hr => by simp [fmtOdd, this, hr, hk]⟩

theorem fmtGo_inner {n : Str} (hn : Inner n) (acc s : Str) : fmtGo known (some acc) (n ++ s) = fmtGo known (some (n.reverse ++ acc)) s := by
  induction n generalizing acc with
  | nil => rfl
  | cons c n ih =>
    have hc := hn c (by simp)
    simp at hc
    rw [List.cons_append, fmtGo, if_neg hc.2.1, if_neg hc.1, if_neg (by simp [hc]), ih fun x hx => hn x (by simp [hx])]
    simp

theorem fmtGo_name {n : Str} (hn : Inner n) (h0 : n ≠ []) (s : Str) : fmtGo known none ('{' :: (n ++ s)) = fmtGo known (some n.reverse) s := by
  cases n with
  | nil => exact absurd rfl h0
  | cons c n =>
    have hc := hn c (by simp)
    simp at hc
    rw [List.cons_append, fmtGo]
    · rw [if_neg (by simp [hc]), fmtGo_inner fun x hx => hn x (by simp [hx])]
      simp
    all_goals simp [hc]

theorem fmtGo_odd {n x : Str} (hn : Inner n) (hx : Odd x) : fmtGo known none ('{' :: (n ++ x)) = some (fmtOdd known n x) := by
  obtain ⟨c, r, rfl, hc⟩ := hx
  simp at hc
  have h4 : c = '!' ∨ c = ':' ∨ c = '.' ∨ c = '[' := hc
  have h1 : c ≠ '{' := by rintro rfl; simp at hc
  have h2 : c ≠ '}' := by rintro rfl; simp at hc
  by_cases h0 : n = []
  · subst h0
    rw [List.nil_append, fmtGo]
    · rw [if_pos h4]
    all_goals simp [h1, h2]
  · rw [fmtGo_name hn h0, fmtGo, if_neg h2, if_neg h1, if_pos h4, List.reverse_reverse]

theorem spec_open (n : Nat) (s : Str) : fmtCloses (.spec n) ('{' :: s) = fmtCloses (.spec (n + 1)) s := by cases n <;> simp [fmtCloses]

theorem spec_close (n : Nat) (s : Str) : fmtCloses (.spec (n + 1)) ('}' :: s) = fmtCloses (.spec n) s := by simp [fmtCloses]

theorem spec_char (n : Nat) {c : Char} (h1 : c ≠ '{') (h2 : c ≠ '}') (s : Str) : fmtCloses (.spec n) (c :: s) = fmtCloses (.spec n) s := by
  cases n <;> simp [fmtCloses, h1, h2]

theorem prefix_cons {c : Char} {q b : Str} : q <+: c :: b ↔ q = [] ∨ ∃ q', q = c :: q' ∧ q' <+: b := by
  cases q with
  | nil => simp
  | cons x q =>
    constructor
    · intro h
      obtain ⟨rfl, h'⟩ := List.cons_prefix_cons.1 h
      exact .inr ⟨q, rfl, h'⟩
    · rintro (h | ⟨q', h, hq⟩)
      · cases h
      · cases h
        exact List.cons_prefix_cons.2 ⟨rfl, hq⟩

/-- The end of a format specification. -/
theorem spec_iff (n : Nat) (s : Str) : fmtCloses (.spec n) s = true ↔
    ∃ b r, s = b ++ '}' :: r ∧ b.count '}' = n + b.count '{' ∧ ∀ q, q <+: b → q.count '}' ≤ n + q.count '{' := by
  induction s generalizing n with
  | nil => cases n <;> simp [fmtCloses]
  | cons c s ih =>
    have here : n ≠ 0 ∨ c ≠ '}' → ((∃ b r, c :: s = b ++ '}' :: r ∧ b.count '}' = n + b.count '{' ∧ ∀ q, q <+: b → q.count '}' ≤ n + q.count '{') ↔
        ∃ b r, s = b ++ '}' :: r ∧ (c :: b).count '}' = n + (c :: b).count '{' ∧ ∀ q, q <+: b → (c :: q).count '}' ≤ n + (c :: q).count '{') := by
      intro h0
      constructor
      · rintro ⟨b, r, e, h1, h2⟩
        cases b with
        | nil =>
          simp at e h1
          rcases h0 with h | h
          · exact absurd h1.symm h
          · exact absurd e.1 h
        | cons x b =>
          simp only [List.cons_append, List.cons.injEq] at e
          obtain ⟨rfl, rfl⟩ := e
          exact ⟨b, r, rfl, h1, fun q hq => h2 _ (prefix_cons.2 (.inr ⟨q, rfl, hq⟩))⟩
      · rintro ⟨b, r, rfl, h1, h2⟩
        refine ⟨c :: b, r, rfl, h1, fun q hq => ?_⟩
        rcases prefix_cons.1 hq with rfl | ⟨q', rfl, hq'⟩
        · simp
        · exact h2 q' hq'
    by_cases h1 : c = '{'
    · subst h1
      rw [spec_open, ih, here (.inr (by decide))]
      simp [Nat.add_assoc, Nat.add_comm 1]
    · by_cases h2 : c = '}'
      · subst h2
        cases n with
        | zero =>
          constructor
          · exact fun _ => ⟨[], s, rfl, rfl, by simp⟩
          · exact fun _ => by simp [fmtCloses]
        | succ n =>
          rw [spec_close, ih, here (.inl (by simp))]
          simp [Nat.add_right_comm n 1]
      · rw [spec_char n h1 h2, ih, here (.inr h2)]
        simp [h1, h2]

theorem spec_zero {s : Str} : fmtCloses (.spec 0) s = true ↔ ∃ b r, s = b ++ '}' :: r ∧ Balanced b := by
  rw [spec_iff]
  simp [Balanced]

theorem index_iff {s : Str} : fmtCloses .index s = true ↔ ∃ i r, s = i ++ ']' :: r ∧ ']' ∉ i ∧ fmtCloses .name r = true := by
  induction s with
  | nil => simp [fmtCloses]
  | cons c s ih =>
    rw [fmtCloses]
    by_cases hc : c = ']'
    · subst hc
      simp only [if_true]
      constructor
      · exact fun h => ⟨[], s, rfl, by simp, h⟩
      · rintro ⟨i, r, e, hi, h⟩
        cases i with
        | nil => simp at e; rw [e]; exact h
        | cons x i => simp at e; rw [← e.1] at hi; simp at hi
    · rw [if_neg hc, ih]
      constructor
      · rintro ⟨i, r, rfl, hi, h⟩
        exact ⟨c :: i, r, rfl, by simp [hi, Ne.symm hc], h⟩
      · rintro ⟨i, r, e, hi, h⟩
        cases i with
        | nil => simp at e; exact absurd e.1 hc
        | cons x i =>
          simp at e hi
          exact ⟨i, r, e.2, hi.2, h⟩

/-- The end of a field. -/
theorem closes_iff (k : Nat) (x : Str) (hk : x.length ≤ k) : fmtCloses .name x = true ↔ Complete x := by
  constructor
  · induction k generalizing x with
    | zero =>
      cases x with
      | nil => simp [fmtCloses]
      | cons _ _ => simp at hk
    | succ k ih =>
      cases x with
      | nil => simp [fmtCloses]
      | cons c x =>
        simp only [List.length_cons] at hk
        intro h
        rw [fmtCloses] at h
        split at h
        · cases h
        split at h
        · rename_i hc; subst hc; exact ⟨[], x, rfl, .nil⟩
        split at h
        · rename_i hc; subst hc
          obtain ⟨i, r, rfl, hi, h⟩ := index_iff.1 h
          simp only [List.length_append, List.length_cons] at hk
          obtain ⟨t, r', rfl, ht⟩ := ih r (by omega) h
          exact ⟨_, r', by simp, .index hi ht⟩
        split at h
        · rename_i hc; subst hc
          cases x with
          | nil => simp [fmtCloses] at h
          | cons y x =>
            rw [fmtCloses] at h
            cases x with
            | nil => simp [fmtCloses] at h
            | cons z x =>
              rw [fmtCloses] at h
              split at h
              · rename_i hz; subst hz; exact ⟨_, x, rfl, .conv y⟩
              split at h
              · rename_i hz; subst hz
                obtain ⟨b, r, rfl, hb⟩ := spec_zero.1 h
                exact ⟨_, r, rfl, .convSpec y hb⟩
              · cases h
        split at h
        · rename_i hc; subst hc
          obtain ⟨b, r, rfl, hb⟩ := spec_zero.1 h
          exact ⟨_, r, rfl, .spec hb⟩
        · rename_i h1 h2 h3 h4 h5
          obtain ⟨t, r, rfl, ht⟩ := ih x (by omega) h
          exact ⟨_, r, rfl, .char (by simp [h1, h2, h3, h4, h5]) ht⟩
  · rintro ⟨t, r, rfl, ht⟩
    clear hk
    induction ht with
    | nil => simp [fmtCloses]
    | @char c s h _ ih =>
      simp at h
      rw [List.cons_append, fmtCloses, if_neg h.1, if_neg h.2.1, if_neg h.2.2.2.2, if_neg h.2.2.1, if_neg h.2.2.2.1, ih]
    | index h _ ih =>
      have : fmtCloses .index _ = true := index_iff.2 ⟨_, _, rfl, h, ih⟩
      simpa [fmtCloses] using this
    | conv x => simp [fmtCloses]
    | convSpec x h =>
      have : fmtCloses (.spec 0) _ = true := spec_zero.2 ⟨_, r, rfl, h⟩
      simpa [fmtCloses] using this
    | spec h =>
      have : fmtCloses (.spec 0) _ = true := spec_zero.2 ⟨_, r, rfl, h⟩
      simpa [fmtCloses] using this

theorem closes_complete {x : Str} : fmtCloses .name x = true ↔ Complete x := closes_iff x.length x (Nat.le_refl _)

/-- Text that closes nothing. -/
theorem closes_append {s : Str} (hs : ∀ a, fmtCloses a s = false) (a : FmtAt) (x : Str) : fmtCloses a (x ++ s) = fmtCloses a x := by
  induction x generalizing a with
  | nil => rw [List.nil_append, hs, fmtCloses]
  | cons c x ih =>
    rw [List.cons_append]
    rcases a with _ | _ | _ | _ | _ | n <;> simp only [fmtCloses, ih]

/-- A text that is in order leaves no trace. -/
theorem fmtGo_after (hk : ∀ s ∈ known, Ident s) {p : Str} (hp : FmtOk known p) (s : Str) : fmtGo known none (p ++ s) = fmtGo known none s := by
  induction hp with
  | nil => rfl
  | char h1 h2 _ ih => rw [List.cons_append, fmtGo_skip _ _ _ h1 h2, ih]
  | opening _ ih => simp only [List.cons_append, fmtGo]; exact ih
  | closing _ ih => simp only [List.cons_append, fmtGo]; exact ih
  | @field n r hn _ ih =>
    obtain ⟨h0, h1⟩ := hk n hn
    have hi : Inner n := fun c hc h => (h1 c hc).1 (by simp at h ⊢; rcases h with h | h | h | h | h | h <;> simp [h])
    rw [List.cons_append, List.append_assoc, List.cons_append, fmtGo_name hi h0, fmtGo]
    simp only [if_true, List.reverse_reverse, (fmtField_none hk n).2 hn]
    exact ih

/-- The fault at the beginning of a text, followed by the end of the message. -/
theorem fmtGo_fault {r : Str} {e : PyErr} (h : Fault known r e) {s : Str} (hs : ∀ a, fmtCloses a (c!"`. " ++ s) = false) :
    fmtGo known none (r ++ (c!"`. " ++ s)) = some e := by
  cases h with
  | @lone r h =>
    rw [List.cons_append, fmtGo]
    intro t ht
    cases r with
    | nil => simp at ht
    | cons c r =>
      simp at ht
      exact h r (by rw [ht.1])
  | @nested n r hn h =>
    simp only [List.cons_append, List.append_assoc]
    rw [fmtGo_name hn h]
    simp [fmtGo]
  | @unclosed n hn =>
    have hi : Inner (n ++ ['`']) := by
      intro c hc
      simp only [List.mem_append, List.mem_singleton] at hc
      rcases hc with hc | rfl
      · exact hn c hc
      · decide
    have hs' : fmtCloses .name ('.' :: ' ' :: s) = false := by
      have : fmtCloses .name (c!"`. " ++ s) = fmtCloses .name ('.' :: ' ' :: s) := by simp [fmtCloses]
      rw [← this]; exact hs _
    have := fmtGo_odd (known := known) hi (x := '.' :: ' ' :: s) ⟨_, _, rfl, by decide⟩
    simp only [List.append_assoc, List.cons_append, List.nil_append] at this ⊢
    refine this.trans ?_
    simp [fmtOdd, hs']
  | @broken n x hn hx h =>
    obtain ⟨c, r, rfl, hc⟩ := hx
    have hf : fmtCloses .name (c :: r) = false := by
      rw [← Bool.not_eq_true]
      exact fun ht => h (closes_complete.1 ht)
    rw [← closes_append hs] at hf
    rw [List.cons_append, List.append_assoc, fmtGo_odd hn (x := c :: r ++ (c!"`. " ++ s)) ⟨c, r ++ (c!"`. " ++ s), rfl, hc⟩, fmtOdd, hf]
    rfl
  | @missing n r e hn h =>
    obtain ⟨h1, h2⟩ := missing_field h
    simp only [List.cons_append, List.append_assoc]
    by_cases h0 : n = []
    · subst h0
      rw [List.nil_append, fmtGo, h1]
    · rw [fmtGo_name hn h0, fmtGo]
      simp [h1]
  | @missingOdd n x e hn hx hc h =>
    obtain ⟨h1, h2⟩ := missing_field h
    obtain ⟨c, r, rfl, hx⟩ := hx
    have hf := closes_complete.2 hc
    rw [← closes_append hs] at hf
    rw [List.cons_append, List.append_assoc, fmtGo_odd hn (x := c :: r ++ (c!"`. " ++ s)) ⟨c, r ++ (c!"`. " ++ s), rfl, hx⟩, h2 _ hf]

end

theorem spec_deeper {s : Str} (h : fmtCloses (.spec 0) s = false) (n : Nat) : fmtCloses (.spec n) s = false := by
  have up : ∀ (s : Str) (n : Nat), fmtCloses (.spec (n + 1)) s = true → fmtCloses (.spec n) s = true := by
    intro s
    induction s with
    | nil => intro n h; simp [fmtCloses] at h
    | cons c s ih =>
      intro n h
      by_cases h1 : c = '{'
      · subst h1; rw [spec_open] at h ⊢; exact ih _ h
      · by_cases h2 : c = '}'
        · subst h2
          cases n with
          | zero => simp [fmtCloses]
          | succ n => rw [spec_close] at h ⊢; exact ih _ h
        · rw [spec_char _ h1 h2] at h ⊢; exact ih _ h
  induction n with
  | zero => exact h
  | succ n ih =>
    rw [← Bool.not_eq_true] at ih ⊢
    exact fun ht => ih (up s n ht)

/-- No template closes a brace that the path left open. -/
theorem tmpl_open : ∀ c ∈ ErrClass.all, ∀ a, fmtCloses a (c!"`. " ++ c.tmpl) = false := by
  have : ∀ c ∈ ErrClass.all, (fmtCloses .name (c!"`. " ++ c.tmpl) || fmtCloses .index (c!"`. " ++ c.tmpl) || fmtCloses .conv (c!"`. " ++ c.tmpl) ||
      fmtCloses .convEnd (c!"`. " ++ c.tmpl) || fmtCloses (.spec 0) (c!"`. " ++ c.tmpl)) = false := by
    simp only [ErrClass.all, List.forall_mem_cons]
    refine ⟨?_, ?_, ?_, ?_, ?_, ?_, ?_, ?_, ?_, ?_, ?_, ?_, ?_, ?_, ?_, ?_, ?_, ?_, ?_, by simp⟩ <;> decide +kernel
  intro c hc a
  have h := this c hc
  simp only [Bool.or_eq_false_iff] at h
  cases a with
  | name => exact h.1.1.1.1
  | index => exact h.1.1.1.2
  | conv => exact h.1.1.2
  | convEnd => exact h.1.2
  | spec n => exact spec_deeper h.2 n

/-- C33: the first fault in the path decides which exception takes the place of the error. -/
theorem C33_fault {c : ErrClass} (hc : c ∈ ErrClass.all) {p r : Str} {e : PyErr} (hp : FmtOk (c!"path" :: c.fields) p) (hr : Fault (c!"path" :: c.fields) r e) (detail : Str) :
    raiseErr c (p ++ r) detail = e ∧ strKeywordError c (p ++ r) = some e := by
  have : pyFormat (c!"path" :: c.fields) (errText (p ++ r) c.tmpl) = some e := by
    unfold pyFormat errText
    have e1 : noBrace c!"Failed validation at `" := by constructor <;> decide
    rw [List.append_assoc, List.append_assoc, fmtGo_append _ _ _ e1, List.append_assoc, fmtGo_after (fields_ident c hc) hp]
    exact fmtGo_fault hr (tmpl_open c hc)
  exact ⟨by simp [raiseErr, this], this⟩

section
variable {known : List Str}

theorem missing_or {n : Str} (ha : ∀ c ∈ n, c.toNat < 128) : n ∈ known ∨ ∃ e, Missing known n e := by
  have e : n.takeWhile Char.isDigit ++ n.dropWhile Char.isDigit = n := List.takeWhile_append_dropWhile
  have hd : ∀ c ∈ n.takeWhile Char.isDigit, c.isDigit := fun c hc => List.all_eq_true.1 List.all_takeWhile c hc
  have hm : ∀ c r, n.dropWhile Char.isDigit = c :: r → c.isDigit = false := by
    intro c r h
    have := List.head?_dropWhile_not Char.isDigit n
    simpa [h] using this
  generalize n.takeWhile Char.isDigit = d at e hd
  generalize n.dropWhile Char.isDigit = m at e hm
  by_cases h : decimal d < 2 ^ 63
  · cases m with
    | nil =>
      rw [List.append_nil] at e
      exact .inr ⟨_, e ▸ Missing.number hd h⟩
    | cons c m =>
      by_cases hk : n ∈ known
      · exact .inl hk
      · exact .inr ⟨_, e ▸ Missing.unknown hd h (hm c m rfl) (ha c (by rw [← e]; simp)) (by rw [e]; exact hk)⟩
  · exact .inr ⟨_, e ▸ Missing.huge hd (Nat.not_lt.1 h)⟩

/-- The cases there are: in order, a fault, or more than the name of a field that is there. -/
def Covered (known : List Str) (s : Str) : Prop :=
  FmtOk known s ∨ (∃ p r e, s = p ++ r ∧ FmtOk known p ∧ Fault known r e) ∨
    ∃ p n x, s = p ++ '{' :: (n ++ x) ∧ FmtOk known p ∧ n ∈ known ∧ Odd x ∧ Complete x

theorem Covered.append {p s : Str} (hp : FmtOk known p) (h : Covered known s) : Covered known (p ++ s) := by
  rcases h with h | ⟨q, r, e, rfl, hq, hr⟩ | ⟨q, n, x, rfl, hq, h⟩
  · exact .inl (hp.append h)
  · exact .inr (.inl ⟨p ++ q, r, e, by simp, hp.append hq, hr⟩)
  · exact .inr (.inr ⟨p ++ q, n, x, by simp, hp.append hq, h⟩)

/-- The text behind an opening brace: a name and what ends it. -/
theorem body_split (s : Str) : ∃ n z, s = n ++ z ∧ Inner n ∧ (z = [] ∨ (∃ r, z = '{' :: r) ∨ (∃ r, z = '}' :: r) ∨ Odd z) := by
  induction s with
  | nil => exact ⟨[], [], rfl, (by intro c hc; cases hc), .inl rfl⟩
  | cons c s ih =>
    obtain ⟨n, z, e, hn, hz⟩ := ih
    by_cases hc : c ∈ c!"{}!:.["
    · refine ⟨[], c :: s, rfl, (by intro c hc; cases hc), .inr ?_⟩
      simp at hc
      rcases hc with rfl | rfl | hc
      · exact .inl ⟨s, rfl⟩
      · exact .inr (.inl ⟨s, rfl⟩)
      · exact .inr (.inr ⟨c, s, rfl, by simpa using hc⟩)
    · refine ⟨c :: n, z, (by rw [e]; rfl), ?_, hz⟩
      intro x hx
      simp only [List.mem_cons] at hx
      rcases hx with rfl | hx
      · exact hc
      · exact hn x hx

theorem covered (k : Nat) (s : Str) (hk : s.length ≤ k) (h : ∀ x ∈ s, x.toNat < 128) : Covered known s := by
  induction k generalizing s with
  | zero =>
    cases s with
    | nil => exact .inl .nil
    | cons _ _ => simp at hk
  | succ k ih =>
    cases s with
    | nil => exact .inl .nil
    | cons c s =>
      simp only [List.length_cons] at hk
      have hs : ∀ x ∈ s, x.toNat < 128 := fun x hx => h x (by simp [hx])
      by_cases h1 : c = '{'
      · subst h1
        obtain ⟨n, z, rfl, hn, hz⟩ := body_split s
        have hm := missing_or (known := known) (n := n) fun x hx => hs x (by simp [hx])
        simp only [List.length_append] at hk
        rcases hz with rfl | ⟨r, rfl⟩ | ⟨r, rfl⟩ | hz
        · exact .inr (.inl ⟨[], _, _, by rw [List.append_nil]; rfl, .nil, .unclosed hn⟩)
        · simp only [List.length_cons] at hk
          by_cases h0 : n = []
          · subst h0
            exact Covered.append (p := c!"{{") (.opening .nil) (ih r (by omega) fun x hx => hs x (by simp [hx]))
          · exact .inr (.inl ⟨[], _, _, rfl, .nil, .nested hn h0⟩)
        · simp only [List.length_cons] at hk
          rcases hm with hm | ⟨e, hm⟩
          · have := Covered.append (p := '{' :: (n ++ c!"}")) (.field hm .nil) (ih r (by omega) fun x hx => hs x (by simp [hx]))
            simpa using this
          · exact .inr (.inl ⟨[], _, _, rfl, .nil, .missing hn hm⟩)
        · by_cases hc : Complete z
          · rcases hm with hm | ⟨e, hm⟩
            · exact .inr (.inr ⟨[], n, z, rfl, .nil, hm, hz, hc⟩)
            · exact .inr (.inl ⟨[], _, _, rfl, .nil, .missingOdd hn hz hc hm⟩)
          · exact .inr (.inl ⟨[], _, _, rfl, .nil, .broken hn hz hc⟩)
      · by_cases h2 : c = '}'
        · subst h2
          by_cases h3 : ∃ t, s = '}' :: t
          · obtain ⟨t, rfl⟩ := h3
            simp only [List.length_cons] at hk
            exact Covered.append (p := c!"}}") (.closing .nil) (ih t (by omega) fun x hx => hs x (by simp [hx]))
          · exact .inr (.inl ⟨[], _, _, rfl, .nil, .lone fun t ht => h3 ⟨t, ht⟩⟩)
        · exact Covered.append (p := [c]) (.char h1 h2 .nil) (ih s (by omega) hs)

end

/-- C33: what is raised for a path of ASCII characters: the error, if the path is in order as a format string, or else the exception of the first fault in it;
attributes, indices, conversions and format specifications of a field that is there (`{path.x}`, `{path!r}`) are left out. -/
theorem C33_exact {c : ErrClass} (hc : c ∈ ErrClass.all) (path detail : Str) (h : ∀ x ∈ path, x.toNat < 128) :
    (FmtOk (c!"path" :: c.fields) path ∧ raiseErr c path detail = .validation ⟨c.code, path, detail⟩) ∨
    (∃ p r e, path = p ++ r ∧ FmtOk (c!"path" :: c.fields) p ∧ Fault (c!"path" :: c.fields) r e ∧ raiseErr c path detail = e) ∨
    ∃ p n x, path = p ++ '{' :: (n ++ x) ∧ FmtOk (c!"path" :: c.fields) p ∧ n ∈ c!"path" :: c.fields ∧ Odd x ∧ Complete x := by
  rcases covered (known := c!"path" :: c.fields) path.length path (Nat.le_refl _) h with h | ⟨p, r, e, rfl, hp, hr⟩ | h
  · exact .inl ⟨h, by simp [raiseErr, (format_path hc path).2 h]⟩
  · exact .inr (.inl ⟨p, r, e, rfl, hp, hr, (C33_fault hc hp hr detail).1⟩)
  · exact .inr (.inr h)

/-- The first fault of a text decides which exception `str.format` raises. -/
theorem format_fault {known : List Str} (hk : ∀ s ∈ known, Ident s) {p r : Str} {e : PyErr} (hp : FmtOk known p) (h : Fault known r e) : pyFormat known (p ++ r) = some e := by
  unfold pyFormat
  rw [fmtGo_after hk hp]
  cases h with
  | @lone r h => rw [fmtGo]; exact h
  | @nested n r hn h => rw [fmtGo_name hn h]; simp [fmtGo]
  | @unclosed n hn =>
    by_cases h0 : n = []
    · subst h0; rfl
    · have := fmtGo_name (known := known) hn h0 []
      rw [List.append_nil] at this
      rw [this]; rfl
  | @broken n x hn hx h =>
    have hf : fmtCloses .name x = false := by
      rw [← Bool.not_eq_true]
      exact fun ht => h (closes_complete.1 ht)
    rw [fmtGo_odd hn hx, fmtOdd, hf]
    rfl
  | @missing n r e hn h =>
    obtain ⟨h1, h2⟩ := missing_field h
    by_cases h0 : n = []
    · subst h0
      rw [List.nil_append, fmtGo, h1]
    · rw [fmtGo_name hn h0, fmtGo]
      simp [h1]
  | @missingOdd n x e hn hx hc h =>
    rw [fmtGo_odd hn hx, (missing_field h).2 _ (closes_complete.2 hc)]

theorem plain_ident : ∀ s ∈ [c!"path", c!"message"], Ident s := by
  intro s hs
  simp only [List.mem_cons, List.not_mem_nil, or_false] at hs
  rcases hs with rfl | rfl <;> exact ⟨by decide, by decide⟩

/-- C33: an error with a message of its own is printed exactly if the path and the message are in order as format strings. -/
theorem C33_print_iff (path message : Str) : strPlainError path message = none ↔ FmtOk [c!"path", c!"message"] path ∧ FmtOk [c!"path", c!"message"] message := by
  constructor
  · intro h
    have ht := (pyFormat_ok plain_ident _).1 h
    have split : errText path message = c!"Failed validation at " ++ '`' :: (path ++ '`' :: (c!". " ++ message)) := by simp [errText]
    rw [split] at ht
    obtain ⟨h1, h2⟩ := (ht.before plain_ident).2.before plain_ident
    refine ⟨h1, ?_⟩
    have skip : ∀ {c : Char} {r : Str}, c ≠ '{' → c ≠ '}' → FmtOk [c!"path", c!"message"] (c :: r) → FmtOk [c!"path", c!"message"] r := by
      intro c r h1 h2 h
      rcases h.inv with h | ⟨_, _, e, _, _, h⟩ | ⟨_, e, h⟩ | ⟨_, e, h⟩ | ⟨_, _, e, _, h⟩
      · cases h
      · simp at e; rw [e.2]; exact h
      · simp at e; exact absurd e.1 h1
      · simp at e; exact absurd e.1 h2
      · simp at e; exact absurd e.1 h1
    exact skip (by decide) (by decide) (skip (by decide) (by decide) h2)
  · rintro ⟨h1, h2⟩
    exact C33_print_partial path message h1 h2

/-- C33: what printing such an error raises otherwise: the first fault in the whole text decides. -/
theorem C33_print_exact (path message : Str) (h : ∀ x ∈ path ++ message, x.toNat < 128) :
    (FmtOk [c!"path", c!"message"] path ∧ FmtOk [c!"path", c!"message"] message ∧ strPlainError path message = none) ∨
    (∃ p r e, errText path message = p ++ r ∧ FmtOk [c!"path", c!"message"] p ∧ Fault [c!"path", c!"message"] r e ∧ strPlainError path message = some e) ∨
    ∃ p n x, errText path message = p ++ '{' :: (n ++ x) ∧ FmtOk [c!"path", c!"message"] p ∧ n ∈ [c!"path", c!"message"] ∧ Odd x ∧ Complete x := by
  have ha : ∀ x ∈ errText path message, x.toNat < 128 := by
    intro x hx
    simp only [errText, List.mem_append] at hx
    rcases hx with ((hx | hx) | hx) | hx
    · revert x; decide
    · exact h x (by simp [hx])
    · revert x; decide
    · exact h x (by simp [hx])
  rcases covered (known := [c!"path", c!"message"]) _ _ (Nat.le_refl _) ha with h | ⟨p, r, e, he, hp, hr⟩ | h
  · have := (pyFormat_ok plain_ident _).2 h
    obtain ⟨h1, h2⟩ := (C33_print_iff path message).1 this
    exact .inl ⟨h1, h2, this⟩
  · exact .inr (.inl ⟨p, r, e, he, hp, hr, by rw [strPlainError, he]; exact format_fault plain_ident hp hr⟩)
  · exact .inr (.inr h)

example : strPlainError c!"x" c!"Unexpected `{0}` value passed." = some .indexError := by decide +kernel
example : strPlainError c!"{" c!"Unexpected `}` value passed." = some .keyError := by decide +kernel

/-! Nested objects named `{a` and `b}` give a path with an attribute of a field; an error there is a `KeyError`. -/
example : Fault [c!"path", c!"expected_types"] c!"{a.b}" .keyError :=
  .missingOdd (n := c!"a") (x := c!".b}") (by intro c hc; simp at hc; subst hc; decide) ⟨_, _, rfl, by decide⟩
    ⟨c!".b", [], rfl, .char (by decide) (.char (by decide) .nil)⟩
    (.unknown (d := []) (m := []) (c := 'a') (by intro x hx; cases hx) (by decide) (by decide) (by decide) (by decide))
example : raiseErr .typeError c!"x.{a.b}" [] = .keyError := by decide +kernel
example : raiseErr .typeError c!"x.{a[" [] = .valueError := by decide +kernel
example : raiseErr .typeError c!"x.{a:{b}" [] = .valueError := by decide +kernel
example : raiseErr .typeError c!"x.{a!r:{b}}" [] = .keyError := by decide +kernel
example : raiseErr .typeError c!"x.{0}" [] = .indexError := by decide +kernel
example : raiseErr .typeError c!"x.{9223372036854775808}" [] = .valueError := by decide +kernel
example : raiseErr .typeError c!"x.{" [] = .valueError := by decide +kernel
example : raiseErr .typeError c!"x.{path}" [] = .validation ⟨c!"type_error", c!"x.{path}", []⟩ := by decide +kernel

end Verif.Props
