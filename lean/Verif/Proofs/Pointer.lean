import Verif.Proofs.Regex
import Verif.Model.Pointer
import Verif.Spec.Pointer
/-! # Lemmas about JSON pointers -/

namespace Verif.Pointer
open Verif Verif.Spec.Pointer

/-- Recursive form of `TildesOk`. -/
def okT : Str → Bool
  | [] => true
  | '~' :: c :: r => (c == '0' || c == '1') && okT r
  | ['~'] => false
  | _ :: r => okT r

theorem okT_cons {c : Char} (h : c ≠ '~') (r : Str) : okT (c :: r) = okT r := by
  rw [okT.eq_def]
  split <;> simp_all

theorem tildesOk_nil : TildesOk [] := by
  intro a b h; simp at h

theorem tildesOk_cons {c : Char} (h : c ≠ '~') (r : Str) : TildesOk (c :: r) ↔ TildesOk r := by
  constructor
  · intro H a b e
    exact H (c :: a) b (by simp [e])
  · intro H a b e
    cases a with
    | nil => simp at e; exact absurd e.1 h
    | cons x a => simp at e; exact H a b e.2

theorem tildesOk_tilde {c : Char} (r : Str) :
    TildesOk ('~' :: c :: r) ↔ (c = '0' ∨ c = '1') ∧ TildesOk r := by
  constructor
  · intro H
    have h1 := H [] (c :: r) rfl
    simp at h1
    refine ⟨h1, ?_⟩
    intro a b e
    exact H ('~' :: c :: a) b (by simp [e])
  · rintro ⟨hc, H⟩ a b e
    match a with
    | [] => simp at e; exact ⟨c, r, by simp [e], hc⟩
    | [x] => simp at e; rcases hc with rfl | rfl <;> exact absurd e.2.1 (by decide)
    | x :: y :: a => simp at e; exact H a b e.2.2

theorem okT_iff (p : Str) : okT p = true ↔ TildesOk p := by
  induction p using okT.induct with
  | case1 => simp [okT, tildesOk_nil]
  | case2 c r ih => simp [okT, tildesOk_tilde, ih]
  | case3 =>
    simp only [okT, Bool.false_eq_true, false_iff]
    intro H
    obtain ⟨c, b, h, _⟩ := H [] [] rfl
    simp at h
  | case4 c r h1 h2 ih =>
    have hc : c ≠ '~' := by
      rintro rfl
      cases r with
      | nil => exact h2 rfl rfl
      | cons d r => exact h1 d r rfl rfl
    rw [okT_cons hc, tildesOk_cons hc, ih]

/-! ## The regular expression -/

/-- The inner part of the pattern: one escaped or plain character. -/
def charRe : Re :=
  .grp 2 (.alt (.grp 3 (.cls fun c => c != '/' && c != '~'))
        (.grp 4 (.seq (.chr '~') (.cls fun c => c == '0' || c == '1'))))

theorem lang_charRe {s t : Str} : Re.Lang charRe s t ↔
    (∃ c, c ≠ '/' ∧ c ≠ '~' ∧ s = c :: t) ∨ (s = '~' :: '0' :: t ∨ s = '~' :: '1' :: t) := by
  simp only [charRe, Re.lang_grp, Re.lang_alt, Re.lang_cls, Re.lang_seq, Re.lang_chr]
  constructor
  · rintro (⟨c, h, rfl⟩ | ⟨u, rfl, c, h, rfl⟩)
    · simp at h; exact .inl ⟨c, h.1, h.2, rfl⟩
    · simp at h; rcases h with rfl | rfl <;> simp
  · rintro (⟨c, h1, h2, rfl⟩ | h)
    · exact .inl ⟨c, by simp [h1, h2], rfl⟩
    · rcases h with rfl | rfl
      · exact .inr ⟨_, rfl, '0', rfl, rfl⟩
      · exact .inr ⟨_, rfl, '1', rfl, rfl⟩

theorem star_charRe_okT {s t : Str} (h : Re.Lang (.star charRe) s t) (ht : okT t = true) : okT s = true := by
  generalize hr : Re.star charRe = r at h
  induction h with
  | starNil => exact ht
  | starCons h1 _ _ _ ih =>
    cases hr
    have ih := ih ht rfl
    rw [lang_charRe] at h1
    rcases h1 with ⟨c, _, h, rfl⟩ | rfl | rfl
    · rw [okT_cons h]; exact ih
    · simpa [okT] using ih
    · simpa [okT] using ih
  | _ => cases hr

theorem star_charRe_of_okT (s : Str) (h : okT s = true) :
    ∃ t, Re.Lang (.star charRe) s t ∧ (t = [] ∨ ∃ r, t = '/' :: r) ∧ okT t = true := by
  induction s using okT.induct with
  | case1 => exact ⟨[], .starNil, .inl rfl, rfl⟩
  | case2 c r ih =>
    simp [okT] at h
    obtain ⟨t, h1, h2, h3⟩ := ih h.2
    refine ⟨t, .starCons (lang_charRe.2 (.inr ?_)) (by simp; omega) h1, h2, h3⟩
    rcases h.1 with rfl | rfl <;> simp
  | case3 => simp [okT] at h
  | case4 c r h1 h2 ih =>
    have hc : c ≠ '~' := by
      rintro rfl
      cases r with
      | nil => exact h2 rfl rfl
      | cons d r => exact h1 d r rfl rfl
    by_cases hs : c = '/'
    · subst hs; exact ⟨_, .starNil, .inr ⟨r, rfl⟩, h⟩
    · rw [okT_cons hc] at h
      obtain ⟨t, h1, h2, h3⟩ := ih h
      exact ⟨t, .starCons (lang_charRe.2 (.inl ⟨c, hs, hc, rfl⟩)) (by simp) h1, h2, h3⟩

/-- One segment of the pattern. -/
def segRe : Re := .grp 1 (.seq (.chr '/') (.star charRe))

theorem star_segRe {s : Str} : Re.Lang (.star segRe) s [] ↔ (s = [] ∨ ∃ r, s = '/' :: r) ∧ okT s = true := by
  constructor
  · intro h
    generalize hr : Re.star segRe = r at h
    generalize ht : ([] : Str) = t at h
    induction h with
    | starNil => subst ht; exact ⟨.inl rfl, rfl⟩
    | starCons h1 _ _ _ ih =>
      cases hr
      have ih := ih rfl ht
      simp only [segRe, Re.lang_grp, Re.lang_seq, Re.lang_chr] at h1
      obtain ⟨u, rfl, h1⟩ := h1
      exact ⟨.inr ⟨_, rfl⟩, by rw [okT_cons (by decide)]; exact star_charRe_okT h1 ih.2⟩
    | _ => cases hr
  · rintro ⟨h1, h2⟩
    generalize hn : s.length = n
    induction n using Nat.strongRecOn generalizing s with
    | _ n ih =>
      rcases h1 with rfl | ⟨r, rfl⟩
      · exact .starNil
      · rw [okT_cons (by decide)] at h2
        obtain ⟨t, h3, h4, h5⟩ := star_charRe_of_okT r h2
        have hl := Re.lang_length h3
        refine .starCons (u := t) ?_ (by simp; omega) (ih t.length (by simp at hn; omega) h4 h5 rfl)
        exact .grp (.seq (Re.lang_chr.2 rfl) h3)

theorem fullmatch_pointer (p : Str) : (Re.pyFullmatch pointerRegex p).isSome = true ↔ IsPointer p := by
  rw [Re.fullmatch_iff (by decide), IsPointer, ← okT_iff, ← star_segRe]
  change Re.Lang (.seq (.star segRe) .eol) p [] ↔ _
  simp only [Re.lang_seq, Re.lang_eol]
  constructor
  · rintro ⟨u, h, rfl, _⟩; exact h
  · intro h; exact ⟨[], h, rfl, .inl rfl⟩

/-! ## Escaping -/

theorem strReplace2_cons {a b x : Char} (h : x ≠ a) (t r : Str) :
    strReplace2 a b t (x :: r) = x :: strReplace2 a b t r := by
  cases r with
  | nil => simp [strReplace2]
  | cons y r => simp [strReplace2, h]

theorem decode_cons {c : Char} (h : c ≠ '~') (r : Str) : decode (c :: r) = c :: decode r := by
  rw [decode.eq_def]
  split <;> simp_all

theorem unescape_eq_decode (s : Str) (h : okT s = true) : unescape s = decode s := by
  induction s using okT.induct with
  | case1 => rfl
  | case2 c r ih =>
    simp [okT] at h
    have ih := ih h.2
    rcases h.1 with rfl | rfl
    · have e : strReplace2 '~' '1' ['/'] ('~' :: '0' :: r) = '~' :: '0' :: strReplace2 '~' '1' ['/'] r := by
        rw [strReplace2]
        simp only [Char.reduceEq, and_false, ↓reduceIte]
        rw [strReplace2_cons (by decide)]
      simp only [decode, ← ih, unescape, e]
      simp [strReplace2]
    · simp only [decode, ← ih, unescape]
      rw [strReplace2]
      simp only [and_self, ↓reduceIte, List.cons_append, List.nil_append]
      rw [strReplace2_cons (by decide)]
  | case3 => simp [okT] at h
  | case4 c r h1 h2 ih =>
    have hc : c ≠ '~' := by
      rintro rfl
      cases r with
      | nil => exact h2 rfl rfl
      | cons d r => exact h1 d r rfl rfl
    rw [okT_cons hc] at h
    rw [decode_cons hc, ← ih h, unescape, strReplace2_cons hc, strReplace2_cons hc, ← unescape]

/-- Escaping of one character. -/
def escChar (c : Char) : Str := if c = '~' then ['~', '0'] else if c = '/' then ['~', '1'] else [c]

theorem escape_eq (s : Str) : escape s = s.flatMap escChar := by
  induction s with
  | nil => rfl
  | cons c s ih =>
    have : escape (c :: s) = escape [c] ++ escape s := by simp [escape, strReplace1]
    rw [this, ih, List.flatMap_cons]
    congr 1
    unfold escape strReplace1 escChar
    by_cases h1 : c = '~'
    · simp [h1]
    · by_cases h2 : c = '/' <;> simp [h1, h2]

theorem escape_cons (c : Char) (s : Str) : escape (c :: s) = escChar c ++ escape s := by
  simp [escape_eq]

theorem escape_spec (s : Str) : '/' ∉ escape s ∧ okT (escape s) = true ∧ decode (escape s) = s := by
  induction s with
  | nil => simp [escape, strReplace1, okT, decode]
  | cons c s ih =>
    rw [escape_cons]
    unfold escChar
    split
    · next h => subst h; simp [okT, decode, ih]
    · next h =>
      split
      · next h => subst h; simp [okT, decode, ih]
      · next h' =>
        simp only [List.cons_append, List.nil_append, okT_cons h, decode_cons h, ih, and_true,
          List.mem_cons, or_false]
        exact fun e => h' e.symm

theorem escape_decode (s : Str) (h : okT s = true) (hs : '/' ∉ s) : escape (decode s) = s := by
  induction s using okT.induct with
  | case1 => rfl
  | case2 c r ih =>
    simp [okT] at h
    simp at hs
    have ih := ih h.2 hs.2
    rcases h.1 with rfl | rfl <;> simp [decode, escape_cons, escChar, ih]
  | case3 => simp [okT] at h
  | case4 c r h1 h2 ih =>
    have hc : c ≠ '~' := by
      rintro rfl
      cases r with
      | nil => exact h2 rfl rfl
      | cons d r => exact h1 d r rfl rfl
    simp at hs
    rw [okT_cons hc] at h
    rw [decode_cons hc, escape_cons, ih h hs.2, escChar, if_neg hc, if_neg (fun e => hs.1 e.symm)]
    rfl

theorem okT_append {a b : Str} (ha : okT a = true) (hb : okT b = true) : okT (a ++ b) = true := by
  induction a using okT.induct with
  | case1 => exact hb
  | case2 c r ih => simp [okT] at ha ⊢; exact ⟨ha.1, ih ha.2⟩
  | case3 => simp [okT] at ha
  | case4 c r h1 h2 ih =>
    have hc : c ≠ '~' := by
      rintro rfl
      cases r with
      | nil => exact h2 rfl rfl
      | cons d r => exact h1 d r rfl rfl
    rw [okT_cons hc] at ha
    rw [List.cons_append, okT_cons hc]
    exact ih ha

theorem okT_split {a b : Str} (h : okT (a ++ b) = true) (hb : b = [] ∨ ∃ r, b = '/' :: r) :
    okT a = true ∧ okT b = true := by
  induction a using okT.induct with
  | case1 => exact ⟨rfl, h⟩
  | case2 c r ih => simp [okT] at h ⊢; exact ⟨⟨h.1, (ih h.2).1⟩, (ih h.2).2⟩
  | case3 => rcases hb with rfl | ⟨r, rfl⟩ <;> simp [okT] at h
  | case4 c r h1 h2 ih =>
    have hc : c ≠ '~' := by
      rintro rfl
      cases r with
      | nil => exact h2 rfl rfl
      | cons d r => exact h1 d r rfl rfl
    rw [List.cons_append, okT_cons hc] at h
    rw [okT_cons hc]
    exact ih h

/-! ## Splitting -/

theorem strSplit_ne_nil (c : Char) (s : Str) : strSplit c s ≠ [] := by
  induction s with
  | nil => simp [strSplit]
  | cons x s ih =>
    simp only [strSplit]
    split
    · simp
    · split <;> simp

theorem strSplit_none {c : Char} {s : Str} (h : c ∉ s) : strSplit c s = [s] := by
  induction s with
  | nil => rfl
  | cons x s ih =>
    simp at h
    simp [strSplit, ih h.2, Ne.symm h.1]

theorem strSplit_append {c : Char} {a b : Str} (h : c ∉ a) : strSplit c (a ++ c :: b) = a :: strSplit c b := by
  induction a with
  | nil => simp [strSplit]
  | cons x a ih =>
    simp at h
    simp [strSplit, ih h.2, Ne.symm h.1]

/-- Every string is a token, possibly followed by `/` and more. -/
theorem split_first (c : Char) (s : Str) : ∃ a b, s = a ++ b ∧ c ∉ a ∧ (b = [] ∨ ∃ r, b = c :: r) := by
  induction s with
  | nil => exact ⟨[], [], rfl, by simp, .inl rfl⟩
  | cons x s ih =>
    by_cases h : x = c
    · subst h; exact ⟨[], _, rfl, by simp, .inr ⟨s, rfl⟩⟩
    · obtain ⟨a, b, rfl, h1, h2⟩ := ih
      exact ⟨x :: a, b, rfl, by simp [h1]; exact fun e => h e.symm, h2⟩

theorem denotes_head {s : Str} {ts : List Str} (h : Denotes s ts) : s = [] ∨ ∃ r, s = '/' :: r := by
  cases h with
  | nil => exact .inl rfl
  | cons => exact .inr ⟨_, rfl⟩

theorem denotes_iff (p : Str) (hp : IsPointer p) (ts : List Str) :
    Denotes p ts ↔ (strSplit '/' p).tail.map unescape = ts := by
  obtain ⟨h1, h2⟩ := hp
  rw [← okT_iff] at h2
  generalize hn : p.length = n
  induction n using Nat.strongRecOn generalizing p ts with
  | _ n ih =>
    rcases h1 with rfl | ⟨r, rfl⟩
    · simp only [strSplit, List.tail_cons, List.map_nil]
      constructor
      · intro h; cases h; rfl
      · rintro rfl; exact .nil
    · rw [okT_cons (by decide)] at h2
      obtain ⟨a, b, rfl, ha, hb⟩ := split_first '/' r
      obtain ⟨hoa, hob⟩ := okT_split h2 hb
      have hlen : b.length < n := by simp at hn; omega
      have key : (strSplit '/' ('/' :: (a ++ b))).tail.map unescape
          = decode a :: (strSplit '/' b).tail.map unescape := by
        simp only [strSplit, if_true, List.tail_cons]
        rcases hb with rfl | ⟨r, rfl⟩
        · simp [strSplit_none ha, strSplit, unescape_eq_decode a hoa]
        · rw [strSplit_append ha]
          simp [strSplit, unescape_eq_decode a hoa]
      rw [key]
      constructor
      · intro h
        generalize hq : '/' :: (a ++ b) = q at h
        cases h with
        | nil => simp at hq
        | @cons tok rest ts h' hr =>
          simp at hq
          have hrest := denotes_head hr
          have e : a = tok ∧ b = rest := by
            clear key ih hn hlen hoa hob h2
            induction a generalizing tok with
            | nil =>
              cases tok with
              | nil => simp at hq; exact ⟨rfl, hq⟩
              | cons x tok =>
                rcases hb with rfl | ⟨r, rfl⟩
                · simp at hq
                · simp at hq h'; exact absurd hq.1 h'.1
            | cons y a iha =>
              cases tok with
              | nil =>
                simp at hq ha
                rcases hrest with rfl | ⟨r, rfl⟩
                · simp at hq
                · simp at hq; exact absurd hq.1.symm ha.1
              | cons x tok =>
                simp at hq ha h'
                obtain ⟨e1, e2⟩ := iha ha.2 h'.2 hq.2
                exact ⟨by rw [hq.1, e1], e2⟩
          obtain ⟨rfl, rfl⟩ := e
          rw [(ih b.length hlen b ts hb hob rfl).1 hr]
      · rintro rfl
        exact .cons ha ((ih b.length hlen b _ hb hob rfl).2 rfl)

theorem print_spec (ts : List Str) :
    okT (ts.flatMap fun n => '/' :: escape n) = true ∧ Denotes (ts.flatMap fun n => '/' :: escape n) ts := by
  induction ts with
  | nil => exact ⟨rfl, .nil⟩
  | cons t ts ih =>
    obtain ⟨h1, h2, h3⟩ := escape_spec t
    simp only [List.flatMap_cons, List.cons_append]
    refine ⟨?_, ?_⟩
    · rw [okT_cons (by decide)]
      exact okT_append h2 ih.1
    · have := Denotes.cons h1 ih.2
      rwa [h3] at this

end Verif.Pointer
