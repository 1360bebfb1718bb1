import Verif.Spec.Repr
/-! # Reading `repr` back -/

namespace Verif.Repr
open Verif Verif.Spec

theorem hex_length (w : Nat) : ∀ n, (hex w n).length = w := by
  induction w with
  | zero => intro n; rfl
  | succ w ih => intro n; simp [hex, ih]

/-- The number that hexadecimal digits write. -/
def ofHex (t : Str) : Nat := t.foldl (fun n c => n * 16 + c!"0123456789abcdef".idxOf c) 0

theorem ofHex_hex {w : Nat} : ∀ {n : Nat}, n < 16 ^ w → ofHex (hex w n) = n := by
  induction w with
  | zero => intro n h; simp at h; subst h; rfl
  | succ w ih =>
    intro n h
    have e := ih (n := n / 16) (by rw [Nat.pow_succ] at h; omega)
    have d : ∀ k < 16, c!"0123456789abcdef".idxOf (Nat.digitChar k) = k := by decide
    unfold ofHex at e ⊢
    simp only [hex, List.foldl_append, List.foldl_cons, List.foldl_nil, e, d _ (Nat.mod_lt n (by decide : 0 < 16))]
    omega

theorem toNat_inj {a b : Char} (h : a.toNat = b.toNat) : a = b := by
  apply Char.ext; exact UInt32.toNat.inj h

theorem toNat_lt (c : Char) : c.toNat < 16 ^ 8 := by
  have := c.valid
  simp only [UInt32.isValidChar, Nat.isValidChar] at this
  have e : c.toNat = c.val.toNat := rfl
  omega

/-- The number of digits after a backslash and a letter. -/
def width (e : Char) : Nat := if e = 'x' then 2 else if e = 'u' then 4 else if e = 'U' then 8 else 0

/-- What a backslash, a letter and digits stand for. -/
def decode (e : Char) (ds : Str) : Nat :=
  if e = 't' then 9 else if e = 'n' then 10 else if e = 'r' then 13
  else if e = 'x' ∨ e = 'u' ∨ e = 'U' then ofHex ds else e.toNat

/-- The forms a character takes: itself, or a backslash, a letter and digits. -/
inductive Form (q c : Char) : Str → Prop
  | self : c ≠ q → c ≠ '\\' → Form q c [c]
  | back {e : Char} {ds : Str} : ds.length = width e → decode e ds = c.toNat → Form q c ('\\' :: e :: ds)

theorem esc_form (P : Char → Bool) {q : Char} (hq : q = '\'' ∨ q = '"') (c : Char) : Form q c (esc P q c) := by
  unfold esc
  split
  · next h =>
    refine .back ?_ ?_ <;> rcases h with rfl | rfl <;> first | rfl | (rcases hq with rfl | rfl <;> rfl)
  next h =>
  have h' := not_or.mp h
  split
  · next h => subst h; exact .back rfl rfl
  split
  · next h => subst h; exact .back rfl rfl
  split
  · next h => subst h; exact .back rfl rfl
  split
  · exact .back (hex_length 2 _) ((show decode 'x' (hex 2 c.toNat) = ofHex (hex 2 c.toNat) by simp [decode]).trans (ofHex_hex (by omega)))
  split
  · exact .self h'.1 h'.2
  split
  · exact .back (hex_length 2 _) ((show decode 'x' (hex 2 c.toNat) = ofHex (hex 2 c.toNat) by simp [decode]).trans (ofHex_hex (by omega)))
  split
  · exact .back (hex_length 4 _) ((show decode 'u' (hex 4 c.toNat) = ofHex (hex 4 c.toNat) by simp [decode]).trans (ofHex_hex (by omega)))
  · have e : decode 'U' (hex 8 c.toNat) = ofHex (hex 8 c.toNat) := by simp [decode]
    exact .back (hex_length 8 _) (e.trans (ofHex_hex (toNat_lt c)))

theorem form_prefix {q a b : Char} {s t x y : Str} (hs : Form q a s) (ht : Form q b t) (h : s ++ x = t ++ y) : a = b ∧ x = y := by
  cases hs with
  | self _ h1 =>
    cases ht with
    | self => simpa using h
    | back => simp at h; exact absurd h.1 h1
  | back l1 d1 =>
    cases ht with
    | self _ h1 => simp at h; exact absurd h.1.symm h1
    | back l2 d2 =>
      simp only [List.cons_append, List.cons.injEq, true_and] at h
      obtain ⟨rfl, h⟩ := h
      obtain ⟨rfl, h3⟩ := List.append_inj h (l1.trans l2.symm)
      exact ⟨toNat_inj (d1.symm.trans d2), h3⟩

theorem form_head {q c : Char} {s : Str} (hq : q = '\'' ∨ q = '"') (hs : Form q c s) : ∃ d r, s = d :: r ∧ d ≠ q := by
  cases hs with
  | self h1 h2 => exact ⟨_, _, rfl, h1⟩
  | _ => exact ⟨_, _, rfl, by rcases hq with rfl | rfl <;> decide⟩

theorem body_prefix (P : Char → Bool) {q : Char} (hq : q = '\'' ∨ q = '"') : ∀ {s t x y : Str},
    s.flatMap (esc P q) ++ q :: x = t.flatMap (esc P q) ++ q :: y → s = t ∧ x = y
  | [], [], x, y, h => by simpa using h
  | [], b :: t, x, y, h => by
    exfalso
    obtain ⟨d, r, e, hd⟩ := form_head hq (esc_form P hq b)
    simp [e] at h
    exact hd h.1.symm
  | a :: s, [], x, y, h => by
    exfalso
    obtain ⟨d, r, e, hd⟩ := form_head hq (esc_form P hq a)
    simp [e] at h
    exact hd h.1
  | a :: s, b :: t, x, y, h => by
    simp only [List.flatMap_cons, List.append_assoc] at h
    obtain ⟨rfl, h2⟩ := form_prefix (esc_form P hq a) (esc_form P hq b) h
    obtain ⟨rfl, h3⟩ := body_prefix P hq h2
    exact ⟨rfl, h3⟩

theorem quoteOf_cases (s : Str) : quoteOf s = '\'' ∨ quoteOf s = '"' := by
  unfold quoteOf; split <;> simp

/-- A quoted text can be read back from what begins with it. -/
theorem quote_prefix (P : Char → Bool) {s t x y : Str} (h : quote P s ++ x = quote P t ++ y) : s = t ∧ x = y := by
  simp only [quote, List.cons_append, List.cons.injEq, List.append_assoc, List.nil_append] at h
  obtain ⟨h1, h2⟩ := h
  rw [← h1] at h2
  exact body_prefix P (quoteOf_cases s) h2

theorem closed_prefix {s t x y : Str} (hs : ')' ∉ s) (ht : ')' ∉ t) (h : s ++ ')' :: x = t ++ ')' :: y) : s = t ∧ x = y := by
  induction s generalizing t with
  | nil =>
    cases t with
    | nil => simpa using h
    | cons b t => simp at h ht; exact absurd h.1 ht.1
  | cons a s ih =>
    cases t with
    | nil => simp at h hs; exact absurd h.1.symm hs.1
    | cons b t =>
      simp only [List.cons_append, List.cons.injEq] at h
      obtain ⟨rfl, h⟩ := h
      obtain ⟨e, h3⟩ := ih (fun hm => hs (by simp [hm])) (fun hm => ht (by simp [hm])) h
      exact ⟨by rw [e], h3⟩

/-- The text of a value that is no container, without the bracket. -/
inductive Word : RawDoc → Str → Prop
  | null : Word .null c!"None"
  | true : Word (.bool true) c!"JsonBool(True"
  | false : Word (.bool false) c!"JsonBool(False"
  | num {t : Str} : Numeral t → Word (.num t) t
  | str {s : Str} : Unmistakable s → Word (.str s) s

theorem Numeral.facts {t : Str} (h : Numeral t) : ')' ∉ t ∧ t ≠ c!"None" ∧ t ≠ c!"JsonBool(True" ∧ t ≠ c!"JsonBool(False" ∧
    ∀ c ∈ t.head?, c ∉ c!"[]{" := by
  rcases h with ⟨h0, h⟩ | h
  · refine ⟨fun hm => absurd (h _ hm) (by decide), ?_, ?_, ?_, ?_⟩
    · rintro rfl; exact absurd (h 'N' (by decide)) (by decide)
    · rintro rfl; exact absurd (h 'J' (by decide)) (by decide)
    · rintro rfl; exact absurd (h 'J' (by decide)) (by decide)
    · intro c hc hm
      have := h c (List.mem_of_mem_head? hc)
      revert this
      have : ∀ c ∈ c!"[]{", c ∉ c!"0123456789.+-E" := by decide
      exact this c hm
  · revert t
    have : ∀ t ∈ [c!"NaN", c!"Infinity", c!"-Infinity"], ')' ∉ t ∧ t ≠ c!"None" ∧ t ≠ c!"JsonBool(True" ∧ t ≠ c!"JsonBool(False" ∧
      ∀ c ∈ t.head?, c ∉ c!"[]{" := by decide
    exact fun {t} h => this t h

theorem Word.facts {d : RawDoc} {t : Str} (h : Word d t) : ')' ∉ t ∧ ∀ c ∈ t.head?, c ∉ c!"[]{" := by
  cases h with
  | num h => exact ⟨(Numeral.facts h).1, (Numeral.facts h).2.2.2.2⟩
  | str h => exact ⟨h.closed, h.head⟩
  | _ => decide

theorem Word.inj {a b : RawDoc} {t : Str} (h1 : Word a t) (h2 : Word b t) : a = b := by
  cases h1 with
  | num n1 =>
    have := Numeral.facts n1
    cases h2 with
    | num n2 => rfl
    | str u => exact absurd n1 u.number
    | null => exact absurd rfl this.2.1
    | true => exact absurd rfl this.2.2.1
    | false => exact absurd rfl this.2.2.2.1
  | str u1 =>
    cases h2 with
    | num n2 => exact absurd n2 u1.number
    | str u => rfl
    | null => exact absurd rfl u1.none
    | true => exact absurd rfl u1.true
    | false => exact absurd rfl u1.false
  | null =>
    cases h2 with
    | num n => exact absurd rfl (Numeral.facts n).2.1
    | str u => exact absurd rfl u.none
    | null => rfl
  | true =>
    cases h2 with
    | num n => exact absurd rfl (Numeral.facts n).2.2.1
    | str u => exact absurd rfl u.true
    | true => rfl
  | false =>
    cases h2 with
    | num n => exact absurd rfl (Numeral.facts n).2.2.2.1
    | str u => exact absurd rfl u.false
    | false => rfl

/-- How a clear value is written. -/
inductive Written (P : Char → Bool) : RawDoc → Str → Prop
  | word {d : RawDoc} {t : Str} : Word d t → Written P d (t ++ c!")")
  | list0 : Written P (.list []) c!"[])"
  | list {x : RawDoc} {xs : List RawDoc} : Written P (.list (x :: xs)) ('[' :: (reprText P x ++ (reprs P xs ++ c!"])")))
  | dict0 : Written P (.dict []) c!"{})"
  | dict {kv : Str × RawDoc} {kvs : List (Str × RawDoc)} :
      Written P (.dict (kv :: kvs)) ('{' :: (quote P kv.1 ++ (c!": " ++ (reprText P kv.2 ++ (members P kvs ++ c!"})")))))

theorem Clear.written (P : Char → Bool) {d : RawDoc} (h : Clear d) : Written P d (reprText P d) := by
  cases h with
  | null => simp only [reprText]; exact .word .null
  | bool b => cases b <;> simp only [reprText] <;> first | exact .word .true | exact .word .false
  | num h => simp only [reprText]; exact .word (.num h)
  | str h => simp only [reprText]; exact .word (.str h)
  | @list xs h =>
    cases xs with
    | nil => simp only [reprText]; exact .list0
    | cons x xs => simp only [reprText, List.append_assoc]; exact .list
  | @dict kvs h =>
    cases kvs with
    | nil => simp only [reprText]; exact .dict0
    | cons x xs => simp only [reprText, List.append_assoc]; exact .dict

/-- No text begins with the end of a list. -/
theorem Written.head {P : Char → Bool} {d : RawDoc} {s : Str} (h : Written P d s) : ∃ c r, s = c :: r ∧ c ≠ ']' := by
  cases h with
  | word h =>
    rename_i t
    cases t with
    | nil => exact ⟨')', [], rfl, by decide⟩
    | cons c r => exact ⟨c, r ++ c!")", rfl, fun e => h.facts.2 c rfl (by rw [e]; decide)⟩
  | _ => exact ⟨_, _, rfl, by decide⟩

/-- Where a word and a container cannot be confused. -/
theorem word_head {d : RawDoc} {t x y : Str} {c : Char} (h : Word d t) (hc : c = '[' ∨ c = '{') (e : t ++ c!")" ++ x = c :: y) : False := by
  cases t with
  | nil => simp at e; rcases hc with rfl | rfl <;> exact absurd e.1 (by decide)
  | cons b r =>
    simp at e
    refine h.facts.2 b rfl ?_
    rw [e.1]; rcases hc with rfl | rfl <;> decide

def Reads (P : Char → Bool) (a : RawDoc) : Prop := ∀ (b : RawDoc) (x y : Str), Clear b → reprText P a ++ x = reprText P b ++ y → a = b ∧ x = y

theorem reprs_prefix (P : Char → Bool) : ∀ {xs ys : List RawDoc} {x y : Str}, (∀ a ∈ xs, Reads P a) → (∀ a ∈ ys, Clear a) →
    reprs P xs ++ (c!"])" ++ x) = reprs P ys ++ (c!"])" ++ y) → xs = ys ∧ x = y
  | [], [], x, y, _, _, h => by simpa [reprs] using h
  | [], b :: ys, x, y, _, _, h => by simp [reprs] at h
  | a :: xs, [], x, y, _, _, h => by simp [reprs] at h
  | a :: xs, b :: ys, x, y, h1, h2, h => by
    simp only [reprs, List.append_assoc, List.cons_append, List.nil_append, List.cons.injEq, true_and] at h
    obtain ⟨e1, h3⟩ := h1 a (by simp) _ _ _ (h2 b (by simp)) h
    obtain ⟨e2, h4⟩ := reprs_prefix P (xs := xs) (ys := ys) (fun a m => h1 a (by simp [m])) (fun a m => h2 a (by simp [m])) h3
    exact ⟨by rw [e1, e2], h4⟩

theorem members_prefix (P : Char → Bool) : ∀ {xs ys : List (Str × RawDoc)} {x y : Str}, (∀ a ∈ xs, Reads P a.2) →
    (∀ a ∈ ys, Clear a.2) → members P xs ++ (c!"})" ++ x) = members P ys ++ (c!"})" ++ y) → xs = ys ∧ x = y
  | [], [], x, y, _, _, h => by simpa [members] using h
  | [], b :: ys, x, y, _, _, h => by simp [members] at h
  | a :: xs, [], x, y, _, _, h => by simp [members] at h
  | (k, a) :: xs, (l, b) :: ys, x, y, h1, h2, h => by
    simp only [members, List.append_assoc, List.cons_append, List.nil_append, List.cons.injEq, true_and] at h
    obtain ⟨e0, h3⟩ := quote_prefix P h
    simp only [List.cons.injEq, true_and] at h3
    obtain ⟨e1, h4⟩ := h1 (k, a) (by simp) _ _ _ (h2 (l, b) (by simp)) h3
    obtain ⟨e2, h5⟩ := members_prefix P (xs := xs) (ys := ys) (fun a m => h1 a (by simp [m])) (fun a m => h2 a (by simp [m])) h4
    exact ⟨by rw [e0, e2, show a = b from e1], h5⟩

theorem word_reads (P : Char → Bool) {a : RawDoc} {t : Str} (h : Word a t) (e : reprText P a = t ++ c!")") : Reads P a := by
  intro b x y hb he
  rw [e] at he
  have hw := Clear.written P hb
  generalize reprText P b = s at hw he
  cases hw with
  | word h2 =>
    simp only [List.append_assoc, List.cons_append, List.nil_append] at he
    obtain ⟨rfl, h3⟩ := closed_prefix h.facts.1 h2.facts.1 he
    exact ⟨h.inj h2, h3⟩
  | list0 => exact (word_head h (.inl rfl) he).elim
  | list => exact (word_head h (.inl rfl) he).elim
  | dict0 => exact (word_head h (.inr rfl) he).elim
  | dict => exact (word_head h (.inr rfl) he).elim

/-- A clear value can be read back from what begins with its text. -/
theorem repr_prefix (P : Char → Bool) {a : RawDoc} (ha : Clear a) : Reads P a := by
  induction ha with
  | null => exact word_reads P .null (by simp only [reprText])
  | bool b => cases b <;> first | exact word_reads P .false (by simp [reprText]) | exact word_reads P .true (by simp [reprText])
  | num h => exact word_reads P (.num h) (by simp only [reprText])
  | str h => exact word_reads P (.str h) (by simp only [reprText])
  | @list xs hx ih =>
    intro b x y hb he
    have hw := Clear.written P hb
    generalize hs : reprText P b = s at hw he
    cases xs with
    | nil =>
      simp only [reprText] at he
      cases hw with
      | word h2 => exact (word_head h2 (.inl rfl) he.symm).elim
      | list0 => exact ⟨rfl, by simpa using he⟩
      | @list z zs =>
        exfalso
        have hz : Clear z := by cases hb with | list h => exact h z (by simp)
        obtain ⟨c, r, e, hc⟩ := (Clear.written P hz).head
        simp [e] at he
        exact hc he.1.symm
      | dict0 => simp at he
      | dict => simp at he
    | cons w xs =>
      simp only [reprText, List.append_assoc, List.cons_append, List.nil_append] at he
      cases hw with
      | word h2 => exact (word_head h2 (.inl rfl) he.symm).elim
      | list0 =>
        exfalso
        obtain ⟨c, r, e, hc⟩ := (Clear.written P (hx w (by simp))).head
        simp [e] at he
        exact hc he.1
      | @list z zs =>
        have hz : ∀ z' ∈ z :: zs, Clear z' := by cases hb with | list h => exact h
        simp only [List.append_assoc, List.cons_append, List.cons.injEq, true_and] at he
        obtain ⟨e1, h3⟩ := ih w (by simp) _ _ _ (hz z (by simp)) he
        obtain ⟨e2, h4⟩ := reprs_prefix P (xs := xs) (ys := zs) (fun a m => ih a (by simp [m])) (fun a m => hz a (by simp [m])) h3
        exact ⟨by rw [e1, e2], h4⟩
      | dict0 => simp at he
      | dict => simp at he
  | @dict xs hx ih =>
    intro b x y hb he
    have hw := Clear.written P hb
    generalize hs : reprText P b = s at hw he
    cases xs with
    | nil =>
      simp only [reprText] at he
      cases hw with
      | word h2 => exact (word_head h2 (.inr rfl) he.symm).elim
      | dict0 => exact ⟨rfl, by simpa using he⟩
      | @dict z zs =>
        exfalso
        simp [quote] at he
        rcases quoteOf_cases z.1 with e | e <;> rw [e] at he <;> exact absurd he.1 (by decide)
      | list0 => simp at he
      | list => simp at he
    | cons w xs =>
      simp only [reprText, List.append_assoc, List.cons_append, List.nil_append] at he
      cases hw with
      | word h2 => exact (word_head h2 (.inr rfl) he.symm).elim
      | dict0 =>
        exfalso
        simp [quote] at he
        rcases quoteOf_cases w.1 with e | e <;> rw [e] at he <;> exact absurd he.1 (by decide)
      | @dict z zs =>
        have hz : ∀ z' ∈ z :: zs, Clear z'.2 := by cases hb with | dict h => exact h
        simp only [List.append_assoc, List.cons_append, List.cons.injEq, true_and] at he
        obtain ⟨e0, h2⟩ := quote_prefix P he
        simp only [List.nil_append, List.cons.injEq, true_and] at h2
        obtain ⟨e1, h3⟩ := ih w (by simp) _ _ _ (hz z (by simp)) h2
        obtain ⟨e2, h4⟩ := members_prefix P (xs := xs) (ys := zs) (fun a m => ih a (by simp [m])) (fun a m => hz a (by simp [m])) h3
        exact ⟨by rw [e2, show w = z from Prod.ext e0 e1], h4⟩
      | list0 => simp at he
      | list => simp at he

theorem repr_inj (P : Char → Bool) {a b : RawDoc} (ha : Clear a) (hb : Clear b) (h : reprText P a = reprText P b) : a = b :=
  (repr_prefix P ha b [] [] hb (by simpa using h)).1

end Verif.Repr
