import Verif.Model.JsonText
import Verif.Spec.JsonText
import Verif.Proofs.DecimalRange
import Verif.Proofs.Dict
/-! # Reading JSON texts -/

namespace Verif.JsonText
open Verif Num

/-! ## Numbers -/

theorem natOf_eq (s : Str) : natOf s = decimal s := by
  have : ∀ (s : Str) (n : Nat), s.foldl (fun n c => n * 10 + (c.toNat - 48)) n = n * 10 ^ s.length + decimal s := by
    intro s
    induction s with
    | nil => intro n; simp [decimal]
    | cons c s ih =>
      intro n
      rw [List.foldl_cons, ih, decimal, List.length_cons, Nat.pow_succ, Nat.add_mul, Nat.mul_assoc, Nat.mul_comm 10, Nat.add_assoc]
      rfl
  unfold natOf
  rw [this]; simp

theorem isDigit_iff (c : Char) : c.isDigit = true ↔ '0' ≤ c ∧ c ≤ '9' := by
  unfold Char.isDigit
  simp only [Bool.and_eq_true, decide_eq_true_eq]
  rfl

/-- The next character is no digit. -/
def NoDigit (s : Str) : Prop := ∀ c, s.head? = some c → c.isDigit = false

theorem span_digits {ds r : Str} (h : ∀ c ∈ ds, '0' ≤ c ∧ c ≤ '9') (hr : NoDigit r) :
    (ds ++ r).takeWhile Char.isDigit = ds ∧ (ds ++ r).dropWhile Char.isDigit = r := by
  have hd : ∀ c ∈ ds, c.isDigit = true := fun c hc => (isDigit_iff c).2 (h c hc)
  rw [List.takeWhile_append_of_pos hd, List.dropWhile_append_of_pos hd]
  cases r with
  | nil => simp
  | cons c r => simp [hr c rfl]

theorem take_digits (s : Str) : ∀ c ∈ s.takeWhile Char.isDigit, '0' ≤ c ∧ c ≤ '9' := by
  intro c hc
  exact (isDigit_iff c).1 (List.all_eq_true.1 (List.all_takeWhile (p := Char.isDigit)) c hc)

theorem intPart_sound {s ip r : Str} (h : intPart s = .ok (ip, r)) : s = ip ++ r ∧ IntPart ip := by
  unfold intPart at h
  split at h
  · cases h
  · next c r' =>
    split at h
    · next hc => cases h; subst hc; exact ⟨rfl, .inl rfl⟩
    · next hc =>
      split at h
      · next hd =>
        cases h
        refine ⟨(List.takeWhile_append_dropWhile).symm, .inr ⟨⟨?_, take_digits _⟩, ?_⟩⟩
        · simp [List.takeWhile_cons, hd]
        · simp [List.takeWhile_cons, hd, hc]
      · cases h

theorem intPart_complete {ip r : Str} (h : IntPart ip) (hr : NoDigit r) : intPart (ip ++ r) = .ok (ip, r) := by
  rcases h with rfl | ⟨⟨hne, hd⟩, h0⟩
  · simp [intPart]
  · obtain ⟨e1, e2⟩ := span_digits hd hr
    cases ip with
    | nil => exact absurd rfl hne
    | cons c ip =>
      have hc : c ≠ '0' := by simpa using h0
      have hcd : c.isDigit = true := (isDigit_iff c).2 (hd c (by simp))
      rw [List.cons_append] at e1 e2
      simp only [List.cons_append, intPart, if_neg hc, hcd, if_true, e1, e2]

theorem fracPart_sound {s ds r : Str} (h : fracPart s = (ds, r)) : ∃ fr, s = fr ++ r ∧ FracPart fr ds := by
  unfold fracPart at h
  split at h
  · next r' =>
    split at h
    · cases h; exact ⟨[], rfl, .inl ⟨rfl, rfl⟩⟩
    · next hne =>
      cases h
      exact ⟨'.' :: r'.takeWhile Char.isDigit, by simp, .inr ⟨rfl, hne, take_digits _⟩⟩
  · cases h; exact ⟨[], rfl, .inl ⟨rfl, rfl⟩⟩

theorem fracPart_complete {fr ds r : Str} (h : FracPart fr ds) (hr : NoDigit r) (hp : r.head? ≠ some '.') : fracPart (fr ++ r) = (ds, r) := by
  rcases h with ⟨rfl, rfl⟩ | ⟨rfl, hne, hd⟩
  · unfold fracPart
    split
    · next e => simp only [List.nil_append] at e; rw [e] at hp; simp at hp
    · rfl
  · obtain ⟨e1, e2⟩ := span_digits hd hr
    simp only [List.cons_append, fracPart, e1, e2, if_neg hne]

theorem expPart_sound {s r : Str} {e : Option Int} (h : expPart s = (e, r)) : ∃ ex, s = ex ++ r ∧ ExpPart ex e := by
  unfold expPart at h
  split at h
  · cases h; exact ⟨[], rfl, .inl ⟨rfl, rfl⟩⟩
  · next c r' =>
    split at h
    · next hc =>
      have go : ∀ (neg : Bool) (pre : Str) (t : Str), r' = pre ++ t → (neg = true ∧ pre = ['-'] ∨ neg = false ∧ (pre = [] ∨ pre = ['+'])) →
          (if t.takeWhile Char.isDigit = [] then (none, c :: r')
            else (some (if neg then -(natOf (t.takeWhile Char.isDigit) : Int) else natOf (t.takeWhile Char.isDigit)), t.dropWhile Char.isDigit)) = (e, r) →
          ∃ ex, c :: r' = ex ++ r ∧ ExpPart ex e := by
        intro neg pre t e1 hs hh
        split at hh
        · cases hh; exact ⟨[], rfl, .inl ⟨rfl, rfl⟩⟩
        · next hne =>
          cases hh
          refine ⟨c :: (pre ++ t.takeWhile Char.isDigit), by rw [e1]; simp, .inr ⟨c, _, hc, ⟨hne, take_digits t⟩, ?_⟩⟩
          rw [natOf_eq]
          rcases hs with ⟨rfl, rfl⟩ | ⟨rfl, rfl | rfl⟩
          · exact .inr ⟨rfl, rfl⟩
          · exact .inl ⟨.inl rfl, rfl⟩
          · exact .inl ⟨.inr rfl, rfl⟩
      have hsg : ∃ pre, r' = pre ++ (expSign r').2 ∧ ((expSign r').1 = true ∧ pre = ['-'] ∨ (expSign r').1 = false ∧ (pre = [] ∨ pre = ['+'])) := by
        unfold expSign
        split
        · exact ⟨['-'], rfl, .inl ⟨rfl, rfl⟩⟩
        · exact ⟨['+'], rfl, .inr ⟨rfl, .inr rfl⟩⟩
        · exact ⟨[], rfl, .inr ⟨rfl, .inl rfl⟩⟩
      obtain ⟨pre, e1, hs⟩ := hsg
      exact go _ pre _ e1 hs h
    · cases h; exact ⟨[], rfl, .inl ⟨rfl, rfl⟩⟩

theorem expPart_complete {ex r : Str} {e : Option Int} (h : ExpPart ex e) (hr : NoDigit r) (hp : r.head? ≠ some 'e' ∧ r.head? ≠ some 'E') :
    expPart (ex ++ r) = (e, r) := by
  rcases h with ⟨rfl, rfl⟩ | ⟨c, ds, hc, ⟨hne, hd⟩, h⟩
  · cases r with
    | nil => rfl
    | cons c r =>
      simp only [List.nil_append, expPart]
      rw [if_neg]
      rintro (rfl | rfl)
      · exact hp.1 rfl
      · exact hp.2 rfl
  · obtain ⟨e1, e2⟩ := span_digits hd hr
    have first : ∃ d ds', ds = d :: ds' ∧ d ≠ '-' ∧ d ≠ '+' := by
      cases ds with
      | nil => exact absurd rfl hne
      | cons d ds' =>
        refine ⟨d, ds', rfl, ?_, ?_⟩ <;> (rintro rfl; have := hd _ (List.mem_cons_self ..); revert this; decide)
    rcases h with ⟨rfl | rfl, rfl⟩ | ⟨rfl, rfl⟩
    · have es : expSign (ds ++ r) = (false, ds ++ r) := by
        obtain ⟨d, ds', rfl, h1, h2⟩ := first
        unfold expSign
        split
        · next e => simp at e; exact absurd e.1 h1
        · next e => simp at e; exact absurd e.1 h2
        · rfl
      simp only [List.cons_append, expPart, if_pos hc, es, e1, e2, if_neg hne, natOf_eq]
      rfl
    · simp only [List.cons_append, expPart, if_pos hc, expSign, e1, e2, if_neg hne, natOf_eq]
      rfl
    · simp only [List.cons_append, expPart, if_pos hc, expSign, e1, e2, if_neg hne, natOf_eq]
      rfl

theorem frac_nil {fr ds : Str} (h : FracPart fr ds) : fr = [] ↔ ds = [] := by
  rcases h with ⟨rfl, rfl⟩ | ⟨rfl, hne, _⟩
  · simp
  · simp [hne]

theorem exp_nil {ex : Str} {e : Option Int} (h : ExpPart ex e) : ex = [] ↔ e = none := by
  rcases h with ⟨rfl, rfl⟩ | ⟨c, ds, _, _, ⟨rfl | rfl, rfl⟩ | ⟨rfl, rfl⟩⟩ <;> simp

theorem signed (neg : Bool) (a b : Rat) : (if neg then -(a * b) else a * b) = (if neg then -1 else 1) * a * b := by
  cases neg <;> simp <;> grind

theorem int_ne {ip : Str} (h : IntPart ip) : ip ≠ [] := by
  rcases h with rfl | ⟨⟨h, _⟩, _⟩
  · simp
  · exact h

theorem number_sound {s r : Str} {v : Val} (h : number s = .ok (v, r)) : ∃ t, s = t ++ r ∧ Numeral python t v := by
  unfold number at h
  have hs : ∃ pre, s = pre ++ (sign s).2 ∧ pre = (if (sign s).1 then ['-'] else []) := by
    unfold sign; split
    · exact ⟨['-'], rfl, rfl⟩
    · exact ⟨[], rfl, rfl⟩
  obtain ⟨pre, e0, hpre⟩ := hs
  generalize hsg : sign s = sg at h e0 hpre
  obtain ⟨neg, s1⟩ := sg
  simp only at h e0 hpre
  obtain ⟨⟨ip, s2⟩, hi, h⟩ := Res.bind_eq_ok.1 h
  obtain ⟨e1, hip⟩ := intPart_sound hi
  simp only at h
  generalize hf : fracPart s2 = fp at h
  obtain ⟨ds, s3⟩ := fp
  obtain ⟨fr, e2, hfr⟩ := fracPart_sound hf
  simp only at h
  generalize he : expPart s3 = ep at h
  obtain ⟨e, s4⟩ := ep
  obtain ⟨ex, e3, hex⟩ := expPart_sound he
  simp only at h
  have es : ∀ r', s4 = r' → s = ((if neg then ['-'] else []) ++ ip ++ fr ++ ex) ++ r' := by
    rintro _ rfl; rw [e0, e1, e2, e3, hpre]; simp
  split at h
  · next hc =>
    split at h
    · cases h
    · next hl =>
      cases h
      refine ⟨_, es _ rfl, neg, ip, fr, ds, ex, e, hip, hfr, hex, rfl, .inl ⟨(frac_nil hfr).2 hc.1, (exp_nil hex).2 hc.2, ?_, ?_⟩⟩
      · exact Nat.not_lt.1 hl
      · rw [natOf_eq]
  · next hc =>
    split at h
    · cases h
    · next hl =>
      cases h
      refine ⟨_, es _ rfl, neg, ip, fr, ds, ex, e, hip, hfr, hex, rfl, .inr ⟨?_, fun _ => (Props.fits_iff ip ds _ (.inl (int_ne hip))).1 (by simpa using hl), ?_⟩⟩
      · rw [frac_nil hfr, exp_nil hex]; exact hc
      · rw [natOf_eq, signed]

/-- What may follow a value. -/
def Follow (s : Str) : Prop := ∀ c, s.head? = some c → c ∈ c!" \t\n\r,]}"

theorem Follow.spec {s : Str} (h : Follow s) : NoDigit s ∧ s.head? ≠ some '.' ∧ s.head? ≠ some 'e' ∧ s.head? ≠ some 'E' := by
  have key : ∀ c ∈ c!" \t\n\r,]}", c.isDigit = false ∧ c ≠ '.' ∧ c ≠ 'e' ∧ c ≠ 'E' := by decide
  exact ⟨fun c hc => (key c (h c hc)).1, fun hc => (key _ (h _ hc)).2.1 rfl, fun hc => (key _ (h _ hc)).2.2.1 rfl,
    fun hc => (key _ (h _ hc)).2.2.2 rfl⟩

theorem int_head {ip : Str} (h : IntPart ip) : ∃ c t, ip = c :: t ∧ c.isDigit = true := by
  rcases h with rfl | ⟨⟨hne, hd⟩, _⟩
  · exact ⟨'0', [], rfl, rfl⟩
  · cases ip with
    | nil => exact absurd rfl hne
    | cons c t => exact ⟨c, t, rfl, (isDigit_iff c).2 (hd c (by simp))⟩

theorem number_complete {t r : Str} {v : Val} (h : Numeral python t v) (hr : Follow r) : number (t ++ r) = .ok (v, r) := by
  obtain ⟨h1, h2, h3, h4⟩ := hr.spec
  obtain ⟨neg, ip, fr, ds, ex, e, hip, hfr, hex, rfl, h⟩ := h
  obtain ⟨c, ip', hc, hcd⟩ := int_head hip
  have sg : sign (((if neg then ['-'] else []) ++ ip ++ fr ++ ex) ++ r) = (neg, ip ++ (fr ++ (ex ++ r))) := by
    cases neg with
    | true => simp [sign]
    | false =>
      rw [hc]
      unfold sign
      split
      · next e => simp at e; rw [e.1] at hcd; cases hcd
      · simp
  have headEx : ∀ c, (ex ++ r).head? = some c → c.isDigit = false ∧ c ≠ '.' := by
    intro c hc
    rcases hex with ⟨rfl, _⟩ | ⟨x, dd, hx, _, ⟨rfl | rfl, _⟩ | ⟨rfl, _⟩⟩
    · exact ⟨h1 c hc, fun e => h2 (e ▸ hc)⟩
    all_goals
      simp at hc; subst hc
      rcases hx with rfl | rfl <;> decide
  have nd2 : NoDigit (fr ++ (ex ++ r)) := by
    rcases hfr with ⟨rfl, _⟩ | ⟨rfl, _⟩
    · exact fun c hc => (headEx c hc).1
    · intro c hc; simp at hc; subst hc; rfl
  simp only [number, sg, intPart_complete hip nd2, Res.ok_bind,
    fracPart_complete hfr (fun c hc => (headEx c hc).1) (fun hc => (headEx _ hc).2 rfl), expPart_complete hex h1 ⟨h3, h4⟩]
  rcases h with ⟨hf, hx, hl, rfl⟩ | ⟨hn, hl, rfl⟩
  · rw [if_pos ⟨(frac_nil hfr).1 hf, (exp_nil hex).1 hx⟩, if_neg (Nat.not_lt.2 hl), natOf_eq]
  · rw [frac_nil hfr, exp_nil hex] at hn
    rw [if_neg hn, if_neg (by simpa using (Props.fits_iff ip ds _ (.inl (int_ne hip))).2 (hl rfl)), natOf_eq, signed]

/-! ## Texts -/

theorem hexVal_iff (c : Char) (n : Nat) : hexVal c = some n ↔ HexDigit c n := by
  constructor
  · intro h
    have hc : c.toNat < 128 := by
      unfold hexVal at h
      split at h
      · next hd => have := ((isDigit_iff c).1 hd).2; have : c.toNat ≤ 57 := this; omega
      · split at h
        · next hd => have : c.toNat ≤ 102 := hd.2; omega
        · split at h
          · next hd => have : c.toNat ≤ 70 := hd.2; omega
          · cases h
    have all : ∀ k, k < 128 → ∀ m ∈ hexVal (Char.ofNat k), m < 16 ∧ (Char.ofNat k = (c!"0123456789abcdef").getD m ' ' ∨ Char.ofNat k = (c!"0123456789ABCDEF").getD m ' ') := by
      decide +kernel
    have := all _ hc n (by rw [Char.ofNat_toNat]; exact h)
    rwa [Char.ofNat_toNat] at this
  · rintro ⟨hn, h⟩
    have all : ∀ n, n < 16 → hexVal ((c!"0123456789abcdef").getD n ' ') = some n ∧ hexVal ((c!"0123456789ABCDEF").getD n ' ') = some n := by decide +kernel
    rcases h with rfl | rfl
    · exact (all n hn).1
    · exact (all n hn).2

theorem hex4_iff (s r : Str) (n : Nat) : hex4 s = some (n, r) ↔ ∃ h, s = h ++ r ∧ Hex4 h n := by
  constructor
  · intro h
    unfold hex4 at h
    split at h
    · next a b c d r' =>
      simp only [Option.bind_eq_bind, Option.bind_eq_some_iff, Option.some.injEq, Prod.mk.injEq] at h
      obtain ⟨w, hw, x, hx, y, hy, z, hz, e, rfl⟩ := h
      refine ⟨[a, b, c, d], rfl, a, b, c, d, w, x, y, z, (hexVal_iff ..).1 hw, (hexVal_iff ..).1 hx, (hexVal_iff ..).1 hy, (hexVal_iff ..).1 hz, rfl, ?_⟩
      omega
    · cases h
  · rintro ⟨_, rfl, a, b, c, d, w, x, y, z, hw, hx, hy, hz, rfl, rfl⟩
    rw [← hexVal_iff] at hw hx hy hz
    simp only [List.cons_append, List.nil_append, hex4, hw, hx, hy, hz, Option.bind_eq_bind, Option.bind_some, Option.some.injEq, Prod.mk.injEq, and_true]
    omega

theorem shortEscape_iff (e c : Char) : shortEscape e = some c ↔ (e, c) ∈ shortEscapes := by
  unfold shortEscape shortEscapes
  simp only [List.mem_cons, Prod.mk.injEq, List.not_mem_nil, or_false]
  constructor
  · intro h
    repeat' split at h
    all_goals first | (cases h; done) | (cases h; subst_vars; simp)
  · rintro (⟨rfl, rfl⟩ | ⟨rfl, rfl⟩ | ⟨rfl, rfl⟩ | ⟨rfl, rfl⟩ | ⟨rfl, rfl⟩ | ⟨rfl, rfl⟩ | ⟨rfl, rfl⟩ | ⟨rfl, rfl⟩) <;> rfl

/-- What follows a backslash, and the character meant. -/
def Escape (t : Str) (c : Char) : Prop :=
  (∃ e, t = [e] ∧ (e, c) ∈ shortEscapes) ∨
  (∃ h n, t = 'u' :: h ∧ Hex4 h n ∧ ¬ (0xD800 ≤ n ∧ n ≤ 0xDFFF) ∧ c = Char.ofNat n) ∨
  (∃ h n l m, t = 'u' :: (h ++ ('\\' :: 'u' :: l)) ∧ Hex4 h n ∧ 0xD800 ≤ n ∧ n ≤ 0xDBFF ∧ Hex4 l m ∧ 0xDC00 ≤ m ∧ m ≤ 0xDFFF ∧
    c = Char.ofNat (0x10000 + (n - 0xD800) * 0x400 + (m - 0xDC00)))

theorem Escape.chars {t b s : Str} {c : Char} (h : Escape t c) (hb : Chars b s) : Chars ('\\' :: (t ++ b)) (c :: s) := by
  rcases h with ⟨e, rfl, h⟩ | ⟨h, n, rfl, hh, hn, rfl⟩ | ⟨h, n, l, m, rfl, hh, h1, h2, hl, h3, h4, hc⟩
  · exact .short h hb
  · exact .unicode hh hn hb
  · have := Chars.pair hh h1 h2 hl h3 h4 hb
    rw [← hc] at this
    simpa using this

theorem escape_iff (s r : Str) (c : Char) : escape s = .ok (c, r) ↔ ∃ t, s = t ++ r ∧ Escape t c := by
  constructor
  · intro h
    unfold escape at h
    split at h
    · cases h
    · next e r' =>
      split at h
      · next he =>
        subst he
        split at h
        · cases h
        · next n r1 h4 =>
          obtain ⟨x, rfl, hx⟩ := (hex4_iff ..).1 h4
          split at h
          · next hn =>
            unfold lowHalf at h
            split at h
            · next r2 =>
              split at h
              · cases h
              · next m r3 h5 =>
                obtain ⟨y, rfl, hy⟩ := (hex4_iff ..).1 h5
                split at h
                · next hm =>
                  rw [Res.ok.injEq, Prod.mk.injEq] at h
                  obtain ⟨hc, rfl⟩ := h
                  exact ⟨'u' :: (x ++ '\\' :: 'u' :: y), by simp, .inr (.inr ⟨x, n, y, m, rfl, hx, hn.1, hn.2, hy, hm.1, hm.2, hc.symm⟩)⟩
                · cases h
            · cases h
          · next hn =>
            split at h
            · cases h
            · next hn' => cases h; exact ⟨'u' :: x, by simp, .inr (.inl ⟨x, n, rfl, hx, by omega, rfl⟩)⟩
      · split at h
        · next d hd => cases h; exact ⟨[e], rfl, .inl ⟨e, rfl, (shortEscape_iff ..).1 hd⟩⟩
        · cases h
  · rintro ⟨t, rfl, ⟨e, rfl, h⟩ | ⟨h, n, rfl, hh, hn, rfl⟩ | ⟨h, n, l, m, rfl, hh, h1, h2, hl, h3, h4, hc⟩⟩
    · have hu : e ≠ 'u' := by rintro rfl; revert h; simp [shortEscapes]
      simp only [List.cons_append, List.nil_append, escape, if_neg hu, (shortEscape_iff ..).2 h]
    · simp only [List.cons_append, escape, if_true, (hex4_iff ..).2 ⟨h, rfl, hh⟩]
      rw [if_neg (by omega), if_neg (by omega)]
    · have e1 : hex4 ((h ++ '\\' :: 'u' :: l) ++ r) = some (n, '\\' :: 'u' :: (l ++ r)) := (hex4_iff ..).2 ⟨h, by simp, hh⟩
      have e2 : hex4 (l ++ r) = some (m, r) := (hex4_iff ..).2 ⟨l, rfl, hl⟩
      simp only [List.cons_append, escape, if_true, e1, lowHalf, e2]
      rw [if_pos ⟨h1, h2⟩, if_pos ⟨h3, h4⟩, hc]

theorem chars_sound : ∀ {f : Nat} {s t r : Str}, chars f s = .ok (t, r) → ∃ b, s = b ++ '"' :: r ∧ Chars b t := by
  intro f
  induction f with
  | zero => intro s t r h; simp [chars] at h
  | succ f ih =>
    intro s t r h
    cases s with
    | nil => simp [chars] at h
    | cons c s =>
      unfold chars at h
      split at h
      · next hc => cases h; subst hc; exact ⟨[], rfl, .nil⟩
      · next hc =>
        split at h
        · next hb =>
          subst hb
          obtain ⟨⟨d, r1⟩, h1, h⟩ := Res.bind_eq_ok.1 h
          obtain ⟨⟨t', r2⟩, h2, h⟩ := Res.bind_eq_ok.1 h
          cases h
          obtain ⟨x, rfl, hx⟩ := (escape_iff ..).1 h1
          obtain ⟨b, rfl, hb⟩ := ih h2
          exact ⟨'\\' :: (x ++ b), by simp, hx.chars hb⟩
        · next hb =>
          split at h
          · cases h
          · next hl =>
            obtain ⟨⟨t', r2⟩, h2, h⟩ := Res.bind_eq_ok.1 h
            cases h
            obtain ⟨b, rfl, hb'⟩ := ih h2
            exact ⟨c :: b, rfl, .plain hc hb (Nat.not_lt.1 hl) hb'⟩

theorem chars_escape {f : Nat} {x b t r : Str} {c : Char} (hx : Escape x c) (h : chars f (b ++ '"' :: r) = .ok (t, r)) :
    chars (f + 1) ('\\' :: (x ++ b) ++ '"' :: r) = .ok (c :: t, r) := by
  have e : escape (x ++ b ++ '"' :: r) = .ok (c, b ++ '"' :: r) := (escape_iff ..).2 ⟨x, by simp, hx⟩
  rw [List.cons_append, chars, if_neg (by decide), if_pos rfl, e, Res.ok_bind]
  simp only [h, Res.ok_bind]

theorem hex4_len {h : Str} {n : Nat} (hh : Hex4 h n) : h.length = 4 := by
  obtain ⟨a, b, c, d, _, _, _, _, _, _, _, _, rfl, _⟩ := hh
  rfl

theorem chars_complete {b t r : Str} (h : Chars b t) : ∀ {f : Nat}, b.length + 1 ≤ f → chars f (b ++ '"' :: r) = .ok (t, r) := by
  have step : ∀ {x b t : Str} {c : Char} {f : Nat}, Escape x c → (∀ {f}, b.length + 1 ≤ f → chars f (b ++ '"' :: r) = .ok (t, r)) →
      ('\\' :: (x ++ b)).length + 1 ≤ f → chars f ('\\' :: (x ++ b) ++ '"' :: r) = .ok (c :: t, r) := by
    intro x b t c f hx ih hf
    match f, hf with
    | f + 1, hf =>
      refine chars_escape hx (ih ?_)
      simp at hf; omega
  induction h with
  | nil => intro f hf; match f, hf with | f + 1, _ => simp [chars]
  | @plain c b t h1 h2 h3 _ ih =>
    intro f hf
    match f, hf with
    | f + 1, hf =>
      rw [List.cons_append, chars, if_neg h1, if_neg h2, if_neg (Nat.not_lt.2 h3), ih (by simpa using hf)]
      rfl
  | @short e c b t h _ ih => intro f hf; exact step (x := [e]) (.inl ⟨e, rfl, h⟩) ih hf
  | @unicode h n b t hh hn _ ih => intro f hf; exact step (x := 'u' :: h) (.inr (.inl ⟨h, n, rfl, hh, hn, rfl⟩)) ih hf
  | @pair h n l m b t hh h1 h2 hl h3 h4 _ ih =>
    intro f hf
    have := step (x := 'u' :: (h ++ '\\' :: 'u' :: l)) (f := f) (.inr (.inr ⟨h, n, l, m, rfl, hh, h1, h2, hl, h3, h4, rfl⟩)) ih (by simpa using hf)
    simpa using this

/-! ## Members -/

/-- The members put into a dictionary one after the other. -/
def putAll (d : List (Str × Val)) (ms : List (Str × Val)) : List (Str × Val) := ms.foldl (fun d kv => dictSet kv.1 kv.2 d) d

theorem lastOf_append (k : Str) (ms : List (Str × Val)) (k' : Str) (v : Val) :
    lastOf k (ms ++ [(k', v)]) = if k' = k then some v else lastOf k ms := by
  induction ms with
  | nil => by_cases h : k' = k <;> simp [lastOf, h]
  | cons m ms ih =>
    obtain ⟨k1, v1⟩ := m
    simp only [List.cons_append, lastOf, ih]
    by_cases h : k' = k <;> simp [h]

theorem keys_set (k : Str) (v : Val) (d : List (Str × Val)) :
    (dictSet k v d).map Prod.fst = if k ∈ d.map Prod.fst then d.map Prod.fst else d.map Prod.fst ++ [k] := by
  induction d with
  | nil => simp [dictSet]
  | cons x d ih =>
    obtain ⟨k1, v1⟩ := x
    unfold dictSet
    by_cases h : k1 = k
    · subst h; simp
    · simp only [List.map_cons, List.mem_cons, if_neg h, ih, Ne.symm h, false_or]
      split <;> simp

theorem snoc_induction {α : Type} {P : List α → Prop} (h0 : P []) (h1 : ∀ l a, P l → P (l ++ [a])) (l : List α) : P l := by
  have : ∀ l : List α, P l.reverse := by
    intro l
    induction l with
    | nil => exact h0
    | cons a l ih => rw [List.reverse_cons]; exact h1 _ _ ih
  simpa using this l.reverse

theorem eraseDups_snoc (l : List Str) (a : Str) : (l ++ [a]).eraseDups = if a ∈ l then l.eraseDups else l.eraseDups ++ [a] := by
  rw [List.eraseDups_append]
  by_cases h : a ∈ l
  · rw [if_pos h]; simp [List.removeAll, h]
  · rw [if_neg h]; simp [List.removeAll, h, List.eraseDups_cons]

theorem nodup_eraseDups (l : List Str) : l.eraseDups.Nodup := by
  induction l using snoc_induction with
  | h0 => exact List.nodup_nil
  | h1 l a ih =>
    rw [eraseDups_snoc]
    split
    · exact ih
    · next h =>
      rw [List.nodup_append]
      refine ⟨ih, by simp, ?_⟩
      intro x hx y hy
      simp at hy; subst hy
      rintro rfl
      exact h (List.mem_eraseDups.1 hx)

theorem putAll_keys (ms : List (Str × Val)) : (putAll [] ms).map Prod.fst = (ms.map Prod.fst).eraseDups := by
  induction ms using snoc_induction with
  | h0 => rfl
  | h1 ms m ih =>
    have e : putAll [] (ms ++ [m]) = dictSet m.1 m.2 (putAll [] ms) := by simp [putAll]
    rw [e, keys_set, ih, List.map_append, List.map_cons, List.map_nil, eraseDups_snoc]
    simp only [List.mem_eraseDups]

theorem putAll_get (ms : List (Str × Val)) (k : Str) : dictGet k (putAll [] ms) = lastOf k ms := by
  induction ms using snoc_induction with
  | h0 => rfl
  | h1 ms m ih =>
    have e : putAll [] (ms ++ [m]) = dictSet m.1 m.2 (putAll [] ms) := by simp [putAll]
    rw [e, dictGet_set, ih, lastOf_append]

theorem nodup_get {d : List (Str × Val)} (h : (d.map Prod.fst).Nodup) :
    (d.map Prod.fst).filterMap (fun k => (dictGet k d).map fun v => (k, v)) = d := by
  induction d with
  | nil => rfl
  | cons x d ih =>
    obtain ⟨k1, v1⟩ := x
    rw [List.map_cons, List.nodup_cons] at h
    rw [List.map_cons, List.filterMap_cons]
    simp only [dictGet, if_true, Option.map_some]
    congr 1
    refine Eq.trans ?_ (ih h.2)
    have congr : ∀ (l : List Str) (f g : Str → Option (Str × Val)), (∀ k ∈ l, f k = g k) → l.filterMap f = l.filterMap g := by
      intro l f g hfg
      induction l with
      | nil => rfl
      | cons a l ih => rw [List.filterMap_cons, List.filterMap_cons, hfg a (by simp), ih fun k hk => hfg k (by simp [hk])]
    refine congr _ _ _ ?_
    intro k hk
    have : k1 ≠ k := by rintro rfl; exact h.1 hk
    simp only [if_neg this]

theorem collect_eq (ms : List (Str × Val)) : putAll [] ms = collect ms := by
  have nd : ((putAll [] ms).map Prod.fst).Nodup := by
    rw [putAll_keys]; exact nodup_eraseDups _
  rw [← nodup_get nd]
  simp only [putAll_get, putAll_keys]
  rfl

/-! ## White space -/

theorem isWs_iff (c : Char) : isWs c = true ↔ c = ' ' ∨ c = '\t' ∨ c = '\n' ∨ c = '\r' := by
  simp [isWs, or_assoc]

theorem skipWs_split (s : Str) : ∃ w, s = w ++ skipWs s ∧ Ws w := by
  refine ⟨s.takeWhile isWs, (List.takeWhile_append_dropWhile).symm, ?_⟩
  intro c hc
  exact (isWs_iff c).1 (List.all_eq_true.1 (List.all_takeWhile (p := isWs)) c hc)

/-- The next character is no white space. -/
def NoWs (s : Str) : Prop := ∀ c, s.head? = some c → isWs c = false

theorem skipWs_complete {w r : Str} (hw : Ws w) (hr : NoWs r) : skipWs (w ++ r) = r := by
  have h : ∀ c ∈ w, isWs c = true := fun c hc => (isWs_iff c).2 (hw c hc)
  unfold skipWs
  rw [List.dropWhile_append_of_pos h]
  cases r with
  | nil => rfl
  | cons c r => simp [hr c rfl]

theorem noWs_cons {c : Char} {r : Str} (h : isWs c = false) : NoWs (c :: r) := by
  intro x hx; simp at hx; subst hx; exact h

/-! ## What is read is what the text says -/

theorem literal_sound {s r : Str} {v : Val} (h : literal s = .ok (v, r)) : ∃ t, s = t ++ r ∧ Text python t v := by
  unfold literal at h
  split at h
  · cases h; exact ⟨c!"null", rfl, .null⟩
  · cases h; exact ⟨c!"true", rfl, .true⟩
  · cases h; exact ⟨c!"false", rfl, .false⟩
  · cases h; exact ⟨c!"NaN", rfl, .nan rfl⟩
  · cases h; exact ⟨c!"Infinity", rfl, .inf rfl⟩
  · cases h; exact ⟨c!"-Infinity", rfl, .negInf rfl⟩
  · obtain ⟨t, e, h⟩ := number_sound h; exact ⟨t, e, .num h⟩

theorem sound : ∀ f : Nat,
    (∀ s v r, value f s = .ok (v, r) → ∃ t, s = t ++ r ∧ Text python t v) ∧
    (∀ s vs r, elements f s = .ok (vs, r) → ∃ t, s = t ++ ']' :: r ∧ Elements python t vs) ∧
    (∀ s d d' r, members f s d = .ok (d', r) → ∃ t ms, s = t ++ '}' :: r ∧ Members python t ms ∧ d' = putAll d ms) := by
  intro f
  induction f with
  | zero => refine ⟨?_, ?_, ?_⟩ <;> intros <;> simp_all [value, elements, members]
  | succ f ih =>
    obtain ⟨ihv, ihe, ihm⟩ := ih
    refine ⟨?_, ?_, ?_⟩
    · intro s v r h
      cases s with
      | nil => simp [value] at h
      | cons c s =>
        unfold value at h
        split at h
        · next hc =>
          subst hc
          obtain ⟨⟨t, r1⟩, h1, h⟩ := Res.bind_eq_ok.1 h
          cases h
          obtain ⟨b, rfl, hb⟩ := chars_sound h1
          exact ⟨'"' :: (b ++ ['"']), by simp, .str hb⟩
        · split at h
          · next hc =>
            subst hc
            obtain ⟨w, e, hw⟩ := skipWs_split s
            split at h
            · next r1 hs =>
              cases h
              rw [hs] at e
              exact ⟨'[' :: (w ++ [']']), by rw [e]; simp, .noElements hw⟩
            · obtain ⟨⟨vs, r1⟩, h1, h⟩ := Res.bind_eq_ok.1 h
              cases h
              obtain ⟨t, e1, ht⟩ := ihe _ _ _ h1
              rw [e1] at e
              exact ⟨'[' :: (w ++ (t ++ [']'])), by rw [e]; simp, .arr hw ht⟩
          · split at h
            · next hc =>
              subst hc
              obtain ⟨w, e, hw⟩ := skipWs_split s
              split at h
              · next r1 hs =>
                cases h
                rw [hs] at e
                exact ⟨'{' :: (w ++ ['}']), by rw [e]; simp, .noMembers hw⟩
              · obtain ⟨⟨d, r1⟩, h1, h⟩ := Res.bind_eq_ok.1 h
                cases h
                obtain ⟨t, ms, e1, ht, rfl⟩ := ihm _ _ _ _ h1
                rw [e1] at e
                rw [collect_eq]
                exact ⟨'{' :: (w ++ (t ++ ['}'])), by rw [e]; simp, .obj hw ht⟩
            · exact literal_sound h
    · intro s vs r h
      unfold elements at h
      obtain ⟨⟨v, r1⟩, h1, h'⟩ := Res.bind_eq_ok.1 h
      clear h; have h := h'
      clear h'
      simp only at h
      obtain ⟨t, rfl, ht⟩ := ihv _ _ _ h1
      obtain ⟨w, e, hw⟩ := skipWs_split r1
      split at h
      · next r2 hs =>
        cases h
        rw [hs] at e
        exact ⟨t ++ w, by rw [e]; simp, .one ht hw⟩
      · next r2 hs =>
        obtain ⟨⟨us, r3⟩, h2, h⟩ := Res.bind_eq_ok.1 h
        cases h
        obtain ⟨w', e', hw'⟩ := skipWs_split r2
        obtain ⟨u, e2, hu⟩ := ihe _ _ _ h2
        rw [e2] at e'
        rw [hs, e'] at e
        exact ⟨t ++ (w ++ (',' :: (w' ++ u))), by rw [e]; simp, .more ht hw hw' hu⟩
      · cases h
    · intro s d d' r h
      unfold members at h
      split at h
      · next s1 =>
        obtain ⟨⟨k, r1⟩, h1, h'⟩ := Res.bind_eq_ok.1 h
        clear h; have h := h'
        clear h'
        simp only at h
        obtain ⟨b, rfl, hb⟩ := chars_sound h1
        obtain ⟨w1, e1, hw1⟩ := skipWs_split r1
        split at h
        · next r2 hs1 =>
          obtain ⟨⟨v, r3⟩, h2, h'⟩ := Res.bind_eq_ok.1 h
          clear h; have h := h'
          clear h'
          simp only at h
          obtain ⟨w2, e2, hw2⟩ := skipWs_split r2
          obtain ⟨t, e3, ht⟩ := ihv _ _ _ h2
          obtain ⟨w3, e4, hw3⟩ := skipWs_split r3
          split at h
          · next r4 hs2 =>
            cases h
            rw [hs2] at e4
            rw [e4] at e3
            rw [e3] at e2
            rw [hs1, e2] at e1
            exact ⟨_, _, by rw [e1]; simp, .one hb hw1 hw2 ht hw3, rfl⟩
          · next r4 hs2 =>
            obtain ⟨w4, e5, hw4⟩ := skipWs_split r4
            obtain ⟨u, ms, e6, hu, rfl⟩ := ihm _ _ _ _ h
            rw [e6] at e5
            rw [hs2, e5] at e4
            rw [e4] at e3
            rw [e3] at e2
            rw [hs1, e2] at e1
            exact ⟨_, _, by rw [e1]; simp, .more hb hw1 hw2 ht hw3 hw4 hu, rfl⟩
          · cases h
        · cases h
      · cases h

/-! ## What the text says is read -/

theorem numeral_head {δ : Dialect} {t : Str} {v : Val} (h : Numeral δ t v) :
    (∃ c t', t = c :: t' ∧ c.isDigit = true) ∨ ∃ c t', t = '-' :: c :: t' ∧ c.isDigit = true := by
  obtain ⟨neg, ip, fr, ds, ex, e, hip, _, _, rfl, _⟩ := h
  obtain ⟨c, ip', rfl, hc⟩ := int_head hip
  cases neg with
  | true => exact .inr ⟨c, _, rfl, hc⟩
  | false => exact .inl ⟨c, _, rfl, hc⟩

theorem digit_not {c : Char} (h : c.isDigit = true) : c ∉ c!"ntfNI\"[]{}- \t\n\r" := by
  intro hc
  have : ∀ x ∈ c!"ntfNI\"[]{}- \t\n\r", x.isDigit = false := by decide
  rw [this c hc] at h; cases h

theorem literal_number {δ : Dialect} {t r : Str} {v : Val} (h : Numeral δ t v) : literal (t ++ r) = number (t ++ r) := by
  rcases numeral_head h with ⟨c, t', rfl, hc⟩ | ⟨c, t', rfl, hc⟩
  · have := digit_not hc
    unfold literal
    split <;> (try rfl) <;> (next e => simp at e; exfalso; apply this; rw [e.1]; decide)
  · have := digit_not hc
    unfold literal
    split <;> (try rfl)
    all_goals first | (next e => simp at e; done) | (next e => simp at e; exfalso; apply this; rw [e.1]; decide)

/-- How a value begins. -/
def Begins (t : Str) : Prop := ∃ c t', t = c :: t' ∧ isWs c = false ∧ c ≠ ']' ∧ c ≠ '}'

theorem text_begins {δ : Dialect} {t : Str} {v : Val} (h : Text δ t v) : Begins t := by
  cases h with
  | num h =>
    rcases numeral_head h with ⟨c, t', rfl, hc⟩ | ⟨c, t', rfl, hc⟩
    · have := digit_not hc
      refine ⟨c, t', rfl, ?_, ?_, ?_⟩
      · rw [← Bool.not_eq_true, isWs_iff]
        rintro (rfl | rfl | rfl | rfl) <;> exact this (by decide)
      · rintro rfl; exact this (by decide)
      · rintro rfl; exact this (by decide)
    · exact ⟨_, _, rfl, by decide, by decide, by decide⟩
  | _ => exact ⟨_, _, rfl, by decide, by decide, by decide⟩

theorem Begins.append {t : Str} (h : Begins t) (r : Str) : NoWs (t ++ r) ∧ (t ++ r).head? ≠ some ']' ∧ (t ++ r).head? ≠ some '}' := by
  obtain ⟨c, t', rfl, h1, h2, h3⟩ := h
  exact ⟨noWs_cons h1, by simpa using h2, by simpa using h3⟩

theorem elements_begins {δ : Dialect} {t : Str} {vs : List Val} (h : Elements δ t vs) : Begins t := by
  have : ∀ {t r : Str}, Begins t → Begins (t ++ r) := by
    rintro t r ⟨c, t', rfl, h⟩; exact ⟨c, t' ++ r, rfl, h⟩
  cases h with
  | one h _ => exact this (text_begins h)
  | more h _ _ _ => exact this (text_begins h)

theorem members_begins {δ : Dialect} {t : Str} {ms : List (Str × Val)} (h : Members δ t ms) : Begins t := by
  cases h <;> exact ⟨_, _, rfl, by decide, by decide, by decide⟩

theorem follow_ws {w r : Str} (hw : Ws w) {c : Char} (hc : c = ',' ∨ c = ']' ∨ c = '}') : Follow (w ++ c :: r) := by
  intro x hx
  cases w with
  | nil => simp at hx; subst hx; rcases hc with rfl | rfl | rfl <;> decide
  | cons y w =>
    simp at hx; subst hx
    rcases hw y (by simp) with rfl | rfl | rfl | rfl <;> decide

theorem value_str (f : Nat) (r : Str) : value (f + 1) ('"' :: r) = (do let (t, r) ← chars f r; .ok (.str t, r)) := by
  rw [value]; rfl

theorem value_arr (f : Nat) {r : Str} (h : (skipWs r).head? ≠ some ']') :
    value (f + 1) ('[' :: r) = (do let (vs, r) ← elements f (skipWs r); .ok (.list vs, r)) := by
  rw [value, if_neg (by decide), if_pos rfl]
  split
  · next e => rw [e] at h; exact absurd rfl h
  · rfl

theorem value_obj (f : Nat) {r : Str} (h : (skipWs r).head? ≠ some '}') :
    value (f + 1) ('{' :: r) = (do let (d, r) ← members f (skipWs r) []; .ok (.dict d, r)) := by
  rw [value, if_neg (by decide), if_neg (by decide), if_pos rfl]
  split
  · next e => rw [e] at h; exact absurd rfl h
  · rfl

theorem value_literal (f : Nat) {c : Char} {r : Str} (h : c ∉ c!"\"[{") : value (f + 1) (c :: r) = literal (c :: r) := by
  rw [value, if_neg (by rintro rfl; exact h (by decide)), if_neg (by rintro rfl; exact h (by decide)), if_neg (by rintro rfl; exact h (by decide))]

mutual

theorem text_complete {t : Str} {v : Val} (h : Text python t v) : ∀ {f : Nat} {r : Str}, Follow r → 2 * t.length + 1 ≤ f →
    value f (t ++ r) = .ok (v, r) := by
  intro f r hr hf
  match f, hf with
  | f + 1, hf =>
    match h with
    | .null => exact (value_literal f (by decide)).trans rfl
    | .true => exact (value_literal f (by decide)).trans rfl
    | .false => exact (value_literal f (by decide)).trans rfl
    | .nan _ => exact (value_literal f (by decide)).trans rfl
    | .inf _ => exact (value_literal f (by decide)).trans rfl
    | .negInf _ => exact (value_literal f (by decide)).trans rfl
    | .num h =>
      rw [← number_complete h hr, ← literal_number h]
      rcases numeral_head h with ⟨c, t', rfl, hc⟩ | ⟨c, t', rfl, hc⟩
      · refine value_literal f ?_
        intro hm
        refine digit_not hc ?_
        revert hm
        simp only [List.mem_cons, List.not_mem_nil, or_false]
        rintro (rfl | rfl | rfl) <;> decide
      · exact value_literal f (by decide)
    | .str (t := b) hb =>
      have hl : b.length + 1 ≤ f := by simp at hf; omega
      have := chars_complete (r := r) hb hl
      simp only [List.cons_append, List.append_assoc, List.nil_append, value_str, this, Res.ok_bind]
    | .noElements (w := w) hw =>
      have : skipWs (w ++ ']' :: r) = ']' :: r := skipWs_complete hw (noWs_cons (by decide))
      simp only [List.cons_append, List.append_assoc, List.nil_append]
      rw [value, if_neg (by decide), if_pos rfl, this]
      rfl
    | .arr (w := w) (t := t) hw ht =>
      have hb := (elements_begins ht).append (']' :: r)
      have e : skipWs (w ++ (t ++ ']' :: r)) = t ++ ']' :: r := skipWs_complete hw hb.1
      simp only [List.cons_append, List.append_assoc, List.nil_append]
      rw [value_arr f (by rw [e]; exact hb.2.1), e, elements_complete ht (by simp at hf; omega)]
      rfl
    | .noMembers (w := w) hw =>
      have : skipWs (w ++ '}' :: r) = '}' :: r := skipWs_complete hw (noWs_cons (by decide))
      simp only [List.cons_append, List.append_assoc, List.nil_append]
      rw [value, if_neg (by decide), if_neg (by decide), if_pos rfl, this]
      rfl
    | .obj (w := w) (t := t) hw ht =>
      have hb := (members_begins ht).append ('}' :: r)
      have e : skipWs (w ++ (t ++ '}' :: r)) = t ++ '}' :: r := skipWs_complete hw hb.1
      simp only [List.cons_append, List.append_assoc, List.nil_append]
      rw [value_obj f (by rw [e]; exact hb.2.2), e, members_complete ht (by simp at hf; omega), collect_eq]
      rfl
termination_by structural h

theorem elements_complete {t : Str} {vs : List Val} (h : Elements python t vs) : ∀ {f : Nat} {r : Str}, 2 * t.length + 2 ≤ f →
    elements f (t ++ ']' :: r) = .ok (vs, r) := by
  intro f r hf
  match f, hf with
  | f + 1, hf =>
    match h with
    | .one (t := t) (w := w) ht hw =>
      rw [elements, List.append_assoc, text_complete ht (follow_ws hw (.inr (.inl rfl))) (by simp at hf; omega), Res.ok_bind]
      simp only [skipWs_complete hw (noWs_cons (c := ']') (r := r) (by decide))]
    | .more (t := t) (w := w) (w' := w') (u := u) ht hw hw' hu =>
      have hb := (elements_begins hu).append (']' :: r)
      have e2 : skipWs (w' ++ (u ++ ']' :: r)) = u ++ ']' :: r := skipWs_complete hw' hb.1
      have e : t ++ (w ++ ',' :: (w' ++ u)) ++ ']' :: r = t ++ (w ++ ',' :: (w' ++ (u ++ ']' :: r))) := by simp
      rw [elements, e, text_complete ht (follow_ws hw (.inl rfl)) (by simp at hf; omega), Res.ok_bind]
      simp only [skipWs_complete hw (noWs_cons (c := ',') (r := w' ++ (u ++ ']' :: r)) (by decide)), e2,
        elements_complete hu (f := f) (r := r) (by simp at hf; omega), Res.ok_bind]
termination_by structural h

theorem members_complete {t : Str} {ms : List (Str × Val)} (h : Members python t ms) : ∀ {f : Nat} {r : Str} {d : List (Str × Val)},
    2 * t.length + 2 ≤ f → members f (t ++ '}' :: r) d = .ok (putAll d ms, r) := by
  intro f r d hf
  match f, hf with
  | f + 1, hf =>
    match h with
    | .one (k := k) (s := s) (w1 := w1) (w2 := w2) (t := t) (v := v) (w3 := w3) hk hw1 hw2 ht hw3 =>
      have e : '"' :: (k ++ '"' :: (w1 ++ ':' :: (w2 ++ (t ++ w3)))) ++ '}' :: r = '"' :: (k ++ '"' :: (w1 ++ ':' :: (w2 ++ (t ++ (w3 ++ '}' :: r))))) := by simp
      have e1 := skipWs_complete hw1 (noWs_cons (c := ':') (r := w2 ++ (t ++ (w3 ++ '}' :: r))) (by decide))
      have e2 := skipWs_complete hw2 ((text_begins ht).append (w3 ++ '}' :: r)).1
      have e3 := skipWs_complete hw3 (noWs_cons (c := '}') (r := r) (by decide))
      have ek : chars f (k ++ '"' :: (w1 ++ ':' :: (w2 ++ (t ++ (w3 ++ '}' :: r))))) = .ok (s, _) := chars_complete hk (by simp at hf; omega)
      have ev := text_complete ht (f := f) (r := w3 ++ '}' :: r) (follow_ws hw3 (.inr (.inr rfl))) (by simp at hf; omega)
      rw [e, members]
      simp only [ek, Res.ok_bind, e1, e2, ev, e3]
      rfl
    | .more (k := k) (s := s) (w1 := w1) (w2 := w2) (t := t) (v := v) (w3 := w3) (w4 := w4) (u := u) hk hw1 hw2 ht hw3 hw4 hu =>
      have e : '"' :: (k ++ '"' :: (w1 ++ ':' :: (w2 ++ (t ++ (w3 ++ ',' :: (w4 ++ u)))))) ++ '}' :: r =
          '"' :: (k ++ '"' :: (w1 ++ ':' :: (w2 ++ (t ++ (w3 ++ ',' :: (w4 ++ (u ++ '}' :: r))))))) := by simp
      have e1 := skipWs_complete hw1 (noWs_cons (c := ':') (r := w2 ++ (t ++ (w3 ++ ',' :: (w4 ++ (u ++ '}' :: r))))) (by decide))
      have e2 := skipWs_complete hw2 ((text_begins ht).append (w3 ++ ',' :: (w4 ++ (u ++ '}' :: r)))).1
      have e3 := skipWs_complete hw3 (noWs_cons (c := ',') (r := w4 ++ (u ++ '}' :: r)) (by decide))
      have e4 := skipWs_complete hw4 ((members_begins hu).append ('}' :: r)).1
      have ek : chars f (k ++ '"' :: (w1 ++ ':' :: (w2 ++ (t ++ (w3 ++ ',' :: (w4 ++ (u ++ '}' :: r))))))) = .ok (s, _) :=
        chars_complete hk (by simp at hf; omega)
      have ev := text_complete ht (f := f) (r := w3 ++ ',' :: (w4 ++ (u ++ '}' :: r))) (follow_ws hw3 (.inl rfl)) (by simp at hf; omega)
      rw [e, members]
      simp only [ek, Res.ok_bind, e1, e2, ev, e3, e4]
      rw [members_complete hu (by simp at hf; omega)]
      rfl
termination_by structural h

end

/-! ## Refusals -/

/-- What a reader may do: it ends, and if it refuses, then with `ValueError`, except for what the model leaves out
and for numbers out of range. -/
def Fine {α : Type} (s : Str) (x : Res α) : Prop := x ≠ .timeout ∧ ∀ e, x = .err e → e = .valueError ∨ e = .unmodelled ∧ Unusual s ∨ e = .invalidOperation ∧ Enormous s

theorem Unusual.append {s : Str} (a : Str) (h : Unusual s) : Unusual (a ++ s) := by
  obtain ⟨x, b, rfl, h⟩ := h
  exact ⟨a ++ x, b, by simp, h⟩

theorem Enormous.append {s : Str} (a : Str) (h : Enormous s) : Enormous (a ++ s) := by
  obtain ⟨x, ip, fr, ds, ex, e, b, rfl, h⟩ := h
  exact ⟨a ++ x, ip, fr, ds, ex, e, b, by simp, h⟩

theorem Fine.ok {α : Type} {s : Str} (a : α) : Fine s (Res.ok a) := ⟨by simp, by intro e h; cases h⟩

theorem Fine.value {α : Type} {s : Str} : Fine s (Res.err .valueError : Res α) := ⟨by simp, by intro e h; cases h; exact .inl rfl⟩

theorem Fine.unmodelled {α : Type} {s : Str} (h : Unusual s) : Fine s (Res.err .unmodelled : Res α) :=
  ⟨by simp, by intro e h'; cases h'; exact .inr (.inl ⟨rfl, h⟩)⟩

theorem Fine.enormous {α : Type} {s : Str} (h : Enormous s) : Fine s (Res.err .invalidOperation : Res α) :=
  ⟨by simp, by intro e h'; cases h'; exact .inr (.inr ⟨rfl, h⟩)⟩

theorem Fine.append {α : Type} {s : Str} {x : Res α} (a : Str) (h : Fine s x) : Fine (a ++ s) x :=
  ⟨h.1, fun e he => (h.2 e he).imp id (Or.imp (fun h => ⟨h.1, h.2.append a⟩) fun h => ⟨h.1, h.2.append a⟩)⟩

theorem Fine.bind {α β : Type} {s : Str} {x : Res α} {g : α → Res β} (h : Fine s x) (hg : ∀ a, x = .ok a → Fine s (g a)) : Fine s (x >>= g) := by
  cases x with
  | ok a => exact hg a rfl
  | err e => exact ⟨(by intro h'; cases h'), fun e' he => h.2 e' (by cases he; rfl)⟩
  | timeout => exact absurd rfl h.1

theorem number_fine (s : Str) : Fine s (number s) := by
  unfold number
  have hs : ∃ pre, s = pre ++ (sign s).2 := by
    unfold sign; split
    · exact ⟨['-'], rfl⟩
    · exact ⟨[], rfl⟩
  obtain ⟨pre, e0⟩ := hs
  generalize sign s = sg at e0
  obtain ⟨neg, s1⟩ := sg
  simp only at e0 ⊢
  refine Fine.bind ?_ ?_
  · unfold intPart
    repeat' split
    · exact .value
    · exact .ok _
    · exact .ok _
    · exact .value
  · rintro ⟨ip, s2⟩ hi
    obtain ⟨e1, hip⟩ := intPart_sound hi
    simp only
    generalize hf : fracPart s2 = fp
    obtain ⟨ds, s3⟩ := fp
    obtain ⟨fr, e2, hfr⟩ := fracPart_sound hf
    simp only
    generalize he : expPart s3 = ep
    obtain ⟨e, s4⟩ := ep
    obtain ⟨ex, e3, hex⟩ := expPart_sound he
    simp only
    split
    · split
      · exact .value
      · exact .ok _
    · next hc =>
      split
      · next hl =>
        refine .enormous ?_
        rw [e0, e1, e2, e3]
        refine ⟨pre, ip, fr, ds, ex, e, s4, by simp, hip, hfr, hex, ?_, ?_⟩
        · rw [frac_nil hfr, exp_nil hex]; exact hc
        · rw [← Props.fits_iff ip ds _ (.inl (int_ne hip)), hl]; simp
      · exact .ok _

theorem literal_fine (s : Str) : Fine s (literal s) := by
  unfold literal
  split
  all_goals first | exact .ok _ | exact number_fine _

theorem hex_surrogate {h : Str} {n : Nat} (hh : Hex4 h n) (h1 : 0xD800 ≤ n) (h2 : n ≤ 0xDFFF) (r : Str) :
    (h ++ r).head? = some 'd' ∨ (h ++ r).head? = some 'D' := by
  obtain ⟨a, b, c, d, w, x, y, z, ⟨hw, ha⟩, ⟨hx, _⟩, ⟨hy, _⟩, ⟨hz, _⟩, rfl, rfl⟩ := hh
  have : w = 13 := by omega
  subst this
  rcases ha with rfl | rfl
  · exact .inl rfl
  · exact .inr rfl

theorem escape_fine (s : Str) : Fine ('\\' :: s) (escape s) := by
  unfold escape
  split
  · exact .value
  · next e r' =>
    split
    · next he =>
      subst he
      split
      · exact .value
      · next n r1 h4 =>
        obtain ⟨x, rfl, hx⟩ := (hex4_iff ..).1 h4
        have un : 0xD800 ≤ n → n ≤ 0xDFFF → Unusual ('\\' :: 'u' :: (x ++ r1)) := fun h1 h2 => ⟨[], x ++ r1, rfl, hex_surrogate hx h1 h2 r1⟩
        split
        · next hn =>
          have un := un hn.1 (by omega)
          unfold lowHalf
          split
          · split
            · exact .value
            · split
              · exact .ok _
              · exact .unmodelled un
          · exact .unmodelled un
        · split
          · next hn => exact .unmodelled (un (by omega) hn.2)
          · exact .ok _
    · split
      · exact .ok _
      · exact .value

theorem chars_fine : ∀ (f : Nat) (s : Str), s.length + 1 ≤ f → Fine s (chars f s) := by
  intro f
  induction f with
  | zero => intro s h; omega
  | succ f ih =>
    intro s hf
    cases s with
    | nil => rw [chars]; exact .value
    | cons c s =>
      rw [chars]
      simp only [List.length_cons] at hf
      split
      · exact .ok _
      · split
        · next hc =>
          subst hc
          refine (escape_fine s).bind ?_
          rintro ⟨d, r⟩ h
          obtain ⟨t, rfl, ht⟩ := (escape_iff ..).1 h
          have : Fine ('\\' :: t ++ r) (chars f r) := (ih r (by simp at hf; omega)).append _
          refine this.bind ?_
          rintro ⟨t', r'⟩ _
          exact .ok _
        · split
          · exact .value
          · refine ((ih s (by omega)).append [c]).bind ?_
            rintro ⟨t', r'⟩ _
            exact .ok _

theorem fine : ∀ f : Nat, (∀ s, 2 * s.length + 1 ≤ f → Fine s (value f s)) ∧ (∀ s, 2 * s.length + 2 ≤ f → Fine s (elements f s)) ∧
    (∀ s d, 2 * s.length + 2 ≤ f → Fine s (members f s d)) := by
  intro f
  induction f with
  | zero => refine ⟨?_, ?_, ?_⟩ <;> intros <;> omega
  | succ f ih =>
    obtain ⟨ihv, ihe, ihm⟩ := ih
    have skip : ∀ r, (skipWs r).length ≤ r.length := by
      intro r; obtain ⟨w, e, _⟩ := skipWs_split r
      have := congrArg List.length e
      rw [List.length_append] at this; omega
    have lift : ∀ {α : Type} (pre : Str) {s r : Str} {x : Res α}, s = pre ++ r → Fine (skipWs r) x → Fine s x := by
      intro α pre s r x e h
      obtain ⟨w, e', _⟩ := skipWs_split r
      rw [e, e']
      exact (h.append w).append pre
    refine ⟨?_, ?_, ?_⟩
    · intro s hf
      cases s with
      | nil => rw [value]; exact .value
      | cons c s =>
        rw [value]
        simp only [List.length_cons] at hf
        have := skip s
        split
        · refine ((chars_fine f s (by omega)).append [c]).bind ?_
          rintro ⟨t, r⟩ _
          exact .ok _
        · split
          · split
            · exact .ok _
            · refine (lift [c] rfl (ihe _ (by omega))).bind ?_
              rintro ⟨t, r⟩ _
              exact .ok _
          · split
            · split
              · exact .ok _
              · refine (lift [c] rfl (ihm _ _ (by omega))).bind ?_
                rintro ⟨t, r⟩ _
                exact .ok _
            · exact literal_fine _
    · intro s hf
      rw [elements]
      refine (ihv s (by omega)).bind ?_
      rintro ⟨v, r⟩ h
      obtain ⟨t, rfl, ht⟩ := (sound f).1 _ _ _ h
      obtain ⟨c, t', rfl, _⟩ := text_begins ht
      simp only [List.length_append, List.length_cons] at hf
      simp only
      split
      · exact .ok _
      · next r2 hs =>
        have h1 := skip r
        rw [hs, List.length_cons] at h1
        have h2 := skip r2
        obtain ⟨w, e, _⟩ := skipWs_split r
        rw [hs] at e
        refine (lift (c :: t' ++ (w ++ [','])) (by rw [e]; simp) (ihe (skipWs r2) (by omega))).bind ?_
        rintro ⟨us, r3⟩ _
        exact .ok _
      · exact .value
    · intro s d hf
      unfold members
      split
      · next s1 =>
        simp only [List.length_cons] at hf
        refine ((chars_fine f s1 (by omega)).append ['"']).bind ?_
        rintro ⟨k, r1⟩ h1
        obtain ⟨b, rfl, hb⟩ := chars_sound h1
        simp only [List.length_append, List.length_cons] at hf
        have hl1 := skip r1
        obtain ⟨w1, e1, _⟩ := skipWs_split r1
        simp only
        split
        · next r2 hs1 =>
          rw [hs1] at hl1 e1
          rw [List.length_cons] at hl1
          have hl2 := skip r2
          refine (lift ('"' :: (b ++ '"' :: (w1 ++ [':']))) (by rw [e1]; simp) (ihv (skipWs r2) (by omega))).bind ?_
          rintro ⟨v, r3⟩ h2
          obtain ⟨t, e2, ht⟩ := (sound f).1 _ _ _ h2
          obtain ⟨w2, e3, _⟩ := skipWs_split r2
          obtain ⟨w3, e4, _⟩ := skipWs_split r3
          have hl3 : r3.length ≤ (skipWs r2).length := by rw [e2, List.length_append]; omega
          have hl4 := skip r3
          simp only
          split
          · exact .ok _
          · next r4 hs2 =>
            rw [hs2] at hl4 e4
            rw [List.length_cons] at hl4
            have hl5 := skip r4
            refine lift ('"' :: (b ++ '"' :: (w1 ++ ':' :: (w2 ++ (t ++ (w3 ++ [',']))))) ) ?_ (ihm (skipWs r4) _ (by omega))
            rw [e1, e3, e2, e4]; simp
          · exact .value
        · exact .value
      · exact .value

theorem loads_fine (s : Str) : Fine s (loads s) := by
  unfold loads
  obtain ⟨w, e, _⟩ := skipWs_split s
  have hl : (skipWs s).length ≤ s.length := by
    have := congrArg List.length e
    rw [List.length_append] at this; omega
  have h := ((fine (2 * s.length + 1)).1 (skipWs s) (by omega)).append w
  rw [← e] at h
  refine h.bind ?_
  rintro ⟨v, r⟩ _
  simp only
  split
  · exact .ok _
  · exact .value

theorem loads_iff (s : Str) (v : Val) : loads s = .ok v ↔ Document python s v := by
  constructor
  · intro h
    unfold loads at h
    obtain ⟨⟨v', r⟩, h1, h2⟩ := Res.bind_eq_ok.1 h
    simp only at h2
    split at h2
    · next hr =>
      cases h2
      obtain ⟨w, e, hw⟩ := skipWs_split s
      obtain ⟨w', e', hw'⟩ := skipWs_split r
      rw [hr] at e'
      obtain ⟨t, e2, ht⟩ := (sound _).1 _ _ _ h1
      refine ⟨w, t, w', hw, hw', ht, ?_⟩
      rw [e, e2, e']; simp
    · cases h2
  · rintro ⟨w, t, w', hw, hw', ht, rfl⟩
    have e1 : skipWs (w ++ (t ++ w')) = t ++ w' := skipWs_complete hw ((text_begins ht).append w').1
    have e2 : skipWs w' = [] := by
      have := skipWs_complete (r := []) hw' (by intro c hc; cases hc)
      simpa using this
    have fo : Follow w' := by
      intro c hc
      cases w' with
      | nil => cases hc
      | cons x w' =>
        simp at hc; subst hc
        rcases hw' x (by simp) with rfl | rfl | rfl | rfl <;> decide
    unfold loads
    rw [e1, text_complete ht fo (by simp; omega), Res.ok_bind]
    simp only [e2, if_true]

/-! ## Dialects -/

/-- The second dialect takes all the first takes. -/
def Wider (δ ε : Dialect) : Prop :=
  (δ.constants = true → ε.constants = true) ∧ (∀ n, within n δ.digits → within n ε.digits) ∧ (ε.ranged = true → δ.ranged = true)

theorem numeral_wider {δ ε : Dialect} (h : Wider δ ε) {t : Str} {v : Val} (ht : Numeral δ t v) : Numeral ε t v := by
  obtain ⟨neg, ip, fr, ds, ex, e, h1, h2, h3, h4, h5⟩ := ht
  refine ⟨neg, ip, fr, ds, ex, e, h1, h2, h3, h4, ?_⟩
  rcases h5 with ⟨a, b, c, d⟩ | ⟨a, b, c⟩
  · exact .inl ⟨a, b, h.2.1 _ c, d⟩
  · exact .inr ⟨a, fun h' => b (h.2.2 h'), c⟩

mutual
theorem text_wider {δ ε : Dialect} (h : Wider δ ε) {t : Str} {v : Val} (ht : Text δ t v) : Text ε t v := by
  match ht with
  | .null => exact .null
  | .true => exact .true
  | .false => exact .false
  | .nan hc => exact .nan (h.1 hc)
  | .inf hc => exact .inf (h.1 hc)
  | .negInf hc => exact .negInf (h.1 hc)
  | .num hn => exact .num (numeral_wider h hn)
  | .str hs => exact .str hs
  | .noElements hw => exact .noElements hw
  | .arr hw he => exact .arr hw (elements_wider h he)
  | .noMembers hw => exact .noMembers hw
  | .obj hw hm => exact .obj hw (members_wider h hm)
termination_by structural ht

theorem elements_wider {δ ε : Dialect} (h : Wider δ ε) {t : Str} {vs : List Val} (ht : Elements δ t vs) : Elements ε t vs := by
  match ht with
  | .one a b => exact .one (text_wider h a) b
  | .more a b c d => exact .more (text_wider h a) b c (elements_wider h d)
termination_by structural ht

theorem members_wider {δ ε : Dialect} (h : Wider δ ε) {t : Str} {ms : List (Str × Val)} (ht : Members δ t ms) : Members ε t ms := by
  match ht with
  | .one a b c d e => exact .one a b c (text_wider h d) e
  | .more a b c d e f g => exact .more a b c (text_wider h d) e f (members_wider h g)
termination_by structural ht
end

theorem document_wider {δ ε : Dialect} (h : Wider δ ε) {s : Str} {v : Val} : Document δ s v → Document ε s v := by
  rintro ⟨w, t, w', h1, h2, h3, h4⟩
  exact ⟨w, t, w', h1, h2, text_wider h h3, h4⟩

theorem decimal_lt {ds : Str} (h : ∀ c ∈ ds, '0' ≤ c ∧ c ≤ '9') : decimal ds < 10 ^ ds.length := by
  induction ds with
  | nil => simp [decimal]
  | cons c ds ih =>
    have h1 := ih fun c hc => h c (by simp [hc])
    have h2 : c.toNat ≤ 57 := (h c (by simp)).2
    have h3 : c.toNat - '0'.toNat ≤ 9 := by
      have : '0'.toNat = 48 := rfl
      omega
    rw [decimal, List.length_cons, Nat.pow_succ]
    have := Nat.mul_le_mul_right (10 ^ ds.length) h3
    omega

theorem ShortDigits.part {n : Nat} {a s b : Str} (h : ShortDigits n (a ++ s ++ b)) : ShortDigits n s := by
  intro x ds y e hd
  exact h (a ++ x) ds (y ++ b) (by rw [e]; simp) hd

theorem int_digits {ip : Str} (h : IntPart ip) : Digits ip := by
  rcases h with rfl | ⟨h, _⟩
  · exact ⟨by simp, by decide⟩
  · exact h

theorem numeral_short {t : Str} {v : Val} (h : ShortDigits 17 t) (ht : Numeral rfc8259 t v) : Numeral (limited 17) t v := by
  obtain ⟨neg, ip, fr, ds, ex, e, h1, h2, h3, rfl, h5⟩ := ht
  refine ⟨neg, ip, fr, ds, ex, e, h1, h2, h3, rfl, ?_⟩
  rcases h5 with ⟨a, b, c, d⟩ | ⟨a, b, c⟩
  · refine .inl ⟨a, b, ?_, d⟩
    exact h (if neg then ['-'] else []) ip (fr ++ ex) (by simp) (int_digits h1)
  · refine .inr ⟨a, ?_, c⟩
    have hb : (e.getD 0).natAbs ≤ 10 ^ 17 := ?_
    · intro _
      have hi : ip.length ≤ 17 := h (if neg then ['-'] else []) ip (fr ++ ex) (by simp) (int_digits h1)
      have hf : ds.length ≤ 17 := by
        rcases h2 with ⟨_, rfl⟩ | ⟨rfl, hd⟩
        · simp
        · exact h ((if neg then ['-'] else []) ++ ip ++ ['.']) ds ex (by simp) hd
      refine ⟨by omega, by omega, fun z c r hz _ => ?_⟩
      have := congrArg List.length hz
      simp at this
      omega
    have key : ∀ pre dd, Digits dd → ex = pre ++ dd → decimal dd ≤ 10 ^ 17 := by
      intro pre dd hd e1
      have hl : dd.length ≤ 17 := h ((if neg then ['-'] else []) ++ ip ++ fr ++ pre) dd [] (by rw [e1]; simp) hd
      exact Nat.le_trans (Nat.le_of_lt (decimal_lt hd.2)) (Nat.pow_le_pow_right (by decide) hl)
    rcases h3 with ⟨rfl, rfl⟩ | ⟨x, dd, _, hd, ⟨e1 | e1, rfl⟩ | ⟨e1, rfl⟩⟩
    · simp
    · simpa using key [x] dd hd e1
    · simpa using key [x, '+'] dd hd e1
    · simpa using key [x, '-'] dd hd e1

mutual
theorem text_short {t : Str} {v : Val} (ht : Text rfc8259 t v) (h : ShortDigits 17 t) : Text (limited 17) t v := by
  match ht with
  | .null => exact .null
  | .true => exact .true
  | .false => exact .false
  | .num hn => exact .num (numeral_short h hn)
  | .str hs => exact .str hs
  | .noElements hw => exact .noElements hw
  | .arr (w := w) (t := t) hw he => exact .arr hw (elements_short he (ShortDigits.part (a := '[' :: w) (b := [']']) (by simpa using h)))
  | .noMembers hw => exact .noMembers hw
  | .obj (w := w) (t := t) hw hm => exact .obj hw (members_short hm (ShortDigits.part (a := '{' :: w) (b := ['}']) (by simpa using h)))
termination_by structural ht

theorem elements_short {t : Str} {vs : List Val} (ht : Elements rfc8259 t vs) (h : ShortDigits 17 t) : Elements (limited 17) t vs := by
  match ht with
  | .one (w := w) a b => exact .one (text_short a (ShortDigits.part (a := []) (b := w) h)) b
  | .more (t := t) (w := w) (w' := w') (u := u) a b c d =>
    exact .more (text_short a (ShortDigits.part (a := []) (b := w ++ ',' :: (w' ++ u)) h)) b c
      (elements_short d (ShortDigits.part (a := t ++ (w ++ ',' :: w')) (b := []) (by simpa using h)))
termination_by structural ht

theorem members_short {t : Str} {ms : List (Str × Val)} (ht : Members rfc8259 t ms) (h : ShortDigits 17 t) : Members (limited 17) t ms := by
  match ht with
  | .one (k := k) (w1 := w1) (w2 := w2) (t := t) (w3 := w3) a b c d e =>
    exact .one a b c (text_short d (ShortDigits.part (a := '"' :: (k ++ '"' :: (w1 ++ ':' :: w2))) (b := w3) (by simpa using h))) e
  | .more (k := k) (w1 := w1) (w2 := w2) (t := t) (w3 := w3) (w4 := w4) (u := u) a b c d e f g =>
    exact .more a b c (text_short d (ShortDigits.part (a := '"' :: (k ++ '"' :: (w1 ++ ':' :: w2))) (b := w3 ++ ',' :: (w4 ++ u)) (by simpa using h))) e f
      (members_short g (ShortDigits.part (a := '"' :: (k ++ '"' :: (w1 ++ ':' :: (w2 ++ (t ++ (w3 ++ ',' :: w4)))))) (b := []) (by simpa using h)))
termination_by structural ht
end

theorem NoConstants.part {a s b : Str} (h : NoConstants (a ++ s ++ b)) : NoConstants s := by
  have : s <:+: a ++ s ++ b := ⟨a, b, rfl⟩
  exact ⟨fun h1 => h.1 (h1.trans this), fun h1 => h.2 (h1.trans this)⟩

mutual
theorem text_strict {δ : Dialect} {t : Str} {v : Val} (ht : Text δ t v) (h : NoConstants t) : Text rfc8259 t v := by
  match ht with
  | .null => exact .null
  | .true => exact .true
  | .false => exact .false
  | .nan _ => exact absurd ⟨[], [], rfl⟩ h.1
  | .inf _ => exact absurd ⟨[], [], rfl⟩ h.2
  | .negInf _ => exact absurd ⟨['-'], [], rfl⟩ h.2
  | .num (v := v) hn =>
    refine .num ?_
    obtain ⟨neg, ip, fr, ds, ex, e, h1, h2, h3, h4, h5⟩ := hn
    refine ⟨neg, ip, fr, ds, ex, e, h1, h2, h3, h4, ?_⟩
    rcases h5 with ⟨a, b, c, d⟩ | ⟨a, b, c⟩
    · exact .inl ⟨a, b, trivial, d⟩
    · exact .inr ⟨a, (by intro h; cases h), c⟩
  | .str hs => exact .str hs
  | .noElements hw => exact .noElements hw
  | .arr (w := w) (t := t) hw he => exact .arr hw (elements_strict he (NoConstants.part (a := '[' :: w) (b := [']']) (by simpa using h)))
  | .noMembers hw => exact .noMembers hw
  | .obj (w := w) (t := t) hw hm => exact .obj hw (members_strict hm (NoConstants.part (a := '{' :: w) (b := ['}']) (by simpa using h)))
termination_by structural ht

theorem elements_strict {δ : Dialect} {t : Str} {vs : List Val} (ht : Elements δ t vs) (h : NoConstants t) : Elements rfc8259 t vs := by
  match ht with
  | .one (w := w) a b => exact .one (text_strict a (NoConstants.part (a := []) (b := w) h)) b
  | .more (t := t) (w := w) (w' := w') (u := u) a b c d =>
    exact .more (text_strict a (NoConstants.part (a := []) (b := w ++ ',' :: (w' ++ u)) h)) b c
      (elements_strict d (NoConstants.part (a := t ++ (w ++ ',' :: w')) (b := []) (by simpa using h)))
termination_by structural ht

theorem members_strict {δ : Dialect} {t : Str} {ms : List (Str × Val)} (ht : Members δ t ms) (h : NoConstants t) : Members rfc8259 t ms := by
  match ht with
  | .one (k := k) (w1 := w1) (w2 := w2) (t := t) (w3 := w3) a b c d e =>
    exact .one a b c (text_strict d (NoConstants.part (a := '"' :: (k ++ '"' :: (w1 ++ ':' :: w2))) (b := w3) (by simpa using h))) e
  | .more (k := k) (w1 := w1) (w2 := w2) (t := t) (w3 := w3) (w4 := w4) (u := u) a b c d e f g =>
    exact .more a b c (text_strict d (NoConstants.part (a := '"' :: (k ++ '"' :: (w1 ++ ':' :: w2))) (b := w3 ++ ',' :: (w4 ++ u)) (by simpa using h))) e f
      (members_strict g (NoConstants.part (a := '"' :: (k ++ '"' :: (w1 ++ ':' :: (w2 ++ (t ++ (w3 ++ ',' :: w4)))))) (b := []) (by simpa using h)))
termination_by structural ht
end

/-! ## The data -/

theorem collect_mem {ms : List (Str × Val)} {p : Str × Val} (h : p ∈ collect ms) : p ∈ ms := by
  have last : ∀ (ms : List (Str × Val)) (k : Str) (v : Val), lastOf k ms = some v → (k, v) ∈ ms := by
    intro ms
    induction ms with
    | nil => intro k v h; cases h
    | cons m ms ih =>
      obtain ⟨k', v'⟩ := m
      intro k v h
      rw [lastOf] at h
      cases hl : lastOf k ms with
      | some x => rw [hl] at h; cases h; exact List.mem_cons_of_mem _ (ih _ _ hl)
      | none =>
        rw [hl] at h
        simp only [Option.none_or] at h
        split at h
        · next e => cases h; subst e; exact List.mem_cons_self ..
        · cases h
  simp only [collect, List.mem_filterMap, Option.map_eq_some_iff] at h
  obtain ⟨k, _, v, hv, rfl⟩ := h
  exact last _ _ _ hv

theorem collect_nodup (ms : List (Str × Val)) : ((collect ms).map Prod.fst).Nodup := by
  rw [← collect_eq, putAll_keys]; exact nodup_eraseDups _

mutual
theorem text_exact {δ : Dialect} (hδ : δ.constants = false) {t : Str} {v : Val} (ht : Text δ t v) : Exact v := by
  match ht with
  | .null => exact .null
  | .true => exact .bool _
  | .false => exact .bool _
  | .nan hc => rw [hδ] at hc; cases hc
  | .inf hc => rw [hδ] at hc; cases hc
  | .negInf hc => rw [hδ] at hc; cases hc
  | .num hn =>
    obtain ⟨_, _, _, _, _, _, _, _, _, _, ⟨_, _, _, rfl⟩ | ⟨_, _, rfl⟩⟩ := hn
    · exact .int _
    · exact .dec _
  | .str hs => exact .str _
  | .noElements hw => exact .list (by simp)
  | .arr hw he => exact .list (elements_exact hδ he)
  | .noMembers hw => exact .dict (by simp) (by simp)
  | .obj hw hm => exact .dict (collect_nodup _) fun p hp => members_exact hδ hm p (collect_mem hp)
termination_by structural ht

theorem elements_exact {δ : Dialect} (hδ : δ.constants = false) {t : Str} {vs : List Val} (ht : Elements δ t vs) : ∀ v ∈ vs, Exact v := by
  match ht with
  | .one a b => have := text_exact hδ a; intro v hv; simp at hv; rw [hv]; exact this
  | .more a b c d =>
    have h1 := text_exact hδ a
    have h2 := elements_exact hδ d
    intro v hv
    rcases List.mem_cons.1 hv with rfl | hv
    · exact h1
    · exact h2 v hv
termination_by structural ht

theorem members_exact {δ : Dialect} (hδ : δ.constants = false) {t : Str} {ms : List (Str × Val)} (ht : Members δ t ms) : ∀ p ∈ ms, Exact p.2 := by
  match ht with
  | .one a b c d e => have := text_exact hδ d; intro v hv; simp at hv; rw [hv]; exact this
  | .more a b c d e f g =>
    have h1 := text_exact hδ d
    have h2 := members_exact hδ g
    intro v hv
    rcases List.mem_cons.1 hv with rfl | hv
    · exact h1
    · exact h2 v hv
termination_by structural ht
end

end Verif.JsonText
