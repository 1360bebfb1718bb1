import Verif.Proofs.Iso
/-! # Lemmas on ISO 8601 times -/

namespace Verif.Iso
open Verif Re

variable {u : UDB} {c c' : List (Nat × Str)} {s t : Str}

/-! ## Uniqueness of times -/

theorem two_ne_colon {hi : Char} {T : Str} {n : Nat} (hh : hi ≤ '9') (h : IsTwo u hi T n) : ':' ∉ T := by
  obtain ⟨a, b, x, rfl, h0, h1, hb, rfl⟩ := h
  have h2 : b ≠ ':' := digit_ne hb (by decide) (by decide)
  have h3 : a ≠ ':' := by
    rintro rfl
    exact absurd (char_le.1 (show ':' ≤ '9' from Char.le_trans h1 hh)) (by decide)
  simp [Ne.symm h2, Ne.symm h3]

theorem sep_opt (k : Bool) : Opt (· = ':') (if k then [':'] else []) := by
  cases k
  · exact .inl rfl
  · exact .inr ⟨_, rfl, rfl⟩

theorem sep_inj {k k' : Bool} (h : (if k then [':'] else []) = (if k' then [':'] else [] : Str)) : k = k' := by
  cases k <;> cases k' <;> simp_all

theorem clock_unique {C C' R R' : Str} {h m x h' m' x' : Nat} {k1 k2 k1' k2' : Bool} (e : C ++ R = C' ++ R')
    (h1 : ClockText u C h m x k1 k2) (h2 : ClockText u C' h' m' x' k1' k2') :
    h = h' ∧ m = m' ∧ x = x' ∧ k1 = k1' ∧ k2 = k2' ∧ R = R' := by
  obtain ⟨H, M, S, rfl, hH, hM, hS⟩ := h1
  obtain ⟨H', M', S', rfl, hH', hM', hS'⟩ := h2
  simp only [List.append_assoc] at e
  obtain ⟨rfl, e1⟩ := two_unique e hH hH'
  obtain ⟨f1, e2⟩ := opt_unique e1 (sep_opt k1) (sep_opt k1') (by rintro _ rfl; exact two_head hM (by decide))
    (by rintro _ rfl; exact two_head hM' (by decide))
  obtain ⟨rfl, e3⟩ := two_unique e2 hM hM'
  obtain ⟨f2, e4⟩ := opt_unique e3 (sep_opt k2) (sep_opt k2') (by rintro _ rfl; exact two_head hS (by decide))
    (by rintro _ rfl; exact two_head hS' (by decide))
  obtain ⟨rfl, e5⟩ := two_unique e4 hS hS'
  exact ⟨rfl, rfl, rfl, sep_inj f1, sep_inj f2, e5⟩

theorem clock_not_leap {C C' R R' : Str} {h m x : Nat} {k1 k2 : Bool} (e : C ++ R = C' ++ R')
    (h1 : ClockText u C h m x k1 k2) (h2 : LeapText C') : False := by
  obtain ⟨H, M, S, rfl, ⟨a, b, _, rfl, _⟩, ⟨a2, b2, _, rfl, c1, c2, _⟩, ⟨a3, b3, _, rfl, d1, d2, _⟩⟩ := h1
  have no6 : ¬ ('6' ≤ '5') := by decide
  have nocolon : ¬ (':' ≤ '5') := by decide
  rcases h2 with rfl | rfl <;> cases k1 <;> cases k2 <;> simp at e
  all_goals first
    | (obtain ⟨_, _, rfl, _⟩ := e; exact nocolon c2)
    | (obtain ⟨_, _, _, _, rfl, _⟩ := e; first | exact nocolon d2 | exact no6 d2)

theorem span_unique {p : Char → Bool} {A A' R R' : Str} (e : A ++ R = A' ++ R') (hA : ∀ c ∈ A, p c = true)
    (hA' : ∀ c ∈ A', p c = true) (hR : ∀ c r, R = c :: r → p c = false) (hR' : ∀ c r, R' = c :: r → p c = false) :
    A = A' ∧ R = R' := by
  induction A generalizing A' with
  | nil =>
    cases A' with
    | nil => exact ⟨rfl, e⟩
    | cons a A' =>
      have := hR a _ e
      rw [hA' a (by simp)] at this
      cases this
  | cons a A ih =>
    cases A' with
    | nil =>
      have := hR' a _ e.symm
      rw [hA a (by simp)] at this
      cases this
    | cons b A' =>
      simp at e
      obtain ⟨rfl, e⟩ := e
      obtain ⟨rfl, e2⟩ := ih e (fun c h => hA c (by simp [h])) (fun c h => hA' c (by simp [h]))
      exact ⟨rfl, e2⟩

theorem zone_head {Z N : Str} {off : Option Int} (h : ZoneText u Z off) (hN : End N) (a : Char) (r : Str)
    (e : Z ++ N = a :: r) : u.isDigit a = false ∧ a ≠ '.' := by
  have mem : a = 'z' ∨ a = 'Z' ∨ a = '+' ∨ a = '-' ∨ a = '\n' := by
    rcases h with ⟨rfl, _⟩ | ⟨rfl | rfl, _⟩ | ⟨sg, H, M, _, _, hs, rfl, _⟩
    · rcases hN with rfl | rfl <;> simp at e
      simp [← e.1]
    · simp at e; simp [← e.1]
    · simp at e; simp [← e.1]
    · simp at e
      rw [← e.1]
      rcases hs with rfl | rfl <;> simp
  rcases mem with rfl | rfl | rfl | rfl | rfl <;> exact ⟨isDigit_not (by decide) (by decide), by decide⟩

theorem frac_unique {F F' R R' : Str} {fr fr' : Option Str} (e : F ++ R = F' ++ R') (h : FracText u F fr)
    (h' : FracText u F' fr') (hR : ∀ a r, R = a :: r → u.isDigit a = false ∧ a ≠ '.')
    (hR' : ∀ a r, R' = a :: r → u.isDigit a = false ∧ a ≠ '.') : fr = fr' ∧ R = R' := by
  rcases h with ⟨rfl, rfl⟩ | ⟨ds, h1, h2, rfl, rfl⟩ <;> rcases h' with ⟨rfl, rfl⟩ | ⟨ds', h1', h2', rfl, rfl⟩
  · exact ⟨rfl, e⟩
  · exact absurd rfl (hR _ _ e).2
  · exact absurd rfl (hR' _ _ e.symm).2
  · simp at e
    obtain ⟨rfl, e2⟩ := span_unique e h2 h2' (fun a r h => (hR a r h).1) (fun a r h => (hR' a r h).1)
    exact ⟨rfl, e2⟩

theorem digits2_unique {T T' R R' : Str} {n n' : Nat} (h : T ++ R = T' ++ R') (h1 : IsDigits2 u T n) (h2 : IsDigits2 u T' n') :
    n = n' ∧ R = R' := by
  obtain ⟨a, b, x, y, rfl, ha, hb, rfl⟩ := h1
  obtain ⟨a', b', x', y', rfl, ha', hb', rfl⟩ := h2
  simp at h
  obtain ⟨rfl, rfl, rfl⟩ := h
  simp_all

theorem zone_unique {Z Z' N N' : Str} {off off' : Option Int} (e : Z ++ N = Z' ++ N') (h : ZoneText u Z off)
    (h' : ZoneText u Z' off') (hN : End N) (hN' : End N') : off = off' ∧ N = N' := by
  have nosg : ∀ sg : Char, sg = '+' ∨ sg = '-' → sg ≠ 'z' ∧ sg ≠ 'Z' ∧ sg ≠ '\n' := by
    rintro _ (rfl | rfl) <;> decide
  rcases h with ⟨rfl, rfl⟩ | ⟨hz, rfl⟩ | ⟨sg, H, M, a, b, hs, rfl, hH, hM, rfl⟩ <;>
    rcases h' with ⟨rfl, rfl⟩ | ⟨hz', rfl⟩ | ⟨sg', H', M', a', b', hs', rfl, hH', hM', rfl⟩
  · exact ⟨rfl, e⟩
  · rcases hz' with rfl | rfl <;> rcases hN with rfl | rfl <;> simp at e
  · rcases hN with rfl | rfl <;> simp at e <;> exact absurd e.1.symm (nosg _ hs').2.2
  · rcases hz with rfl | rfl <;> rcases hN' with rfl | rfl <;> simp at e
  · rcases hz with rfl | rfl <;> rcases hz' with rfl | rfl <;> simp at e <;> exact ⟨rfl, e⟩
  · rcases hz with rfl | rfl <;> simp at e
    · exact absurd e.1.symm (nosg _ hs').1
    · exact absurd e.1.symm (nosg _ hs').2.1
  · rcases hN' with rfl | rfl <;> simp at e <;> exact absurd e.1 (nosg _ hs).2.2
  · rcases hz' with rfl | rfl <;> simp at e
    · exact absurd e.1 (nosg _ hs).1
    · exact absurd e.1 (nosg _ hs).2.1
  · simp at e
    obtain ⟨rfl, e⟩ := e
    obtain ⟨rfl, e1⟩ := digits2_unique e hH hH'
    simp at e1
    obtain ⟨rfl, e2⟩ := digits2_unique e1 hM hM'
    exact ⟨rfl, e2⟩

theorem time_unique {N N' : Str} {h m x h' m' x' : Nat} {k1 k2 k1' k2' : Bool} {fr fr' : Option Str} {off off' : Option Int}
    (h1 : TimeText u s N h m x k1 k2 fr off) (h2 : TimeText u s N' h' m' x' k1' k2' fr' off') (hN : End N) (hN' : End N') :
    h = h' ∧ m = m' ∧ x = x' ∧ k1 = k1' ∧ k2 = k2' ∧ fr = fr' ∧ off = off' ∧ N = N' := by
  obtain ⟨C, F, Z, rfl, hC, hF, hZ⟩ := h1
  obtain ⟨C', F', Z', e, hC', hF', hZ'⟩ := h2
  obtain ⟨rfl, rfl, rfl, rfl, rfl, e1⟩ := clock_unique e hC hC'
  obtain ⟨rfl, e2⟩ := frac_unique e1 hF hF' (zone_head hZ hN) (zone_head hZ' hN')
  obtain ⟨rfl, e3⟩ := zone_unique e2 hZ hZ' hN hN'
  exact ⟨rfl, rfl, rfl, rfl, rfl, rfl, rfl, e3⟩

theorem time_not_leap {N N' : Str} {h m x : Nat} {k1 k2 : Bool} {fr : Option Str} {off : Option Int}
    (h1 : TimeText u s N h m x k1 k2 fr off) (h2 : LeapTimeText u s N') : False := by
  obtain ⟨C, F, Z, rfl, hC, hF, hZ⟩ := h1
  obtain ⟨C', F', Z', _, _, e, hC', hF', hZ'⟩ := h2
  exact clock_not_leap e hC hC'

/-- How a time begins. -/
def startsClock (R : Str) : Prop := ∃ a r, R = a :: r ∧ '0' ≤ a ∧ a ≤ '2'

theorem time_starts {N : Str} {h m x : Nat} {k1 k2 : Bool} {fr : Option Str} {off : Option Int}
    (h1 : TimeText u s N h m x k1 k2 fr off) : startsClock s := by
  obtain ⟨C, F, Z, rfl, ⟨H, M, S, rfl, ⟨a, b, _, rfl, c1, c2, _⟩, hM, hS⟩, hF, hZ⟩ := h1
  exact ⟨a, _, rfl, c1, c2⟩

theorem leap_starts {N : Str} (h1 : LeapTimeText u s N) : startsClock s := by
  obtain ⟨C, F, Z, _, _, rfl, rfl | rfl, hF, hZ⟩ := h1
  · exact ⟨'2', _, rfl, by decide, by decide⟩
  · exact ⟨'2', _, rfl, by decide, by decide⟩

theorem dateSep_unique {R R' : Str} {y m d y' m' d' : Nat} (h1 : DateSepText u s R y m d) (h2 : DateSepText u s R' y' m' d')
    (hR : startsClock R) (hR' : startsClock R') : y = y' ∧ m = m' ∧ d = d' ∧ R = R' := by
  obtain ⟨T, hD, hT⟩ := h1
  obtain ⟨T', hD', hT'⟩ := h2
  obtain ⟨rfl, rfl, rfl, e⟩ := dateText_unique hD hD'
  have no : ∀ R, startsClock R → ∀ c, (c = 't' ∨ c = 'T' ∨ u.space c = true) → ∀ r, R ≠ c :: r := by
    rintro R ⟨a, r, rfl, h0, h2⟩ c hc r' h
    simp at h
    obtain ⟨rfl, rfl⟩ := h
    rw [char_le] at h0 h2
    have e0 : '0'.toNat = 48 := rfl
    have e2 : '2'.toNat = 50 := rfl
    rcases hc with rfl | rfl | hc
    · exact absurd h2 (by decide)
    · exact absurd h2 (by decide)
    · rw [u.space_ascii a (by omega)] at hc
      simp at hc
      omega
  obtain ⟨_, e2⟩ := opt_unique e hT hT' (no R hR) (no R' hR')
  exact ⟨rfl, rfl, rfl, e2⟩

/-! ## Cutting -/

theorem strSplit_no {a : Char} {T : Str} (h : a ∉ T) : strSplit a T = [T] := by
  induction T with
  | nil => rfl
  | cons b T ih =>
    simp at h
    rw [strSplit, if_neg (Ne.symm h.1), ih h.2]

theorem strSplit_sep {a : Char} {T R : Str} (h : a ∉ T) : strSplit a (T ++ a :: R) = T :: strSplit a R := by
  induction T with
  | nil => simp [strSplit]
  | cons b T ih =>
    simp at h
    simp only [List.cons_append]
    rw [strSplit, if_neg (Ne.symm h.1), ih h.2]

theorem intText_short {T : Str} (h : T.length ≤ 4300) : ∃ n, u.intText T = .ok n :=
  ⟨_, by rw [UDB.intText, if_neg (by omega)]⟩

theorem two_length {hi : Char} {T : Str} {n : Nat} (h : IsTwo u hi T n) : T.length = 2 := by
  obtain ⟨a, b, _, rfl, _⟩ := h; rfl

theorem cut_same {C : Str} {h m x : Nat} {k : Bool} (hc : ClockText u C h m x k k) :
    ∃ H M S, cut C = [H, M, S] ∧ u.intText H = .ok h ∧ u.intText M = .ok m ∧ u.intText S = .ok x := by
  obtain ⟨H, M, S, rfl, hH, hM, hS⟩ := hc
  refine ⟨H, M, S, ?_, intText_two hH (by decide), intText_two hM (by decide), intText_two hS (by decide)⟩
  have nH := two_ne_colon (by decide) hH
  have nM := two_ne_colon (by decide) hM
  have nS := two_ne_colon (by decide) hS
  cases k
  · simp only [Bool.false_eq_true, if_false, List.nil_append]
    rw [cut, if_neg (by simp [nH, nM, nS])]
    obtain ⟨a, b, _, rfl, _⟩ := hH
    obtain ⟨a, b, _, rfl, _⟩ := hM
    obtain ⟨a, b, _, rfl, _⟩ := hS
    simp [pairs]
  · simp only [if_true, List.singleton_append]
    rw [cut, if_pos (by simp), strSplit_sep nH, strSplit_sep nM, strSplit_no nS]

theorem cut_mixed {C : Str} {h m x : Nat} {k1 k2 : Bool} (hc : ClockText u C h m x k1 k2) (hk : k1 ≠ k2) :
    ∃ A B a b, cut C = [A, B] ∧ u.intText A = .ok a ∧ u.intText B = .ok b := by
  obtain ⟨H, M, S, rfl, hH, hM, hS⟩ := hc
  have nH := two_ne_colon (by decide) hH
  have nM := two_ne_colon (by decide) hM
  have nS := two_ne_colon (by decide) hS
  have lH := two_length hH
  have lM := two_length hM
  have lS := two_length hS
  cases k1 <;> cases k2
  · simp at hk
  · obtain ⟨a, ha⟩ := intText_short (u := u) (T := H ++ M) (by simp; omega)
    refine ⟨H ++ M, S, a, _, ?_, ha, intText_two hS (by decide)⟩
    simp only [Bool.false_eq_true, if_false, List.nil_append, if_true, List.singleton_append]
    rw [cut, if_pos (by simp), ← List.append_assoc, strSplit_sep (by simp [nH, nM]), strSplit_no nS]
  · obtain ⟨a, ha⟩ := intText_short (u := u) (T := M ++ S) (by simp; omega)
    refine ⟨H, M ++ S, _, a, ?_, intText_two hH (by decide), ha⟩
    simp only [Bool.false_eq_true, if_false, List.nil_append, if_true, List.singleton_append]
    rw [cut, if_pos (by simp), strSplit_sep nH, strSplit_no (by simp [nM, nS])]
  · simp at hk

theorem cut_leap {C : Str} (hc : LeapText C) : cut C = [c!"23", c!"59", c!"60"] := by
  rcases hc with rfl | rfl <;> decide

theorem intText_leap : u.intText c!"23" = .ok 23 ∧ u.intText c!"59" = .ok 59 ∧ u.intText c!"60" = .ok 60 := by
  have d : ∀ a : Char, '0' ≤ a → a ≤ '9' → u.digit a = some (a.toNat - 48) := fun a h0 h1 => digit_of_range h0 h1 (by decide)
  refine ⟨?_, ?_, ?_⟩ <;> simp [UDB.intText, UDB.natOf, d _ (show '0' ≤ '2' by decide) (by decide),
    d _ (show '0' ≤ '3' by decide) (by decide), d _ (show '0' ≤ '5' by decide) (by decide),
    d _ (show '0' ≤ '9' by decide) (by decide), d _ (show '0' ≤ '6' by decide) (by decide),
    d _ (show '0' ≤ '0' by decide) (by decide)]

open Classical in
theorem zone_eq {Z : Str} {off : Option Int} {z : Option Str} (hz : z.getD [] = Z) (h : ZoneText u Z off) :
    zone u z = if ZoneOk off then .ok off else .err .valueError := by
  unfold zone
  rw [hz]
  rcases h with ⟨rfl, rfl⟩ | ⟨hz, rfl⟩ | ⟨sg, H, M, a, b, hs, rfl, hH, hM, rfl⟩
  · simp [ZoneOk]
  · rw [if_pos (by simp [ZoneOk])]
    rcases hz with rfl | rfl <;> simp
  · simp only
    have nH : ':' ∉ H := by
      obtain ⟨a, b, x, y, rfl, ha, hb, rfl⟩ := hH
      simp [(digit_ne ha (b := ':') (by decide) (by decide)).symm, (digit_ne hb (b := ':') (by decide) (by decide)).symm]
    have nM : ':' ∉ M := by
      obtain ⟨a, b, x, y, rfl, ha, hb, rfl⟩ := hM
      simp [(digit_ne ha (b := ':') (by decide) (by decide)).symm, (digit_ne hb (b := ':') (by decide) (by decide)).symm]
    rw [if_neg (by rintro ⟨rfl | rfl, _⟩ <;> simp at hs), strSplit_sep nH, strSplit_no nM]
    simp only [intText_digits2 hH, intText_digits2 hM, Res.ok_bind]
    generalize (if sg = '+' then (a : Int) * 60 + b else -((a : Int) * 60 + b)) = t
    unfold mkZone
    by_cases ht : -1440 < t ∧ t < 1440
    · rw [if_pos ht, if_pos (by simpa [ZoneOk] using ht)]; rfl
    · rw [if_neg ht, if_neg (by simpa [ZoneOk] using ht)]; rfl

/-! ## Captured groups -/

theorem group_cap6 {Z F : Str} {c : List (Nat × Str)} (h6 : ∀ p ∈ c, p.1 < 5) :
    (group (cap 6 Z ++ (cap 5 F ++ c), t) 6).getD [] = Z := by
  have hc : List.find? (fun p => p.1 == 6) c = none := by
    rw [List.find?_eq_none]; intro p hp; have := h6 p hp; simp; omega
  by_cases hZ : Z = [] <;> by_cases hF : F = [] <;> simp [group, cap, hZ, hF, hc]

theorem group_cap5 {Z F : Str} {c : List (Nat × Str)} (h6 : ∀ p ∈ c, p.1 < 5) :
    group (cap 6 Z ++ (cap 5 F ++ c), t) 5 = if F = [] then none else some F := by
  have hc : List.find? (fun p => p.1 == 5) c = none := by
    rw [List.find?_eq_none]; intro p hp; have := h6 p hp; simp; omega
  by_cases hZ : Z = [] <;> by_cases hF : F = [] <;> simp [group, cap, hZ, hF, hc]

theorem group_cap {Z F : Str} {c : List (Nat × Str)} {n : Nat} (hn : n < 5) :
    group (cap 6 Z ++ (cap 5 F ++ c), t) n = group (c, t) n := by
  have h6 : 6 ≠ n := by omega
  have h5 : 5 ≠ n := by omega
  by_cases hZ : Z = [] <;> by_cases hF : F = [] <;> simp [group, cap, hZ, hF, h6, h5]

end Verif.Iso
