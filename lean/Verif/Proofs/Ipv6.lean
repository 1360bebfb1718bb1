import Verif.Props.Formats
/-! # The text of IPv6 addresses -/

namespace Verif.Formats
open Verif
open Verif.Pointer (strSplit_ne_nil strSplit_none strSplit_append)

theorem hextet_iff (s : Str) : hextetOk s = true ↔ Hextet s := by
  simp only [hextetOk, Hextet, Bool.and_eq_true, List.all_eq_true, decide_eq_true_eq, Bool.not_eq_true', List.isEmpty_eq_false_iff]
  constructor
  · rintro ⟨⟨h1, h2⟩, h3⟩
    refine ⟨h3, h2, fun c hc => ?_⟩
    have := h1 c hc
    simp only [hexDigit, digitA, Bool.or_eq_true, Bool.and_eq_true, decide_eq_true_eq] at this
    rcases this with (h | h) | h
    · left; simpa [Char.isDigit, Char.le_def, UInt32.le_iff_toNat_le] using h
    · exact .inr (.inl h)
    · exact .inr (.inr h)
  · rintro ⟨h3, h2, h1⟩
    refine ⟨⟨fun c hc => ?_, h2⟩, h3⟩
    simp only [hexDigit, digitA, Bool.or_eq_true, Bool.and_eq_true, decide_eq_true_eq]
    rcases h1 c hc with h | h | h
    · left; left; simpa [Char.isDigit, Char.le_def, UInt32.le_iff_toNat_le] using h
    · exact .inl (.inr h)
    · exact .inr h

/-- An empty side of `::` is split into one empty piece. -/
def pad (l : List Str) : List Str := if l = [] then [[]] else l

theorem only_one {l : List Nat} {i : Nat} (hn : l.Nodup) (h : ∀ j, j ∈ l ↔ j = i) : l = [i] := by
  cases l with
  | nil => simp at h
  | cons a l =>
    obtain rfl : a = i := (h a).1 (by simp)
    cases l with
    | nil => rfl
    | cons b l =>
      have := (h b).1 (by simp)
      simp [this] at hn

theorem innerEmpty_mem (parts : List Str) (j : Nat) : j ∈ innerEmpty parts ↔ 1 ≤ j ∧ j + 1 < parts.length ∧ parts[j]? = some [] := by
  simp only [innerEmpty, List.mem_filter, List.mem_range, Bool.and_eq_true, decide_eq_true_eq, beq_iff_eq]
  constructor
  · rintro ⟨h1, h2, h3⟩; exact ⟨h2, by omega, h3⟩
  · rintro ⟨h1, h2, h3⟩; exact ⟨by omega, h1, h3⟩

theorem ipv6Parts_iff (parts : List Str) : ipv6Parts parts = true ↔
    (parts.length = 8 ∧ ∀ p ∈ parts, hextetOk p = true) ∨
    ∃ L R, (∀ p ∈ L, hextetOk p = true) ∧ (∀ p ∈ R, hextetOk p = true) ∧ L.length + R.length ≤ 7 ∧ parts = pad L ++ ([] :: pad R) := by
  have hne : ∀ {l : List Str}, (∀ p ∈ l, hextetOk p = true) → ([] : Str) ∉ l := by
    intro l h hm
    exact absurd (h _ hm) (by decide)
  constructor
  · intro h
    unfold ipv6Parts at h
    split at h
    · cases h
    · split at h
      · simp only [Bool.and_eq_true, beq_iff_eq, List.all_eq_true] at h
        exact .inl h
      · rename_i i hi
        right
        obtain ⟨h1, h2, h3⟩ := (innerEmpty_mem parts i).1 (by rw [hi]; simp)
        have hcut : parts = parts.take i ++ ([] :: parts.drop (i + 1)) := by
          conv => lhs; rw [← List.take_append_drop i parts]
          rw [List.getElem?_eq_some_iff] at h3
          obtain ⟨h3, h4⟩ := h3
          rw [List.drop_eq_getElem_cons h3, h4]
        simp only [Bool.and_eq_true, List.all_eq_true, decide_eq_true_eq, Bool.not_eq_true', Bool.and_eq_false_iff, bne_eq_false_iff_eq] at h
        obtain ⟨⟨⟨⟨a1, a2⟩, a3⟩, a4⟩, a5⟩ := h
        have hL : ∃ L, parts.take i = pad L ∧ (∀ p ∈ L, hextetOk p = true) ∧ L.length = if parts.head? == some [] then i - 1 else i := by
          by_cases hl : (parts.head? == some []) = true
          · simp only [hl, if_true] at a1 a4 ⊢
            have : i = 1 := by rcases a1 with a1 | a1 <;> first | cases a1 | omega
            subst this
            refine ⟨[], ?_, by simp, rfl⟩
            cases parts with
            | nil => simp at hl
            | cons p ps => simp at hl; simp [pad, hl]
          · simp only [hl] at a1 a4 ⊢
            refine ⟨parts.take i, ?_, a4, by simp; omega⟩
            rw [pad, if_neg]
            intro e
            have := congrArg List.length e
            rw [List.length_take, List.length_nil] at this; omega
        have hR : ∃ R, parts.drop (i + 1) = pad R ∧ (∀ p ∈ R, hextetOk p = true) ∧
            R.length = if parts.getLast? == some [] then parts.length - i - 2 else parts.length - i - 1 := by
          by_cases hl : (parts.getLast? == some []) = true
          · simp only [hl, if_true] at a2 a5 ⊢
            have : parts.length = i + 2 := by rcases a2 with a2 | a2 <;> first | cases a2 | omega
            refine ⟨[], ?_, by simp, by simp; omega⟩
            simp only [beq_iff_eq, List.getLast?_eq_getElem?] at hl
            rw [List.getElem?_eq_some_iff] at hl
            obtain ⟨hl, hl'⟩ := hl
            rw [pad, if_pos rfl, List.drop_eq_getElem_cons (by omega)]
            simp only [this] at hl'
            simp only [show i + 2 - 1 = i + 1 by omega] at hl'
            rw [hl', List.drop_of_length_le (by omega)]
          · simp only [hl] at a2 a5 ⊢
            rw [if_neg (by simp), show parts.length - (parts.length - i - 1) = i + 1 by omega] at a5
            refine ⟨parts.drop (i + 1), ?_, a5, by simp; omega⟩
            rw [pad, if_neg]
            intro e
            have := congrArg List.length e
            simp at this; omega
        obtain ⟨L, l1, l2, l3⟩ := hL
        obtain ⟨R, r1, r2, r3⟩ := hR
        refine ⟨L, R, l2, r2, by rw [l3, r3]; omega, ?_⟩
        rw [← l1, ← r1]; exact hcut
      · cases h
  · rintro (⟨h1, h2⟩ | ⟨L, R, hL, hR, hl, rfl⟩)
    · unfold ipv6Parts
      rw [if_neg (by omega)]
      have : innerEmpty parts = [] := by
        rw [List.eq_nil_iff_forall_not_mem]
        intro j hj
        obtain ⟨_, _, h⟩ := (innerEmpty_mem _ _).1 hj
        exact hne h2 (List.mem_of_getElem? h)
      rw [this]
      simp only [Bool.and_eq_true, beq_iff_eq, List.all_eq_true]
      exact ⟨h1, h2⟩
    · have pl : ∀ l : List Str, (pad l).length = if l = [] then 1 else l.length := by intro l; unfold pad; split <;> simp
      have pl1 : ∀ l : List Str, 1 ≤ (pad l).length := by
        intro l; rw [pl]; split
        · omega
        · have := List.length_pos_iff.2 (by assumption); omega
      have hlen : (pad L ++ ([] :: pad R)).length = (pad L).length + (pad R).length + 1 := by simp; omega
      have hsum : (pad L).length + (pad R).length ≤ 8 := by
        rw [pl, pl]; split <;> split <;> simp_all <;> omega
      have hin : innerEmpty (pad L ++ ([] :: pad R)) = [(pad L).length] := by
        refine only_one (List.Nodup.sublist List.filter_sublist List.nodup_range) fun j => ?_
        rw [innerEmpty_mem]
        constructor
        · rintro ⟨j1, j2, j3⟩
          rw [hlen] at j2
          by_cases hj : j < (pad L).length
          · rw [List.getElem?_append_left hj] at j3
            unfold pad at j3 hj
            split at hj
            · simp at hj; omega
            · rename_i e; rw [if_neg e] at j3; exact absurd (List.mem_of_getElem? j3) (hne hL)
          · by_cases hj' : j = (pad L).length
            · exact hj'
            · exfalso
              rw [List.getElem?_append_right (by omega)] at j3
              obtain ⟨k, hk⟩ : ∃ k, j - (pad L).length = k + 1 := ⟨j - (pad L).length - 1, by omega⟩
              rw [hk, List.getElem?_cons_succ] at j3
              have hkr : k + 1 < (pad R).length := by omega
              unfold pad at j3 hkr
              split at hkr
              · simp at hkr
              · rename_i e; rw [if_neg e] at j3; exact absurd (List.mem_of_getElem? j3) (hne hR)
        · rintro rfl
          refine ⟨pl1 L, by rw [hlen]; have := pl1 R; omega, by simp⟩
      unfold ipv6Parts
      rw [if_neg (by rw [hlen]; omega), hin]
      have lead : ((pad L ++ ([] :: pad R)).head? == some []) = decide (L = []) := by
        by_cases e : L = []
        · simp [pad, e]
        · obtain ⟨p, ps, rfl⟩ := List.exists_cons_of_ne_nil e
          have : p ≠ [] := fun e => hne hL (by simp [e])
          simp [pad, this]
      have trail : ((pad L ++ ([] :: pad R)).getLast? == some []) = decide (R = []) := by
        by_cases e : R = []
        · simp [pad, e]
        · have : R.getLast e ≠ [] := fun h => hne hR (by rw [← h]; exact List.getLast_mem e)
          rw [List.getLast?_append, List.getLast?_cons, show pad R = R by simp [pad, e], List.getLast?_eq_some_getLast e]
          simp [this, e]
      simp only [lead, trail, hlen]
      by_cases eL : L = [] <;> by_cases eR : R = []
      · subst eL eR; simp [pad]
      · subst eL
        have h4 : pad R = R := by simp [pad, eR]
        have h5 : pad [] = [[]] := rfl
        simp only [h4, h5, eR] at *
        simp at hl ⊢
        refine ⟨by omega, ?_⟩
        rw [show 1 + R.length + 1 - R.length = 2 by omega]
        simpa using hR
      · subst eR
        have h4 : pad L = L := by simp [pad, eL]
        have h5 : pad [] = [[]] := rfl
        simp only [h4, h5, eL] at *
        simp at hl ⊢
        exact ⟨⟨by omega, hL⟩, fun x hx => by rw [List.drop_of_length_le (by simp; omega)] at hx; simp at hx⟩
      · have h4 : pad L = L := by simp [pad, eL]
        have h5 : pad R = R := by simp [pad, eR]
        simp only [h4, h5, eL, eR] at *
        simp at hl ⊢
        refine ⟨⟨by omega, hL⟩, ?_⟩
        have : L ++ [] :: R = (L ++ [[]]) ++ R := by simp
        rw [this, List.drop_append_of_le_length (by simp; omega), List.drop_of_length_le (by simp; omega)]
        simpa using hR

theorem join_pad (L R : List Str) : strJoin c!":" (pad L ++ ([] :: pad R)) = strJoin c!":" L ++ (c!"::" ++ strJoin c!":" R) := by
  have hr : strJoin c!":" ([] :: pad R) = ':' :: strJoin c!":" R := by
    cases R with
    | nil => rfl
    | cons r R => simp [pad, strJoin]
  by_cases e : L = []
  · subst e
    simp only [pad, if_true, List.singleton_append, strJoin, List.nil_append] at hr ⊢
    rw [hr]; rfl
  · rw [show pad L = L by simp [pad, e]]
    clear hr
    have hr : ∀ l : List Str, l ≠ [] → strJoin c!":" (l ++ ([] :: pad R)) = strJoin c!":" l ++ (c!"::" ++ strJoin c!":" R) := by
      intro l
      induction l with
      | nil => intro h; exact absurd rfl h
      | cons a l ih =>
        intro _
        cases l with
        | nil =>
          cases R with
          | nil => simp [pad, strJoin]
          | cons r R => simp [pad, strJoin]
        | cons b l =>
          simp only [List.cons_append, strJoin] at ih ⊢
          rw [ih (by simp)]
          simp
    exact hr L e

theorem hextet_no {x : Str} (h : hextetOk x = true) {c : Char} (hc : hexDigit c = false) : c ∉ x := by
  intro hm
  simp only [hextetOk, Bool.and_eq_true, List.all_eq_true] at h
  have := h.1.1 c hm
  rw [hc] at this; cases this

theorem ipv4_no {x : Str} (h : ipv4Ok x = true) {c : Char} (hc : digitA c = false) (hp : c ≠ '.') : c ∉ x := by
  obtain ⟨a, b, d, e, ha, hb, hd, he, rfl⟩ := (Props.ipv4Ok_iff x).1 h
  rw [← Props.octet_iff] at ha hb hd he
  have no : ∀ {y : Str}, octetOk y = true → c ∉ y := by
    intro y hy hm
    have := Props.octet_chars hy c hm
    rw [hc] at this; cases this
  simp [strJoin, no ha, no hb, no hd, no he, hp]

theorem ipv4_dot {x : Str} (h : ipv4Ok x = true) : '.' ∈ x := by
  obtain ⟨a, b, d, e, ha, hb, hd, he, rfl⟩ := (Props.ipv4Ok_iff x).1 h
  simp [strJoin]

theorem pad_no {l : List Str} (h : ∀ p ∈ l, hextetOk p = true) : ∀ p ∈ pad l, ':' ∉ p := by
  intro p hp
  unfold pad at hp
  split at hp
  · simp at hp; simp [hp]
  · exact hextet_no (h p hp) (by decide)

theorem addr_iff (a : Str) : ipv6Ok.addr a = true ↔ Ipv6Text a := by
  constructor
  · intro h
    unfold ipv6Ok.addr at h
    have hj := strJoin_split ':' a
    have hmem : ∀ p ∈ strSplit ':' a, ':' ∉ p := fun p hp => strSplit_mem hp
    generalize strSplit ':' a = parts at h hj hmem
    simp only at h
    split at h
    · cases h
    · rename_i h3
      have hne : parts ≠ [] := by intro e; simp [e] at h3
      have hlast : parts.getLast?.getD [] = parts.getLast hne := by rw [List.getLast?_eq_some_getLast hne]; rfl
      rw [hlast] at h
      split at h
      · simp only [Bool.and_eq_true] at h
        obtain ⟨h4, h6⟩ := h
        have hcut := List.dropLast_concat_getLast hne
        generalize parts.dropLast = hs at h6 hcut
        generalize parts.getLast hne = x at h4 hcut
        subst hcut
        rw [ipv6Parts_iff] at h6
        rcases h6 with ⟨h7, h8⟩ | ⟨L, R, hL, hR, hl, e⟩
        · refine .inl ⟨hs ++ [x], .inr ⟨hs, x, rfl, fun p hp => (hextet_iff p).1 (h8 p (by simp [hp])), (Props.ipv4Ok_iff x).1 h4, ?_⟩, hj.symm⟩
          simp at h7; omega
        · -- the last two pieces are on the right
          have e' := congrArg List.reverse e
          rcases List.eq_nil_or_concat R with rfl | ⟨R1, r1, rfl⟩
          · simp [pad] at e'
          · rcases List.eq_nil_or_concat R1 with rfl | ⟨R2, r2, rfl⟩
            · simp [pad] at e'
            · have hp : pad (R2 ++ [r2] ++ [r1]) = R2 ++ [r2, r1] := by simp [pad]
              simp only [List.concat_eq_append] at e hR hl hp
              rw [hp, show pad L ++ ([] :: (R2 ++ [r2, r1])) = (pad L ++ ([] :: R2)) ++ [r2, r1] by simp] at e
              obtain ⟨e1, -⟩ := List.append_inj' e rfl
              refine .inr ⟨L, R2 ++ [x], R2.length + 2, fun p hp => (hextet_iff p).1 (hL p hp),
                .inr ⟨R2, x, rfl, fun p hp => (hextet_iff p).1 (hR p (by simp [hp])), (Props.ipv4Ok_iff x).1 h4, rfl⟩, ?_, ?_⟩
              · simp at hl; omega
              · rw [← join_pad, ← hj, e1]
                congr 1
                rw [show pad (R2 ++ [x]) = R2 ++ [x] by simp [pad]]; simp
      · rw [ipv6Parts_iff] at h
        rcases h with ⟨h7, h8⟩ | ⟨L, R, hL, hR, hl, e⟩
        · exact .inl ⟨parts, .inl ⟨fun p hp => (hextet_iff p).1 (h8 p hp), h7.symm⟩, hj.symm⟩
        · exact .inr ⟨L, R, R.length, fun p hp => (hextet_iff p).1 (hL p hp), .inl ⟨fun p hp => (hextet_iff p).1 (hR p hp), rfl⟩, hl,
            by rw [← hj, e, join_pad]⟩
  · have hfour : ∀ x, Ipv4Text x → (ipv4Ok x = true ∧ ':' ∉ x ∧ x.contains '.' = true) := by
      intro x hx
      have h := (Props.ipv4Ok_iff x).2 hx
      exact ⟨h, ipv4_no h (by decide) (by decide), by simpa using ipv4_dot h⟩
    have go : ∀ parts : List Str, 3 ≤ parts.length → (∀ p ∈ parts, ':' ∉ p) → a = strJoin c!":" parts →
        ((∃ hs x, parts = hs ++ [x] ∧ ipv4Ok x = true ∧ ipv6Parts (hs ++ [c!"0", c!"0"]) = true) ∨
          ((∀ x, parts.getLast? = some x → x.contains '.' = false) ∧ ipv6Parts parts = true)) → ipv6Ok.addr a = true := by
      intro parts h3 hn e h
      unfold ipv6Ok.addr
      rw [e, strSplit_join (by intro e; simp [e] at h3) hn]
      simp only
      rw [if_neg (by omega)]
      rcases h with ⟨hs, x, rfl, h4, h6⟩ | ⟨h1, h6⟩
      · have := ipv4_dot h4
        simp [this, h4, h6]
      · have hne : parts ≠ [] := by intro e; simp [e] at h3
        have := h1 _ (List.getLast?_eq_some_getLast hne)
        rw [List.getLast?_eq_some_getLast hne]
        simp only [Option.getD_some, this, h6]
        rfl
    have nodot : ∀ {x : Str}, hextetOk x = true → x.contains '.' = false := by
      intro x hx
      simpa using hextet_no hx (c := '.') (by decide)
    have zeros : ∀ {hs : List Str}, (∀ p ∈ hs, hextetOk p = true) → ∀ p ∈ hs ++ [c!"0", c!"0"], hextetOk p = true := by
      intro hs h p hp
      simp only [List.mem_append, List.mem_cons, List.not_mem_nil, or_false] at hp
      rcases hp with hp | rfl | rfl
      · exact h p hp
      · decide
      · decide
    rintro (⟨ps, h, e⟩ | ⟨L, R, m, hL, hR, hl, e⟩)
    · rcases h with ⟨h1, h2⟩ | ⟨hs, x, rfl, h1, h2, h3⟩
      · simp only [← hextet_iff] at h1
        refine go ps (by omega) (fun p hp => hextet_no (h1 p hp) (by decide)) e (.inr ⟨fun x hx => nodot (h1 x (List.mem_of_getLast? hx)), ?_⟩)
        exact (ipv6Parts_iff ps).2 (.inl ⟨h2.symm, h1⟩)
      · simp only [← hextet_iff] at h1
        obtain ⟨f1, f2, f3⟩ := hfour x h2
        refine go (hs ++ [x]) (by simp; omega) ?_ e (.inl ⟨hs, x, rfl, f1, ?_⟩)
        · intro p hp
          simp at hp
          rcases hp with hp | rfl
          · exact hextet_no (h1 p hp) (by decide)
          · exact f2
        · exact (ipv6Parts_iff _).2 (.inl ⟨by simp; omega, zeros h1⟩)
    · simp only [← hextet_iff] at hL
      have pl1 : ∀ l : List Str, 1 ≤ (pad l).length := by
        intro l; unfold pad; split
        · simp
        · have := List.length_pos_iff.2 (by assumption); omega
      rcases hR with ⟨h1, h2⟩ | ⟨hs, x, rfl, h1, h2, h3⟩
      · simp only [← hextet_iff] at h1
        refine go (pad L ++ ([] :: pad R)) (by have := pl1 L; have := pl1 R; simp; omega) ?_ (by rw [join_pad]; exact e)
          (.inr ⟨fun x hx => ?_, (ipv6Parts_iff _).2 (.inr ⟨L, R, hL, h1, by omega, rfl⟩)⟩)
        · intro p hp
          simp only [List.mem_append, List.mem_cons] at hp
          rcases hp with hp | rfl | hp
          · exact pad_no hL p hp
          · simp
          · exact pad_no h1 p hp
        · by_cases er : R = []
          · subst er; simp [pad] at hx; simp [hx]
          · rw [show pad R = R by simp [pad, er], List.getLast?_append, List.getLast?_cons, List.getLast?_eq_some_getLast er] at hx
            simp at hx
            exact nodot (h1 x (by rw [← hx]; exact List.getLast_mem er))
      · simp only [← hextet_iff] at h1
        obtain ⟨f1, f2, f3⟩ := hfour x h2
        have hp : pad (hs ++ [x]) = hs ++ [x] := by simp [pad]
        refine go ((pad L ++ ([] :: hs)) ++ [x]) (by have := pl1 L; simp; omega) ?_ (by rw [e, ← join_pad, hp]; simp)
          (.inl ⟨_, x, rfl, f1, (ipv6Parts_iff _).2 (.inr ⟨L, hs ++ [c!"0", c!"0"], hL, zeros h1, by simp; omega, ?_⟩)⟩)
        · intro p hp
          simp only [List.mem_append, List.mem_cons, List.not_mem_nil, or_false] at hp
          rcases hp with (hp | rfl | hp) | rfl
          · exact pad_no hL p hp
          · simp
          · exact hextet_no (h1 p hp) (by decide)
          · exact f2
        · rw [show pad (hs ++ [c!"0", c!"0"]) = hs ++ [c!"0", c!"0"] by simp [pad]]; simp

theorem ipv6_no {a : Str} (h : Ipv6Text a) {c : Char} (h1 : hexDigit c = false) (h2 : c ≠ '.') (h3 : c ≠ ':') : c ∉ a := by
  have hd : digitA c = false := by
    simp only [hexDigit, Bool.or_eq_false_iff] at h1; exact h1.1.1
  have hj : ∀ l : List Str, (∀ p ∈ l, c ∉ p) → c ∉ strJoin c!":" l := by
    intro l
    induction l with
    | nil => simp [strJoin]
    | cons p l ih =>
      intro h
      cases l with
      | nil => simpa [strJoin] using h p (by simp)
      | cons q l =>
        have := ih fun x hx => h x (by simp only [List.mem_cons] at hx ⊢; exact .inr hx)
        simp [strJoin, h p (by simp), h3, this]
  have hx : ∀ {p : Str}, Hextet p → c ∉ p := fun hp => hextet_no ((hextet_iff _).2 hp) h1
  have hg : ∀ {l : List Str} {n : Nat}, Groups l n → ∀ p ∈ l, c ∉ p := by
    rintro l n (⟨h, -⟩ | ⟨hs, x, rfl, h, h4, -⟩) p hp
    · exact hx (h p hp)
    · simp at hp
      rcases hp with hp | rfl
      · exact hx (h p hp)
      · exact ipv4_no ((Props.ipv4Ok_iff _).2 h4) hd h2
  rcases h with ⟨ps, h, rfl⟩ | ⟨L, R, m, hL, hR, hl, rfl⟩
  · exact hj ps (hg h)
  · simp [hj L fun p hp => hx (hL p hp), hj R (hg hR), h3]

theorem ipv6Ok_iff (s : Str) : ipv6Ok s = true ↔ Ipv6Text s ∨ Ipv6Zoned s := by
  constructor
  · intro h
    unfold ipv6Ok at h
    split at h
    · cases h
    · rename_i hs
      have hs : '/' ∉ s := by simpa using hs
      have hj := strJoin_split '%' s
      have hm : ∀ p ∈ strSplit '%' s, '%' ∉ p := fun p hp => strSplit_mem hp
      split at h
      · rename_i a e
        rw [e] at hj
        simp only [strJoin] at hj
        subst hj
        exact .inl ((addr_iff _).1 h)
      · rename_i a z e
        rw [e] at hj hm
        simp only [strJoin] at hj
        simp only [Bool.and_eq_true, Bool.not_eq_true', List.isEmpty_eq_false_iff] at h
        refine .inr ⟨a, z, (addr_iff a).1 h.2, h.1, hm z (by simp), ?_, by rw [← hj]; simp⟩
        intro hz
        exact hs (by rw [← hj]; simp [hz])
      · cases h
  · rintro (h | ⟨a, z, h, h1, h2, h3, rfl⟩)
    · unfold ipv6Ok
      have n1 := ipv6_no h (c := '/') (by decide) (by decide) (by decide)
      have n2 := ipv6_no h (c := '%') (by decide) (by decide) (by decide)
      rw [if_neg (by simpa using n1), strSplit_none n2]
      exact (addr_iff s).2 h
    · unfold ipv6Ok
      have n1 := ipv6_no h (c := '/') (by decide) (by decide) (by decide)
      have n2 := ipv6_no h (c := '%') (by decide) (by decide) (by decide)
      rw [if_neg (by simp [n1, h3]), strSplit_append n2, strSplit_none h2]
      simp [h1, (addr_iff a).2 h]

end Verif.Formats
