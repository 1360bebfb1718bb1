import Verif.Props.Uri
/-!
# C106: the parts of a URI

`Parts` and `AuthorityText` (Spec/Uri.lean) say what a text consists of, `Authority3986` what RFC 3986 takes for an authority.
-/

namespace Verif.Props
open Verif Rfc3986 UriSpec
open Verif.Uri (parse parseAuthority authorityText authorityEq Literal Other)

variable (ip : IpRe)

theorem enc_port {h p : Str} (hh : Enc Plain h) (hp : PortText p) : Enc Plain (h ++ p) :=
  Uri.enc_append hh (Uri.enc_all fun c hc => Uri.plain_of_digit (hp.2.2 c hc))

/-- C106: what is taken for an authority, and its parts. -/
theorem C106_authority (s : Str) (a : Authority) : parseAuthority ip s = .ok a ↔ AuthorityText (Literal ip) s a.userinfo a.host a.port := by
  refine ⟨fun h => ?_, fun h => Uri.auth_complete ip h⟩
  have h0 := h
  unfold parseAuthority at h
  split at h
  · cases h
  rename_i m hm
  have := Re.pyMatch_some hm
  obtain ⟨c1, u1, h1, h2⟩ := Re.inRun_seq.1 this
  obtain ⟨c2, u2, h2, h3⟩ := Re.inRun_seq.1 h2
  obtain ⟨c3, u3, h3, h4⟩ := Re.inRun_seq.1 h3
  obtain ⟨c4, u4, h4, h5⟩ := Re.inRun_seq.1 h4
  obtain ⟨T, rfl, hT, rfl⟩ := (Re.inRun_grp (Uri.bare_host ip)).1 h2
  obtain ⟨rfl, h6⟩ := (Re.inRun_bare (by decide)).1 h3
  obtain ⟨e5, h5⟩ := (Re.inRun_bare (by decide)).1 h5
  cases h5 with | eol hn =>
  have huser : (c1 = [] ∧ s = T ++ u2) ∨ ∃ p, c1 = [(1, p)] ∧ p ≠ [] ∧ Enc UserChar p ∧ s = p ++ ['@'] ++ (T ++ u2) := by
    rcases Re.inRun_opt.1 h1 with h1 | ⟨h1, e⟩
    · obtain ⟨c0, u0, h1, h0⟩ := Re.inRun_seq.1 h1
      obtain ⟨p, rfl, hl, rfl⟩ := (Re.inRun_grp (by decide)).1 h1
      obtain ⟨e, hat⟩ := (Re.inRun_bare (by decide)).1 h0
      obtain ⟨p', hp', hne, he⟩ := Uri.lang_userinfo.1 hl
      have := List.append_cancel_right hp'
      subst this
      rw [Re.lang_chr] at hat
      exact .inr ⟨p, e, hne, he, by rw [hat]; simp⟩
    · exact .inl ⟨h1, e.symm⟩
  obtain ⟨T', hT', hh⟩ := (Uri.lang_host ip).1 hT
  have := List.append_cancel_right hT'
  subst this
  have hport : (c4 = (2, T) :: c1 ∧ u3 = m.2) ∨ ∃ p, c4 = (3, p) :: (2, T) :: c1 ∧ PortText p ∧ u3 = p ++ m.2 := by
    rcases Re.inRun_opt.1 h4 with h4 | ⟨h4, e⟩
    · obtain ⟨p, rfl, hl, rfl⟩ := (Re.inRun_grp (by decide)).1 h4
      obtain ⟨p', hp', he⟩ := Uri.lang_port.1 hl
      have := List.append_cancel_right hp'
      subst this
      exact .inr ⟨p, rfl, he, rfl⟩
    · exact .inl ⟨h4, e.symm⟩
  have hcolon : u2 = ':' :: u3 ∨ u2 = u3 := by
    rcases Re.lang_opt.1 h6 with h | h
    · exact .inl (Re.lang_chr.1 h)
    · exact .inr h.symm
  cases h
  have hu : ∃ ui, (Re.group m 1).getD [] = ui ∧ (ui = [] ∨ Enc UserChar ui) ∧ s = (if ui = [] then [] else ui ++ ['@']) ++ (T ++ u2) := by
    rcases huser with ⟨rfl, e⟩ | ⟨p, rfl, hne, hp, e⟩
    · refine ⟨[], ?_, .inl rfl, by simpa using e⟩
      rcases hport with ⟨rfl, _⟩ | ⟨q, rfl, _⟩ <;> simp [Re.group, e5]
    · refine ⟨p, ?_, .inr hp, by rw [if_neg hne]; exact e⟩
      rcases hport with ⟨rfl, _⟩ | ⟨q, rfl, _⟩ <;> simp [Re.group, e5]
  obtain ⟨ui, e1, hu, rfl⟩ := hu
  have e2 : (Re.group m 2).getD [] = T := by
    rcases hport with ⟨rfl, _⟩ | ⟨q, rfl, _⟩ <;> simp [Re.group, e5]
  have e3 : ((Re.group m 3).getD [] = [] ∧ u3 = m.2) ∨ PortText ((Re.group m 3).getD []) ∧ u3 = (Re.group m 3).getD [] ++ m.2 := by
    rcases hport with ⟨rfl, h⟩ | ⟨q, rfl, hq, h⟩
    · refine .inl ⟨?_, h⟩
      rcases huser with ⟨rfl, _⟩ | ⟨p, rfl, _⟩ <;> simp [Re.group, e5]
    · refine .inr ?_
      have : (Re.group m 3).getD [] = q := by simp [Re.group, e5]
      rw [this]
      exact ⟨hq, h⟩
  rw [e1, e2] at h0 ⊢
  generalize (Re.group m 3).getD [] = port at h0 e3
  show AuthorityText _ _ ui T port
  rcases hcolon with rfl | rfl
  · rcases e3 with ⟨rfl, rfl⟩ | ⟨hq, rfl⟩
    · exact ⟨[':'], m.2, rfl, hu, hh, .inl ⟨rfl, .inr rfl⟩, hn⟩
    · exact ⟨':' :: port, m.2, rfl, hu, hh, .inr ⟨hq, .inl rfl⟩, hn⟩
  · rcases e3 with ⟨rfl, rfl⟩ | ⟨hq, rfl⟩
    · exact ⟨[], m.2, rfl, hu, hh, .inl ⟨rfl, .inl rfl⟩, hn⟩
    · by_cases hl : Literal ip T
      · exact ⟨port, m.2, rfl, hu, hh, .inr ⟨hq, .inr ⟨hl, rfl⟩⟩, hn⟩
      · have hh := hh.resolve_right hl
        have := Uri.auth_complete ip (s := (if ui = [] then [] else ui ++ ['@']) ++ (T ++ (port ++ m.2))) (ui := ui) (host := T ++ port) (port := [])
          ⟨[], m.2, by simp, hu, .inl (enc_port hh hq), .inl ⟨rfl, .inl rfl⟩, hn⟩
        rw [this] at h0
        simp at h0
        exact absurd h0 hq.1

theorem upper_iff {s t : Str} : pctUpper s = t ↔ Uppered s t := by
  constructor
  · rintro rfl
    generalize hn : s.length = n
    induction n using Nat.strongRecOn generalizing s with
    | ind n ih =>
    cases s with
    | nil => exact .nil
    | cons c s =>
      by_cases h : ∃ a b r, c = '%' ∧ s = a :: b :: r ∧ Hex a ∧ Hex b
      · obtain ⟨a, b, r, rfl, rfl, ha, hb⟩ := h
        rw [pctUpper_triple ⟨Uri.hex_iff.2 ha, Uri.hex_iff.2 hb⟩]
        exact .pct ha hb (ih r.length (by simp at hn; omega) rfl)
      · rw [pctUpper_cons fun a b r e1 e2 h' => h ⟨a, b, r, e1, e2, Uri.hex_iff.1 h'.1, Uri.hex_iff.1 h'.2⟩]
        exact .chr h (ih s.length (by simp at hn; omega) rfl)
  · intro h
    induction h with
    | nil => rfl
    | pct ha hb _ ih => rw [pctUpper_triple ⟨Uri.hex_iff.2 ha, Uri.hex_iff.2 hb⟩, ih]
    | chr hc _ ih => rw [pctUpper_cons fun a b r e1 e2 h' => hc ⟨a, b, r, e1, e2, Uri.hex_iff.1 h'.1, Uri.hex_iff.1 h'.2⟩, ih]

theorem upper_dots {x : Str} : (pctUpper x = c!"." → x = c!".") ∧ (pctUpper x = c!".." → x = c!"..") := by
  simp only [upper_iff]
  constructor
  · intro h
    cases h with | chr _ h => cases h; rfl
  · intro h
    cases h with | chr _ h => cases h with | chr _ h => cases h; rfl

theorem norm_upper {p : Str} (h : NoDotSegments p) : normPath p = pctUpper p := by
  refine removeDots_fix fun x hx => ?_
  rw [split_pctUpper] at hx
  obtain ⟨y, hy, rfl⟩ := List.mem_map.1 hx
  exact ⟨fun e => h.1 (upper_dots.1 e ▸ hy), fun e => h.2 (upper_dots.2 e ▸ hy)⟩

/-- C106: the parts of a `Uri` are those of the text (for paths with a scheme and with dot segments see C50): the scheme in lower case, the
encodings of the query and the fragment, and of the path if there is a scheme, in upper case. -/
theorem C106_parts {s p : Str} {sch au q f : Option Str} (hp : Parts s sch au p q f) (hd : sch = none ∨ NoDotSegments p) (u : Uri) :
    parse ip s = .ok u ↔ u.scheme = (sch.getD []).map Char.toLower ∧
      AuthorityText (Literal ip) (au.getD []) u.authority.userinfo u.authority.host u.authority.port ∧
      (sch = none → u.path = p) ∧ (sch ≠ none → Uppered p u.path) ∧ Uppered (q.getD []) u.query ∧ Uppered (f.getD []) u.fragment := by
  rw [Uri.parse_parts ip hp, Res.bind_eq_ok]
  have hpath : (if sch.isSome then normPath p else p) = u.path ↔ (sch = none → u.path = p) ∧ (sch ≠ none → Uppered p u.path) := by
    cases sch with
    | none => simp [eq_comm]
    | some x => simp [norm_upper (hd.resolve_left (by simp)), upper_iff]
  rw [← and_assoc (b := sch ≠ none → _), ← hpath, ← upper_iff, ← upper_iff]
  obtain ⟨us, ua, up, uq, uf⟩ := u
  simp only [Res.ok.injEq, Uri.mk.injEq, ← C106_authority, lower]
  constructor
  · rintro ⟨a, ha, e1, rfl, e2, e3, e4⟩
    exact ⟨e1.symm, ha, e2, e3, e4⟩
  · rintro ⟨e1, ha, e2, e3, e4⟩
    exact ⟨_, ha, e1.symm, rfl, e2, e3, e4⟩

/-- C106: every other text is refused, with the `AttributeError` of `None.groupdict()`. -/
theorem C106_refuses (s : Str) : (∃ u, parse ip s = .ok u) ∨ parse ip s = .err .attributeError ∧
    ∃ sch au p q f, Parts s sch au p q f ∧ ¬ ∃ user host port, AuthorityText (Literal ip) (au.getD []) user host port := by
  obtain ⟨sch, au, p, q, f, hp⟩ := Uri.parts_exist s
  rw [Uri.parse_parts ip hp]
  cases ha : parseAuthority ip (au.getD []) with
  | ok a => exact .inl ⟨_, rfl⟩
  | err e =>
    refine .inr ⟨?_, sch, au, p, q, f, hp, ?_⟩
    · have : e = .attributeError := by
        unfold parseAuthority at ha
        split at ha <;> cases ha
        rfl
      rw [this]
      rfl
    · rintro ⟨user, host, port, h⟩
      rw [(C106_authority ip _ ⟨user, host, port⟩).2 h] at ha
      cases ha
  | timeout =>
    unfold parseAuthority at ha
    split at ha <;> cases ha

/-- C106 for the authorities of RFC 3986, with user information that is not empty and a port of at most five digits. -/
theorem C106_rfc_partial {s host : Str} {user port : Option Str} (h : Authority3986 (Literal ip) s user host port) (hu : user ≠ some [])
    (hp : ∀ p, port = some p → p.length ≤ 5) : parseAuthority ip s = .ok ⟨user.getD [], host, port.getD []⟩ := by
  rw [C106_authority]
  obtain ⟨rfl, h1, h2, h3⟩ := h
  refine ⟨(match port with | some p => ':' :: p | none => []), [], ?_, ?_, h2, ?_, .inl rfl⟩
  · cases user with
    | none => cases port <;> simp
    | some u =>
      have : u ≠ [] := fun e => hu (by rw [e])
      cases port <;> simp [this]
  · cases user with
    | none => exact .inl rfl
    | some u => exact .inr (h1 u rfl)
  · cases port with
    | none => exact .inl ⟨rfl, .inl rfl⟩
    | some p =>
      by_cases e : p = []
      · subst e; exact .inl ⟨rfl, .inr rfl⟩
      · exact .inr ⟨⟨e, hp p rfl, h3 p rfl⟩, .inl rfl⟩

theorem plain_a : Enc Plain c!"a" := .chr (.inl (by decide)) .nil

theorem suffix_last {α : Type} {a b y : List α} {z : α} (h : a ++ b = y ++ [z]) (hb : b ≠ []) : z ∈ b := by
  obtain ⟨b', z', rfl⟩ : ∃ b' z', b = b' ++ [z'] := ⟨_, _, (List.dropLast_concat_getLast hb).symm⟩
  rw [← List.append_assoc] at h
  have := List.append_inj_right' h rfl
  simp only [List.cons.injEq, and_true] at this
  simp [this]

theorem refused {s : Str} (h : ¬ ∃ user host port, AuthorityText (Literal ip) s user host port) : parseAuthority ip s = .err .attributeError := by
  cases ha : parseAuthority ip s with
  | ok a => exact absurd ⟨_, _, _, (C106_authority ip s a).1 ha⟩ h
  | err e =>
    unfold parseAuthority at ha
    split at ha <;> cases ha
    rfl
  | timeout =>
    unfold parseAuthority at ha
    split at ha <;> cases ha

theorem plain_not {c : Char} (h : Plain c) (h' : c ∈ c!"\\/?#@:[]%") : False := Uri.not_plain_stop h' h

/-- What an authority text begins with. -/
theorem enc_head {P : Char → Prop} {c : Char} {s : Str} (h : Enc P (c :: s)) : P c ∨ c = '%' := by
  cases h with
  | chr h _ => exact .inl h
  | pct => exact .inr rfl

theorem enc_not {P : Char → Prop} {c : Char} {s : Str} (h : Enc P s) (hp : ¬ P c) (h1 : c ≠ '%') (h2 : ¬ Hex c) : c ∉ s := by
  induction h with
  | nil => simp
  | chr h _ ih =>
    simp only [List.mem_cons, not_or]
    exact ⟨fun e => hp (e ▸ h), ih⟩
  | pct ha hb _ ih =>
    simp only [List.mem_cons, not_or]
    exact ⟨h1, fun e => h2 (e ▸ ha), fun e => h2 (e ▸ hb), ih⟩

/-- C106: a text is refused if it has empty user information, or a port of more than five digits. -/
theorem C106_refused (s : Str) (h : (∃ r, s = '@' :: r) ∨ ∃ r p, s = r ++ ':' :: p ∧ 5 < p.length ∧ ∀ c ∈ p, c.isDigit = true) :
    parseAuthority ip s = .err .attributeError := by
  refine refused ip ?_
  rintro ⟨user, host, port, pp, nl, e, hu, hh, hp, hn⟩
  rcases h with ⟨r, rfl⟩ | ⟨r, p, rfl, hl, hd⟩
  · by_cases h0 : user = []
    · subst h0
      simp only [if_true, List.nil_append] at e
      cases host with
      | cons c host =>
        simp only [List.cons_append, List.cons.injEq] at e
        obtain ⟨rfl, -⟩ := e
        rcases hh with hh | ⟨x, _, hx⟩
        · rcases enc_head hh with h | h
          · exact plain_not h (by decide)
          · exact absurd h (by decide)
        · simp at hx
      | nil =>
        rcases hp with ⟨_, rfl | rfl⟩ | ⟨⟨h1, _, h2⟩, rfl | ⟨_, rfl⟩⟩
        · rcases hn with rfl | rfl <;> simp at e
        · simp at e
        · simp at e
        · cases pp with
          | nil => exact h1 rfl
          | cons c pp =>
            simp only [List.cons_append, List.nil_append, List.cons.injEq] at e
            have := h2 c (by simp)
            rw [← e.1] at this
            exact absurd this (by decide)
    · rw [if_neg h0] at e
      cases user with
      | nil => exact h0 rfl
      | cons c user =>
        simp only [List.cons_append, List.cons.injEq] at e
        obtain ⟨rfl, -⟩ := e
        rcases enc_head (hu.resolve_left h0) with (h | h) | h
        · exact plain_not h (by decide)
        · exact absurd h (by decide)
        · exact absurd h (by decide)
  · have hc : ∀ {c}, c ∈ ':' :: p → c = ':' ∨ c.isDigit = true := fun h => (List.mem_cons.1 h).imp id (hd _)
    rw [← List.append_assoc, ← List.append_assoc] at e
    have : nl = [] := by
      rcases hn with h | rfl
      · exact h
      · rcases hc (suffix_last e (by simp)) with h | h <;> exact absurd h (by decide)
    subst this
    rw [List.append_nil, List.append_assoc] at e
    generalize hU : (if user = [] then [] else user ++ ['@']) = U at e
    have port_case : ∀ as, pp = as ++ ':' :: p → False := by
      intro as e'
      rw [e'] at hp
      rcases hp with ⟨_, h | h⟩ | ⟨h, h' | ⟨_, h'⟩⟩
      · simp at h
      · cases as with
        | nil => simp only [List.nil_append, List.cons.injEq, true_and] at h; subst h; simp at hl
        | cons c as => simp at h
      · cases as with
        | nil =>
          simp only [List.nil_append, List.cons.injEq, true_and] at h'
          subst h'
          have := h.2.1
          omega
        | cons c as =>
          simp only [List.cons_append, List.cons.injEq] at h'
          exact absurd (h.2.2 ':' (by rw [← h'.2]; simp)) (by decide)
      · exact absurd (h.2.2 ':' (by rw [← h']; simp)) (by decide)
    have host_case : ∀ a, host ++ pp = a ++ ':' :: p → False := by
      intro a e0
      rcases List.append_eq_append_iff.1 e0 with ⟨as, _, e'⟩ | ⟨bs, rfl, e'⟩
      · exact port_case as e'
      · cases bs with
        | nil => exact port_case [] e'.symm
        | cons c bs =>
          have hsub : ∀ d ∈ c :: bs, d ∈ ':' :: p := fun d hd => by rw [e']; exact List.mem_append_left _ hd
          simp only [List.cons_append, List.cons.injEq] at e'
          rcases hh with hh | ⟨x, _, hx⟩
          · refine enc_not (c := ':') hh (fun h => plain_not h (by decide)) (by decide) (by unfold Hex; decide) ?_
            rw [e'.1]; simp
          · rcases hc (hsub ']' (suffix_last (y := '[' :: x) hx (by simp))) with h | h <;> exact absurd h (by decide)
    rcases List.append_eq_append_iff.1 e with ⟨a, e1, e2⟩ | ⟨a, _, e2⟩
    · cases a with
      | nil => exact host_case [] e2.symm
      | cons c a =>
        have h1 : ∃ y, U = y ++ ['@'] := by
          rw [← hU] at e1 ⊢
          split at e1
          · simp at e1
          · rename_i h; rw [if_neg h]; exact ⟨_, rfl⟩
        obtain ⟨y, rfl⟩ := h1
        have : '@' ∈ ':' :: p := by rw [e2]; exact List.mem_append_left _ (suffix_last e1.symm (by simp))
        rcases hc this with h | h <;> exact absurd h (by decide)
    · exact host_case a e2

/-- Not all authorities of RFC 3986 are read: not those with empty user information, and not those with longer ports. -/
theorem C106_refused_violated : Authority3986 (Literal ip) c!"@a" (some []) c!"a" none ∧ parseAuthority ip c!"@a" = .err .attributeError ∧
    Authority3986 (Literal ip) c!"a:123456" none c!"a" (some c!"123456") ∧ parseAuthority ip c!"a:123456" = .err .attributeError := by
  refine ⟨⟨rfl, ?_, .inl plain_a, by simp⟩, C106_refused ip _ (.inl ⟨_, rfl⟩), ⟨rfl, by simp, .inl plain_a, ?_⟩,
    C106_refused ip _ (.inr ⟨c!"a", c!"123456", rfl, by decide, by decide⟩)⟩
  · rintro u h; cases h; exact .nil
  · rintro p h; cases h; decide

/-- C106 for the authorities of RFC 3986: which of them are read. -/
theorem C106_rfc {s host : Str} {user port : Option Str} (h : Authority3986 (Literal ip) s user host port) :
    parseAuthority ip s = .ok ⟨user.getD [], host, port.getD []⟩ ↔ user ≠ some [] ∧ ∀ p, port = some p → p.length ≤ 5 := by
  refine ⟨fun h0 => ⟨?_, ?_⟩, fun h0 => C106_rfc_partial ip h h0.1 h0.2⟩
  · rintro rfl
    rw [C106_refused ip s (.inl ⟨_, h.1⟩)] at h0
    cases h0
  · rintro p rfl
    refine Nat.le_of_not_lt fun hc => ?_
    have e : ∃ r, s = r ++ ':' :: p := ⟨_, by rw [h.1, ← List.append_assoc]⟩
    obtain ⟨r, e⟩ := e
    rw [C106_refused ip s (.inr ⟨r, p, e, hc, h.2.2.2 p rfl⟩)] at h0
    cases h0

example : Authority3986 (Literal ip) c!"me@a:80" (some c!"me") c!"a" (some c!"80") :=
  ⟨rfl, by rintro u h; cases h; exact .chr (.inl (.inl (by decide))) (.chr (.inl (.inl (by decide))) .nil), .inl plain_a,
    by rintro p h; cases h; decide⟩

theorem port80 : ∀ c ∈ c!"80", c.isDigit = true := by decide

/-- Texts are read that are no authorities: with a newline behind them, and with a port behind an address in brackets without a colon. -/
theorem C106_loose_violated : parseAuthority ip c!"a\n" = .ok ⟨[], c!"a", []⟩ ∧
    (¬ ∃ user host port, Authority3986 (Literal ip) c!"a\n" user host port) ∧
    ∀ x, ip.inside x → parseAuthority ip ('[' :: (x ++ c!"]80")) = .ok ⟨[], '[' :: (x ++ [']']), c!"80"⟩ := by
  refine ⟨?_, ?_, fun x hx => ?_⟩
  · rw [C106_authority]
    exact ⟨[], ['\n'], rfl, .inl rfl, .inl plain_a, .inl ⟨rfl, .inl rfl⟩, .inr rfl⟩
  · rintro ⟨user, host, port, e, hu, hh, hp⟩
    cases user with
    | some u =>
      have : '@' ∈ c!"a\n" := by rw [e]; simp
      exact absurd this (by decide)
    | none =>
      cases port with
      | some p =>
        have : ':' ∈ c!"a\n" := by rw [e]; simp
        exact absurd this (by decide)
      | none =>
        simp only [List.nil_append, List.append_nil] at e
        rcases hh with hh | ⟨x, _, hx⟩
        · refine enc_not (c := '\n') hh (by unfold Plain; decide) (by decide) (by unfold Hex; decide) ?_
          rw [← e]; decide
        · rw [← e] at hx; simp at hx
  · rw [C106_authority]
    exact ⟨c!"80", [], by simp, .inl rfl, .inr ⟨x, hx, rfl⟩, .inr ⟨(by unfold PortText; exact ⟨by simp, Nat.le_of_ble_eq_true rfl, port80⟩), .inr ⟨⟨x, hx, rfl⟩, rfl⟩⟩, .inl rfl⟩

example : exampleIp.inside c!"::1" := ⟨by simp, by decide⟩

/-- A host is not put in lower case, though RFC 3986 (3.2.2) takes hosts for the same that differ in case. -/
theorem C106_case_violated : ∃ u v, parse ip c!"http://A" = .ok u ∧ parse ip c!"http://a" = .ok v ∧ u.authority.host = c!"A" ∧
    Uri.compare ip u (.same v) = .ok false ∧ Uri.compare ip u (.text c!"http://a") = .ok false := by
  have hA : parse ip c!"http://A" = .ok ⟨c!"http", ⟨[], c!"A", []⟩, [], [], []⟩ := by
    have hp : Parts c!"http://A" (some c!"http") (some c!"A") [] none none :=
      ⟨c!"//A", [], [], [], ⟨scheme_http, by simp⟩, ⟨rfl, by decide, by simp⟩, ⟨by simp, by simp, by simp⟩, ⟨rfl, by simp⟩, by simp [FragmentOf]⟩
    rw [Uri.parse_parts ip hp]
    have : parseAuthority ip c!"A" = .ok ⟨[], c!"A", []⟩ := authority_name ip (by decide)
    simp only [Option.getD_some, this, Res.ok_bind]
    rfl
  have ha := parse_http ip (p := []) (by simp) (by simp)
  exact ⟨_, _, hA, ha, rfl, rfl, by simp only [Uri.compare, Uri.eqText]; rw [show c!"http://a" = c!"http://a" ++ [] from rfl, ha]; rfl⟩

/-- C106: an authority is equal to the texts with its parts; comparing with a text that is none raises the `AttributeError`, with any other value
a `TypeError`. -/
theorem C106_compare_authority (a : Authority) (s : Str) :
    (authorityEq ip a (.text s) = .ok true ↔ AuthorityText (Literal ip) s a.userinfo a.host a.port) ∧
    (authorityEq ip a (.text s) = .ok false ↔ ∃ b : Authority, b ≠ a ∧ AuthorityText (Literal ip) s b.userinfo b.host b.port) ∧
    (authorityEq ip a (.text s) = .err .attributeError ↔ ¬ ∃ user host port, AuthorityText (Literal ip) s user host port) ∧
    (∀ b, authorityEq ip a (.same b) = .ok (decide (a = b))) ∧ authorityEq ip a .else = .err .typeError := by
  have heq : ∀ b : Authority, (a.userinfo == b.userinfo && a.host == b.host && a.port == b.port) = decide (a = b) := by
    intro b
    obtain ⟨a1, a2, a3⟩ := a
    obtain ⟨b1, b2, b3⟩ := b
    rw [Bool.eq_iff_iff]
    simp [and_assoc]
  simp only [authorityEq, heq, implies_true, and_true, true_and, ← C106_authority]
  cases h : parseAuthority ip s with
  | ok b =>
    simp only [Res.ok_bind, Res.ok.injEq, decide_eq_true_eq, decide_eq_false_iff_not, reduceCtorEq, false_iff]
    refine ⟨⟨Eq.symm, Eq.symm⟩, ⟨fun h => ⟨b, fun e => h e.symm, rfl⟩, ?_⟩, fun h' => h' ⟨_, _, _, (C106_authority ip s b).1 h⟩⟩
    rintro ⟨c, hc, rfl⟩ e
    exact hc e.symm
  | err e =>
    have he : e = .attributeError := by
      unfold parseAuthority at h
      split at h <;> cases h
      rfl
    subst he
    refine ⟨⟨fun h => (by cases h), fun h => (by cases h)⟩, ⟨fun h => (by cases h), fun ⟨_, _, h⟩ => (by cases h)⟩, fun _ => ?_, fun _ => rfl⟩
    rintro ⟨u, ho, p, h'⟩
    rw [Uri.auth_complete ip h'] at h
    cases h
  | timeout =>
    unfold parseAuthority at h
    split at h <;> cases h

/-- C106: a `Uri` is equal to the texts that are read as it. -/
theorem C106_compare (a : Uri) (s : Str) :
    (Uri.compare ip a (.text s) = .ok true ↔ parse ip s = .ok a) ∧
    (Uri.compare ip a (.text s) = .err .attributeError ↔ parse ip s = .err .attributeError) ∧
    (∀ b, Uri.compare ip a (.same b) = .ok (decide (a = b))) ∧ Uri.compare ip a .else = .err .typeError := by
  refine ⟨?_, ?_, fun b => ?_, rfl⟩
  · simp only [Uri.compare, Uri.eqText, Res.bind_eq_ok, Res.ok.injEq, eq_iff]
    exact ⟨fun ⟨b, h, e⟩ => e ▸ h, fun h => ⟨a, h, rfl⟩⟩
  · simp only [Uri.compare, Uri.eqText]
    cases parse ip s with
    | ok b => exact ⟨fun h => (by cases h), fun h => (by cases h)⟩
    | err e => exact ⟨fun h => (by cases h; rfl), fun h => (by cases h; rfl)⟩
    | timeout => exact ⟨fun h => (by cases h), fun h => (by cases h)⟩
  · simp only [Uri.compare, Res.ok.injEq]
    rw [Bool.eq_iff_iff, eq_iff]
    simp

example : Parts c!"http://a/b" (some c!"http") (some c!"a") c!"/b" none none := parts_http (p := c!"/b") (by decide) (by decide)

end Verif.Props
