import Verif.Proofs.Uri2
/-!
# C48–C51: URIs

`Parts s scheme authority path query fragment` (Spec/Uri.lean) says what a text consists of.
-/

namespace Verif.Props
open Verif Rfc3986 UriSpec
open Verif.Uri (parse text copyWith baseUri resolve resolveText isAbsolute eq hashKey parseAuthority AuthOk authorityText upToLastSlash)
open Verif.Pointer (strSplit_ne_nil strSplit_none strSplit_append)

variable (ip : IpRe)

/-- An instance for the examples: `IPvFuture` addresses without the part before the dot. -/
def exampleIp : IpRe where
  re := Re.plus (Re.cls fun c => regC c || c == ':')
  isBare := by rfl
  inside T := T ≠ [] ∧ ∀ c ∈ T, (regC c || c == ':') = true
  lang s t := Formats.lang_plus
  chars T h c hc := by rw [h.2 c hc]; rfl

theorem authority_name {h : Str} (hh : ∀ c ∈ h, regC c = true) : parseAuthority ip h = .ok ⟨[], h, []⟩ := by
  have := Uri.auth_print ip (a := ⟨[], h, []⟩) ⟨.inl rfl, .inl (Uri.enc_all fun c hc => Uri.regC_iff.1 (hh c hc)), .inl rfl⟩
  simpa [authorityText] using this

/-! ## C48: print and parse again -/

/-- The texts of the property: a scheme and an authority, or neither. -/
def Shape (s : Str) (path : Str) : Prop :=
  (∃ x a q f, Parts s (some x) (some a) path q f) ∨ ∃ q f, Parts s none none path q f

theorem head_path {s p r : Str} {au : Str} {r1 : Str} (h2 : AuthorityOf r1 (some au) s) (h3 : PathOf s p r) (hb : p.head? ≠ some '\\') :
    p = [] ∨ p.head? = some '/' := by
  cases p with
  | nil => exact .inl rfl
  | cons a p =>
    right
    obtain ⟨_, _, h⟩ := h2
    obtain ⟨rfl, hp, _⟩ := h3
    have h1 := h a rfl
    have h2 := hp a (by simp)
    simp only [List.mem_cons, List.not_mem_nil, or_false] at h1
    rcases h1 with rfl | rfl | rfl | rfl
    · exact absurd rfl hb
    · rfl
    · exact absurd rfl h2.1
    · exact absurd rfl h2.2

/-- C48, for paths that do not begin with a backslash. -/
theorem C48_round_trip_partial {s path : Str} {u : Uri} (hs : Shape s path) (hb : path.head? ≠ some '\\') (h : parse ip s = .ok u) :
    parse ip (text u) = .ok u := by
  have hq : ∀ {s r : Str} {q : Option Str}, QueryOf s q r → '#' ∉ pctUpper (q.getD []) := by
    intro s r q h
    cases q with
    | none => simp [pctUpper]
    | some q => exact pctUpper_not_mem (by decide) h.2.1
  have hf : ∀ {s : Str} {f : Option Str}, FragmentOf s f → '\n' ∉ pctUpper (f.getD []) := by
    intro s f h
    cases f with
    | none => simp [pctUpper]
    | some f => obtain ⟨_, _, h, _⟩ := h; exact pctUpper_not_mem (by decide) h
  rcases hs with ⟨x, a, q, f, hp⟩ | ⟨q, f, hp⟩
  · rw [Uri.parse_parts ip hp, Res.bind_eq_ok] at h
    obtain ⟨a', ha, h⟩ := h
    simp only [Option.isSome_some, if_true, Option.getD_some, Res.ok.injEq] at h
    subst h
    have hok := Uri.auth_sound ip ha
    obtain ⟨r1, r2, r3, r4, h1, h2, h3, h4, h5⟩ := hp
    have hpath : normPath path = [] ∨ (normPath path).head? = some '/' := by
      rcases head_path h2 h3 hb with rfl | h
      · exact .inl rfl
      · exact (normPath_slash h).symm
    have := Uri.text_parts ip (u := ⟨lower x, a', normPath path, pctUpper (q.getD []), pctUpper (f.getD [])⟩) (Uri.lower_scheme h1.1) hok
      (by
        intro c hc
        rcases normPath_mem hc with rfl | h | h
        · decide
        · exact h3.2.1 c h
        · constructor <;> rintro rfl <;> revert h <;> decide) hpath (hq h4) (hf h5)
    rw [Uri.parse_parts ip this]
    simp only [Option.getD_some, Uri.auth_print ip hok, Res.ok_bind, Uri.some'_getD, Option.isSome_some, if_true, normPath_idem, pctUpper_idem,
      Uri.lower_idem h1.1]
  · rw [Uri.parse_parts ip hp, Res.bind_eq_ok] at h
    obtain ⟨a', ha, h⟩ := h
    have hnil : parseAuthority ip [] = .ok ⟨[], [], []⟩ := authority_name ip (h := []) (by simp)
    simp only [Option.getD_none, hnil, Res.ok.injEq] at ha
    subst ha
    simp only [Option.isSome_none, Option.getD_none, Res.ok.injEq, Bool.false_eq_true, if_false] at h
    subst h
    obtain ⟨r1, r2, r3, r4, ⟨rfl, h1⟩, ⟨rfl, h2⟩, h3, h4, h5⟩ := hp
    have := Uri.text_parts_rel (u := ⟨lower [], ⟨[], [], []⟩, path, pctUpper (q.getD []), pctUpper (f.getD [])⟩) rfl rfl h3.2.1
      (by
        rintro ⟨x, r, hx, e⟩
        exact h1 ⟨x, r ++ r3, hx, by rw [h3.1, show path = x ++ ':' :: r from e]; simp⟩)
      (by
        intro r e
        exact h2 (r ++ r3) (by rw [h3.1, show path = _ from e]; simp)) (hq h4) (hf h5)
    rw [Uri.parse_parts ip this]
    simp only [Option.getD_none, hnil, Res.ok_bind, Uri.some'_getD, Option.isSome_none, pctUpper_idem, Bool.false_eq_true, if_false]

theorem scheme_http : SchemeText c!"http" := ⟨'h', c!"ttp", rfl, by decide, by decide⟩

/-- A text `http://a` followed by a path. -/
theorem parts_http {p : Str} (h1 : ∀ c ∈ p, c ≠ '?' ∧ c ≠ '#') (h2 : ∀ c, p.head? = some c → c ∈ c!"\\/?#") :
    Parts (c!"http://a" ++ p) (some c!"http") (some c!"a") p none none :=
  ⟨c!"//a" ++ p, p, [], [], ⟨scheme_http, by simp⟩, ⟨by simp, by decide, h2⟩, ⟨by simp, h1, by simp⟩, ⟨rfl, by simp⟩, by simp [FragmentOf]⟩

theorem parse_http {p : Str} (h1 : ∀ c ∈ p, c ≠ '?' ∧ c ≠ '#') (h2 : ∀ c, p.head? = some c → c ∈ c!"\\/?#") :
    parse ip (c!"http://a" ++ p) = .ok ⟨c!"http", ⟨[], c!"a", []⟩, normPath p, [], []⟩ := by
  rw [Uri.parse_parts ip (parts_http h1 h2)]
  have : parseAuthority ip c!"a" = .ok ⟨[], c!"a", []⟩ := authority_name ip (by decide)
  simp only [Option.getD_some, this, Res.ok_bind]
  rfl

example : Shape c!"http://a/b/../c" c!"/b/../c" := .inl ⟨_, _, _, _, parts_http (p := c!"/b/../c") (by decide) (by decide)⟩

/-- Not true of all paths: `http://a\/../x` is printed as `http://ax`. -/
theorem C48_round_trip_violated : ∃ s p u, Shape s p ∧ parse ip s = .ok u ∧ parse ip (text u) ≠ .ok u := by
  have h1 := parse_http ip (p := c!"\\/../x") (by decide) (by decide)
  refine ⟨_, _, _, .inl ⟨_, _, _, _, parts_http (p := c!"\\/../x") (by decide) (by decide)⟩, h1, ?_⟩
  have e : text ⟨c!"http", ⟨[], c!"a", []⟩, normPath c!"\\/../x", [], []⟩ = c!"http://ax" := by rfl
  rw [e]
  have hp : Parts c!"http://ax" (some c!"http") (some c!"ax") [] none none :=
    ⟨c!"//ax", [], [], [], ⟨scheme_http, by simp⟩, ⟨rfl, by decide, by simp⟩, ⟨by simp, by simp, by simp⟩, ⟨rfl, by simp⟩, by simp [FragmentOf]⟩
  rw [Uri.parse_parts ip hp]
  have : parseAuthority ip c!"ax" = .ok ⟨[], c!"ax", []⟩ := authority_name ip (by decide)
  simp only [Option.getD_some, this, Res.ok_bind]
  simp

/-! ## C49: normalisation -/

/-- URIs that a program can make. -/
inductive Made : Uri → Prop
  | parse {s : Str} {u : Uri} (h : parse ip s = .ok u) : Made u
  | copy {u v : Uri} {a b c d e : Option Str} (hu : Made u) (h : copyWith ip u a b c d e = .ok v) : Made v
  | base {u v : Uri} (hu : Made u) (h : baseUri ip u = .ok v) : Made v
  | resolve {u b v : Uri} (hb : Made b) (hu : Made u) (h : resolve ip b u = .ok v) : Made v

/-- Normalised. -/
structure Normal (u : Uri) : Prop where
  path : u.scheme ≠ [] → normPath u.path = u.path
  query : pctUpper u.query = u.query
  fragment : pctUpper u.fragment = u.fragment

theorem normal_copy {u v : Uri} {a b c d e : Option Str} (hu : Normal u) (h : copyWith ip u a b c d e = .ok v) : Normal v := by
  simp only [copyWith] at h
  rw [Res.bind_eq_ok] at h
  obtain ⟨au, -, h⟩ := h
  simp only [Res.ok.injEq] at h
  subst h
  refine ⟨?_, ?_, ?_⟩
  · intro hs
    simp only at hs
    simp only [if_pos hs, normPath_idem]
  · cases d with
    | none => exact hu.query
    | some d => exact pctUpper_idem d
  · cases e with
    | none => exact hu.fragment
    | some e => exact pctUpper_idem e

theorem normal_of_made {u : Uri} (h : Made ip u) : Normal u := by
  induction h with
  | parse h =>
    rename_i s u
    obtain ⟨sch, au, p, q, f, hp⟩ := Uri.parts_exist s
    rw [Uri.parse_parts ip hp, Res.bind_eq_ok] at h
    obtain ⟨a', ha, h⟩ := h
    simp only [Res.ok.injEq] at h
    subst h
    refine ⟨?_, pctUpper_idem _, pctUpper_idem _⟩
    intro hs
    cases sch with
    | none => exact absurd rfl hs
    | some x => simp [normPath_idem]
  | copy hu h ih => exact normal_copy ip ih h
  | base hu h ih => exact normal_copy ip ih h
  | resolve hb hu h ihb ihu =>
    simp only [Uri.resolve] at h
    rw [Res.bind_eq_ok] at h
    obtain ⟨t, -, h⟩ := h
    split at h
    · exact normal_copy ip ihu h
    · split at h
      · exact normal_copy ip ihb h
      · split at h
        · exact normal_copy ip ihb h
        · exact normal_copy ip ihb h

theorem copy_normal {u : Uri} (h : Normal u) : copyWith ip u = .ok u := by
  obtain ⟨s, a, p, q, f⟩ := u
  have := h.path
  simp only at this
  simp only [copyWith, Option.getD_none, Option.map_none, Uri.authorityOr, Res.ok_bind]
  by_cases hs : s = []
  · simp [hs]
  · simp [hs, this hs]

/-- C49: copying without arguments changes nothing. -/
theorem C49_copy {u : Uri} (h : Made ip u) : copyWith ip u = .ok u := copy_normal ip (normal_of_made ip h)

/-- C49: `base_uri` drops exactly query and fragment, and is idempotent. -/
theorem C49_base {u : Uri} (h : Made ip u) : baseUri ip u = .ok { u with query := [], fragment := [] } ∧
    baseUri ip { u with query := [], fragment := [] } = .ok { u with query := [], fragment := [] } := by
  have hn := (normal_of_made ip h).path
  obtain ⟨s, a, p, q, f⟩ := u
  simp only at hn
  simp only [Uri.baseUri_eq]
  by_cases hs : s = []
  · simp [hs]
  · simp [hs, hn hs]

/-- C49: what normalised means.  There are no dot segments (in a URI with scheme), and percent encodings are in upper case. -/
theorem C49_normal {u : Uri} (h : Made ip u) :
    (u.scheme ≠ [] → NoDotSegments u.path ∧ UpperEncodings u.path) ∧ UpperEncodings u.query ∧ UpperEncodings u.fragment := by
  have hn := normal_of_made ip h
  have up : ∀ {s : Str}, pctUpper s = s → UpperEncodings s := by
    rintro _ h A a b B rfl ha hb
    have := pctUpper_fixed h (Uri.hex_iff.2 ha) (Uri.hex_iff.2 hb)
    have low : ∀ {c : Char}, Hex c → c.toUpper = c → c.isLower = false := by
      intro c hc he
      have := ascii_all (P := fun c => !hex c || !(c.toUpper == c) || !c.isLower) (by decide +kernel) c (hex_ascii (Uri.hex_iff.2 hc))
      simpa [Uri.hex_iff.2 hc, he] using this
    exact ⟨low ha this.1, low hb this.2⟩
  refine ⟨fun hs => ⟨?_, ?_⟩, up hn.query, up hn.fragment⟩
  · rw [← hn.path hs]
    exact ⟨fun hm => (normPath_noDots _ _ hm).1 rfl, fun hm => (normPath_noDots _ _ hm).2 rfl⟩
  · apply up
    rw [← hn.path hs]
    exact pctUpper_normPath _

example : Made exampleIp ⟨c!"http", ⟨[], c!"a", []⟩, c!"/c%2F", [], []⟩ :=
  .parse (parse_http exampleIp (p := c!"/b/../c%2f") (by decide) (by decide))

/-! ## C50: resolution -/

/-- A text with a scheme and a legal path is read as an absolute URI. -/
theorem isAbsolute_parts {s x p : Str} {au q f : Option Str} {u : Uri} (hp : Parts s (some x) au p q f) (hl : LegalPath p)
    (h : parse ip s = .ok u) : isAbsolute ip u = .ok true := by
  have hbase := (C49_base ip (Made.parse h)).1
  rw [Uri.parse_parts ip hp, Res.bind_eq_ok] at h
  obtain ⟨a', ha, h⟩ := h
  simp only [Option.isSome_some, if_true, Option.getD_some, Res.ok.injEq] at h
  subst h
  have hsx : SchemeText x := by obtain ⟨_, _, _, _, h1, _⟩ := hp; exact h1.1
  have hlow := Uri.lower_scheme hsx
  have hne : lower x ≠ [] := by obtain ⟨a, r, e, _⟩ := hlow; rw [e]; simp
  simp only [isAbsolute, hbase, Res.ok_bind, Res.ok.injEq]
  rw [Uri.text_eq]
  simp only [if_neg hne, if_true, List.append_nil]
  exact Uri.absolute_of hlow (Uri.authText_authC ip (Uri.auth_sound ip ha)) (Uri.legal_norm hl)

/-- C50: an absolute URI (one with a scheme) is returned unchanged, if its path has only characters that RFC 3986 allows. -/
theorem C50_absolute_partial {s x p : Str} {au q f : Option Str} {u : Uri} (base : Uri) (hp : Parts s (some x) au p q f) (hl : LegalPath p)
    (h : parse ip s = .ok u) : resolveText ip base s = .ok u := by
  have hcopy := C49_copy ip (Made.parse h)
  simp only [resolveText, h, Res.ok_bind, Uri.resolve]
  simp [isAbsolute_parts ip hp hl h, hcopy]

example : LegalPath c!"/b/../c%2f" := by
  have h1 : ∀ {c : Char}, regC c = true → SegChar c := fun h => .inl (Uri.regC_iff.1 h)
  have hx : ∀ {c : Char}, hex c = true → Hex c := fun h => Uri.hex_iff.1 h
  intro x hm
  have : strSplit '/' c!"/b/../c%2f" = [[], c!"b", c!"..", c!"c%2f"] := by decide
  rw [this] at hm
  simp only [List.mem_cons, List.not_mem_nil, or_false] at hm
  rcases hm with rfl | rfl | rfl | rfl
  · exact .nil
  · exact .chr (h1 (by decide)) .nil
  · exact .chr (h1 (by decide)) (.chr (h1 (by decide)) .nil)
  · exact .chr (h1 (by decide)) (.pct (hx (by decide)) (hx (by decide)) .nil)

/-- A reference with neither scheme nor authority. -/
theorem reference {s p : Str} {q f : Option Str} (hp : Parts s none none p q f) :
    parse ip s = .ok ⟨[], ⟨[], [], []⟩, p, pctUpper (q.getD []), pctUpper (f.getD [])⟩ ∧
      isAbsolute ip ⟨[], ⟨[], [], []⟩, p, pctUpper (q.getD []), pctUpper (f.getD [])⟩ = .ok false := by
  have hnil : parseAuthority ip [] = .ok ⟨[], [], []⟩ := authority_name ip (h := []) (by simp)
  constructor
  · rw [Uri.parse_parts ip hp]
    simp only [Option.getD_none, hnil, Res.ok_bind]
    rfl
  · simp only [isAbsolute, Uri.baseUri_eq, Res.ok_bind, Res.ok.injEq]
    cases hb : (Re.pyMatch absoluteMatcher (text ⟨[], ⟨[], [], []⟩, if [] ≠ ([] : Str) then normPath p else p, [], []⟩)).isSome with
    | false => rfl
    | true =>
      obtain ⟨x, r, hx, e⟩ := Uri.absolute_scheme hb
      rw [Uri.text_eq] at e
      simp [authorityText] at e
      obtain ⟨r1, r2, r3, r4, ⟨rfl, h1⟩, ⟨rfl, h2⟩, h3, _⟩ := hp
      exact absurd ⟨x, r ++ r3, hx, by rw [h3.1, e]; simp⟩ h1

/-- The path of a URI with the scheme of `base`. -/
def normalFor (base : Uri) (p : Str) : Str := if base.scheme = [] then p else normPath p

/-- C50: an empty path keeps the path of the base. -/
theorem C50_empty {s : Str} {q f : Option Str} {base : Uri} (hb : Made ip base) (hp : Parts s none none [] q f) :
    resolveText ip base s = .ok { base with query := if q.getD [] = [] then base.query else pctUpper (q.getD []), fragment := pctUpper (f.getD []) } := by
  obtain ⟨h1, h2⟩ := reference ip hp
  have hn := normal_of_made ip hb
  have hq : pctUpper (q.getD []) = [] ↔ q.getD [] = [] := by
    rw [← List.length_eq_zero_iff, pctUpper_length, List.length_eq_zero_iff]
  simp only [resolveText, h1, Res.ok_bind, Uri.resolve, h2, Bool.false_eq_true, if_false, if_true, copyWith, Uri.authorityOr, Option.getD_none,
    Option.map_some, Option.getD_some, pctUpper_idem, hq]
  have := hn.path
  obtain ⟨bs, ba, bp, bq, bf⟩ := base
  simp only at this
  by_cases hq : q.getD [] = [] <;> by_cases hs : bs = [] <;> simp [hq, hs, pctUpper_idem] <;> exact this hs

/-- C50: an absolute path replaces the path. -/
theorem C50_absolute_path {s p : Str} {q f : Option Str} {base : Uri} (hp : Parts s none none p q f) (hs : p.head? = some '/') :
    resolveText ip base s = .ok { base with path := normalFor base p, query := pctUpper (q.getD []), fragment := pctUpper (f.getD []) } := by
  obtain ⟨h1, h2⟩ := reference ip hp
  have hne : p ≠ [] := by rintro rfl; simp at hs
  simp only [resolveText, h1, Res.ok_bind, Uri.resolve, h2, Bool.false_eq_true, if_false, if_neg hne, if_pos hs, copyWith, Uri.authorityOr,
    Option.map_some, Option.getD_some, pctUpper_idem, normalFor]
  by_cases hs : base.scheme = [] <;> simp [hs]

theorem upTo_slash {A B : Str} (h : '/' ∉ B) : upToLastSlash (A ++ '/' :: B) = A := by
  simp only [upToLastSlash]
  rw [if_pos (by simp), strSplit_last h, List.dropLast_concat, strJoin_split]

/-- C50: a relative path replaces what follows the last slash, if the path of the base has a slash. -/
theorem C50_relative_partial {s p A B : Str} {q f : Option Str} {base : Uri} (hp : Parts s none none p q f) (hne : p ≠ [])
    (hs : p.head? ≠ some '/') (hb : base.path = A ++ '/' :: B) (hB : '/' ∉ B) :
    resolveText ip base s
      = .ok { base with path := normalFor base (A ++ '/' :: p), query := pctUpper (q.getD []), fragment := pctUpper (f.getD []) } := by
  obtain ⟨h1, h2⟩ := reference ip hp
  simp only [resolveText, h1, Res.ok_bind, Uri.resolve, h2, Bool.false_eq_true, if_false, if_neg hne, if_neg hs, copyWith, Uri.authorityOr,
    Option.map_some, Option.getD_some, pctUpper_idem, normalFor, hb, upTo_slash hB]
  by_cases hs : base.scheme = [] <;> simp [hs]

/-- C50: what normalising does to a path that begins with a slash: the segments are followed one by one, `.` staying and `..`
going up, and a last `.` or `..` leaves an empty segment.  For paths that do not lead above the root. -/
theorem C50_dots_partial {segs res : List Str} (hne : segs ≠ []) (hno : ∀ x ∈ segs, '/' ∉ x) (hup : ∀ x ∈ segs, pctUpper x = x)
    (h : follow [] segs = some res) :
    normPath ('/' :: strJoin c!"/" segs) = '/' :: strJoin c!"/" (if segs.getLast? = some c!"." ∨ segs.getLast? = some c!".." then res ++ [[]] else res) := by
  obtain ⟨y, ys, rfl⟩ : ∃ y ys, segs = y :: ys := by
    cases segs with
    | nil => exact absurd rfl hne
    | cons y ys => exact ⟨y, ys, rfl⟩
  have e1 : '/' :: strJoin c!"/" (y :: ys) = strJoin c!"/" ([] :: y :: ys) := rfl
  have hup' : pctUpper (strJoin c!"/" ([] :: y :: ys)) = strJoin c!"/" ([] :: y :: ys) := by
    rw [pctUpper_join, map_fix]
    intro x hx
    rcases List.mem_cons.1 hx with rfl | hx
    · rfl
    · exact hup x hx
  have hsplit : strSplit '/' (strJoin c!"/" ([] :: y :: ys)) = [] :: y :: ys := by
    refine strSplit_join (by simp) fun x hx => ?_
    rcases List.mem_cons.1 hx with rfl | hx
    · simp
    · exact hno x hx
  have hfold : (strSplit '/' (strJoin c!"/" ([] :: y :: ys))).foldl dotStep [] = [] :: res := by
    rw [hsplit]
    have := Uri.fold_follow [[]] h
    simpa [dotStep] using this
  have hsuf : ∀ e : Str, '/' ∉ e → (('/' :: e).isSuffixOf (strJoin c!"/" ([] :: y :: ys)) = true ↔ (y :: ys).getLast? = some e) := by
    intro e he
    rw [List.isSuffixOf_iff_suffix]
    constructor
    · rintro ⟨a, ha⟩
      have := congrArg (strSplit '/') ha
      rw [hsplit, strSplit_last he] at this
      have h2 := congrArg List.getLast? this
      simpa using h2.symm
    · intro hl
      obtain ⟨init, hi⟩ : ∃ init, y :: ys = init ++ [e] := List.getLast?_eq_some_iff.1 hl
      rw [hi]
      have hjoin : ∀ (l : List Str), l ≠ [] → ∃ p, strJoin c!"/" (l ++ [e]) = p ++ '/' :: e := by
        intro l
        induction l with
        | nil => intro h; exact absurd rfl h
        | cons a l ih =>
          intro _
          cases l with
          | nil => exact ⟨a, by simp [strJoin]⟩
          | cons b l =>
            obtain ⟨p, hp⟩ := ih (by simp)
            exact ⟨a ++ '/' :: p, by simp only [List.cons_append, strJoin] at hp ⊢; rw [hp]; simp⟩
      obtain ⟨p, hp⟩ := hjoin ([] :: init) (by simp)
      exact ⟨p, by rw [← hp]; rfl⟩
  rw [e1, normPath, hup', removeDots_eq, outL, hfold]
  have hres : ∀ l : List Str, l ≠ [] → strJoin c!"/" ([] :: l) = '/' :: strJoin c!"/" l := by
    intro l hl
    cases l with
    | nil => exact absurd rfl hl
    | cons a l => rfl
  have hlast : ¬ ((y :: ys).getLast? = some c!"." ∨ (y :: ys).getLast? = some c!"..") → res ≠ [] := by
    intro hl
    rintro rfl
    obtain ⟨e, he⟩ : ∃ e, (y :: ys).getLast? = some e := ⟨_, List.getLast?_cons ..⟩
    obtain ⟨init, hi⟩ : ∃ init, y :: ys = init ++ [e] := List.getLast?_eq_some_iff.1 he
    rw [he] at hl
    simp only [Option.some.injEq, not_or] at hl
    have hf := Uri.fold_follow [] h
    rw [hi, List.foldl_append] at hf
    simp [dotStep, hl.1, hl.2] at hf
  have c1 := hsuf c!"." (by decide)
  have c2 := hsuf c!".." (by decide)
  simp only [List.isEmpty_cons, List.head?_cons, bne_self_eq_false, Bool.or_false, Bool.and_false, Bool.false_eq_true, if_false, Bool.or_eq_true, c1, c2]
  by_cases hl : (y :: ys).getLast? = some c!"." ∨ (y :: ys).getLast? = some c!".."
  · rw [if_pos hl, if_pos hl]
    exact hres (res ++ [[]]) (by simp)
  · rw [if_neg hl, if_neg hl]
    exact hres res (hlast hl)

example : normPath c!"/b/c/./../g" = c!"/b/g" :=
  C50_dots_partial (segs := [c!"b", c!"c", c!".", c!"..", c!"g"]) (res := [c!"b", c!"g"]) (by decide) (by decide) (by decide) (by decide)

/-- Above the root the path can get lost: `/../` becomes empty, where RFC 3986 gives `/`. -/
theorem C50_dots_violated : normPath c!"/../" = [] ∧ normPath c!"/..//b" = c!"/b" := by decide

/-- C50: the result of resolution has no dot segments, if it has a scheme. -/
theorem C50_no_dots_partial {base u v : Uri} (hb : Made ip base) (hu : Made ip u) (h : resolve ip base u = .ok v) (hs : v.scheme ≠ []) :
    NoDotSegments v.path := ((C49_normal ip (.resolve hb hu h)).1 hs).1

theorem made_a : Made ip ⟨c!"http", ⟨[], c!"a", []⟩, c!"/", [], []⟩ := .parse (parse_http ip (p := c!"/") (by decide) (by decide))

/-- A space in the path, and the URI is not taken for absolute: `http://b/x y` resolved against `http://a/` is `http://a/x y`. -/
theorem C50_absolute_violated : ∃ base u v s p, Made ip base ∧ Parts s (some c!"http") (some c!"b") p none none ∧ parse ip s = .ok u ∧
    resolveText ip base s = .ok v ∧ u.authority.host = c!"b" ∧ v.authority.host = c!"a" := by
  have hp : Parts c!"http://b/x y" (some c!"http") (some c!"b") c!"/x y" none none :=
    ⟨c!"//b/x y", c!"/x y", [], [], ⟨scheme_http, by simp⟩, ⟨rfl, by decide, by decide⟩, ⟨rfl, by decide, by simp⟩, ⟨rfl, by simp⟩,
      by simp [FragmentOf]⟩
  have hb : parseAuthority ip c!"b" = .ok ⟨[], c!"b", []⟩ := authority_name ip (by decide)
  have h : parse ip c!"http://b/x y" = .ok ⟨c!"http", ⟨[], c!"b", []⟩, c!"/x y", [], []⟩ := by
    rw [Uri.parse_parts ip hp]
    simp only [Option.getD_some, hb, Res.ok_bind]
    rfl
  refine ⟨_, _, ⟨c!"http", ⟨[], c!"a", []⟩, c!"/x y", [], []⟩, _, _, made_a ip, hp, h, ?_, rfl, rfl⟩
  have ha : isAbsolute ip ⟨c!"http", ⟨[], c!"b", []⟩, c!"/x y", [], []⟩ = .ok false :=
    congrArg Res.ok (by decide +kernel : (Re.pyMatch absoluteMatcher c!"http://b/x y").isSome = false)
  simp only [resolveText, h, Res.ok_bind, Uri.resolve, ha]
  rfl

/-- If the path of the base has no slash, its last character is cut off: `d` resolved against `abc` is `ab/d`. -/
theorem C50_relative_violated : ∃ base v, Made ip base ∧ base.path = c!"abc" ∧ resolveText ip base c!"d" = .ok v ∧ v.path = c!"ab/d" := by
  have rel : ∀ p : Str, (∀ c ∈ p, c ∉ c!":/?#") → Parts p none none p none none := by
    intro p hp
    refine ⟨p, p, [], [], ⟨rfl, ?_⟩, ⟨rfl, ?_⟩, ⟨by simp, ?_, by simp⟩, ⟨rfl, by simp⟩, by simp [FragmentOf]⟩
    · rintro ⟨x, r, _, rfl⟩; exact hp ':' (by simp) (by decide)
    · rintro r rfl; exact hp '/' (by simp) (by decide)
    · intro c hc; constructor <;> rintro rfl <;> exact hp _ hc (by decide)
  have h1 := reference ip (rel c!"abc" (by decide))
  have h2 := reference ip (rel c!"d" (by decide))
  refine ⟨_, ⟨[], ⟨[], [], []⟩, c!"ab/d", [], []⟩, .parse h1.1, rfl, ?_, rfl⟩
  simp only [resolveText, h2.1, Res.ok_bind, Uri.resolve, h2.2]
  rfl

/-- A reference that begins with `//` and looks like a scheme and a colon without it is taken for absolute, and its path is not
normalised. -/
theorem C50_no_dots_violated : ∃ base v, Made ip base ∧ base.scheme ≠ [] ∧ resolveText ip base c!"//a:80/../x" = .ok v ∧ ¬ NoDotSegments v.path := by
  have hp : Parts c!"//a:80/../x" none (some c!"a:80") c!"/../x" none none := by
    refine ⟨c!"//a:80/../x", c!"/../x", [], [], ⟨rfl, ?_⟩, ⟨rfl, by decide, by decide⟩, ⟨rfl, by decide, by simp⟩, ⟨rfl, by simp⟩,
      by simp [FragmentOf]⟩
    rintro ⟨x, r, ⟨a, t, rfl, ha, _⟩, e⟩
    simp at e
    rw [← e.1] at ha
    exact absurd ha (by decide)
  have hb : parseAuthority ip c!"a:80" = .ok ⟨[], c!"a", c!"80"⟩ :=
    Uri.auth_print ip (a := ⟨[], c!"a", c!"80"⟩) ⟨.inl rfl, .inl (Uri.enc_all fun c hc => Uri.regC_iff.1 ((by decide : ∀ c ∈ c!"a", regC c = true) c hc)),
      .inr ⟨by decide, by decide, by decide⟩⟩
  have h : parse ip c!"//a:80/../x" = .ok ⟨[], ⟨[], c!"a", c!"80"⟩, c!"/../x", [], []⟩ := by
    rw [Uri.parse_parts ip hp]
    simp only [Option.getD_some, hb, Res.ok_bind]
    rfl
  have ha : isAbsolute ip ⟨[], ⟨[], c!"a", c!"80"⟩, c!"/../x", [], []⟩ = .ok true :=
    congrArg Res.ok (by decide +kernel : (Re.pyMatch absoluteMatcher c!"a:80/../x").isSome = true)
  refine ⟨_, ⟨[], ⟨[], c!"a", c!"80"⟩, c!"/../x", [], []⟩, made_a ip, by simp, ?_, ?_⟩
  · simp only [resolveText, h, Res.ok_bind, Uri.resolve, ha]
    rfl
  · intro hn
    exact hn.2 (by decide)

/-! ## C51: equality -/

theorem eq_iff {a b : Uri} : eq a b = true ↔ a = b := by
  obtain ⟨s, ⟨x, y, z⟩, p, q, f⟩ := a
  obtain ⟨s', ⟨x', y', z'⟩, p', q', f'⟩ := b
  simp [eq, and_assoc]

/-- C51: equal URIs have equal texts and hash equally. -/
theorem C51_hash {a b : Uri} (h : eq a b = true) : text a = text b ∧ hashKey a = hashKey b := by
  rw [eq_iff] at h; subst h; exact ⟨rfl, rfl⟩

/-- C51: comparison is an equivalence relation. -/
theorem C51_equivalence (a b c : Uri) : eq a a = true ∧ (eq a b = eq b a) ∧ (eq a b = true → eq b c = true → eq a c = true) := by
  refine ⟨eq_iff.2 rfl, ?_, fun h1 h2 => eq_iff.2 ((eq_iff.1 h1).trans (eq_iff.1 h2))⟩
  rw [Bool.eq_iff_iff, eq_iff, eq_iff, eq_comm]

/-- C51: equal means equal in every part. -/
theorem C51_parts {a b : Uri} : eq a b = true ↔ a.scheme = b.scheme ∧ a.authority.userinfo = b.authority.userinfo ∧
    a.authority.host = b.authority.host ∧ a.authority.port = b.authority.port ∧ a.path = b.path ∧ a.query = b.query ∧ a.fragment = b.fragment := by
  simp [eq, and_assoc]

example : eq ⟨c!"http", ⟨[], c!"a", []⟩, c!"/", [], []⟩ ⟨c!"http", ⟨[], c!"a", []⟩, c!"/", [], []⟩ = true := by decide

end Verif.Props
