import Verif.Props.UriParts
import Verif.Spec.Dots
/-!
# C48 and C50: which URIs are read again as they are printed, and what becomes of paths that lead above the root
-/

namespace Verif.Props
open Verif Rfc3986 UriSpec Uri
open Verif.Pointer (strSplit_none strSplit_append)

variable (ip : IpRe)

theorem query_upper {s r : Str} {q : Option Str} (h : QueryOf s q r) : '#' ∉ pctUpper (q.getD []) := by
  cases q with
  | none => simp [pctUpper]
  | some q => exact pctUpper_not_mem (by decide) h.2.1

theorem fragment_upper {s : Str} {f : Option Str} (h : FragmentOf s f) : '\n' ∉ pctUpper (f.getD []) := by
  cases f with
  | none => simp [pctUpper]
  | some f => obtain ⟨_, _, h, _⟩ := h; exact pctUpper_not_mem (by decide) h

/-- A path is cut where an authority before it would end. -/
theorem cut_path (p : Str) : ∃ A P, p = A ++ P ∧ (∀ c ∈ A, c ∉ c!"\\/?#") ∧ ∀ c, P.head? = some c → c ∈ c!"\\/?#" := by
  induction p with
  | nil => exact ⟨[], [], rfl, by simp, by simp⟩
  | cons a p ih =>
    by_cases ha : a ∈ c!"\\/?#"
    · exact ⟨[], a :: p, rfl, by simp, by simpa using ha⟩
    · obtain ⟨A, P, rfl, h1, h2⟩ := ih
      refine ⟨a :: A, P, rfl, ?_, h2⟩
      intro c hc
      rcases List.mem_cons.1 hc with rfl | hc
      · exact ha
      · exact h1 c hc

/-- What is read again when a URI with a scheme is printed: a path that does not begin with a slash runs into the authority. -/
theorem text_cut {u : Uri} {A P : Str} (h1 : SchemeText u.scheme) (h2 : AuthOk ip u.authority) (h3 : ∀ c ∈ u.path, c ≠ '?' ∧ c ≠ '#')
    (e : u.path = A ++ P) (hA : ∀ c ∈ A, c ∉ c!"\\/?#") (hP : ∀ c, P.head? = some c → c ∈ c!"\\/?#") (h4 : '#' ∉ u.query) (h5 : '\n' ∉ u.fragment) :
    Parts (text u) (some u.scheme) (some (authorityText u.authority ++ A)) P (some' u.query) (some' u.fragment) := by
  obtain ⟨r3, r4, e3, e4, e5⟩ := tail_parts (p := P) (fun c hc => h3 c (by rw [e]; simp [hc])) h4 h5
  refine ⟨_, _, r3, r4, ⟨h1, ?_⟩, ⟨rfl, ?_, ?_⟩, e3, e4, e5⟩
  · rw [text_eq, e]
    obtain ⟨a, r, e, _⟩ := h1
    rw [e]; simp
  · intro c hc
    rcases List.mem_append.1 hc with hc | hc
    · exact authText_authC ip h2 c hc
    · exact hA c hc
  · intro c hc
    cases P with
    | nil =>
      by_cases h1 : u.query = []
      · by_cases h2 : u.fragment = []
        · simp [h1, h2] at hc
        · simp [h1, h2] at hc; simp [← hc]
      · simp [h1] at hc; simp [← hc]
    | cons a p => exact hP c (by simpa using hc)

/-- What is left of a path without dot segments has none. -/
theorem cut_noDots {A P : Str} (h : NoDots (A ++ P)) (hA : ∀ c ∈ A, c ∉ c!"\\/?#") (hP : ∀ c, P.head? = some c → c ∈ c!"\\/?#") : NoDotSegments P := by
  have hs : '/' ∉ A := fun h => hA _ h (by decide)
  have first : ∀ x : Str, (∀ c, x.head? = some c → c ∈ c!"\\/?#") → x ≠ c!"." ∧ x ≠ c!".." := by
    intro x hx
    constructor <;> rintro rfl <;> exact absurd (hx '.' rfl) (by decide)
  have key : ∀ x ∈ strSplit '/' P, x ≠ c!"." ∧ x ≠ c!".." := by
    intro x hx
    by_cases hm : '/' ∈ P
    · obtain ⟨B, C, hB, rfl⟩ : ∃ B C, '/' ∉ B ∧ P = B ++ '/' :: C := by
        obtain ⟨B, C, e, hB⟩ := List.eq_append_cons_of_mem hm
        exact ⟨B, C, hB, e⟩
      rw [strSplit_append hB] at hx
      rw [← List.append_assoc, NoDots, strSplit_append (by simp [hs, hB])] at h
      rcases List.mem_cons.1 hx with rfl | hx
      · refine first _ fun c hc => hP c ?_
        cases x with
        | nil => cases hc
        | cons a x => exact hc
      · exact h x (by simp [hx])
    · rw [strSplit_none hm] at hx
      simp at hx; subst hx
      exact first _ hP
  exact ⟨fun h => (key _ h).1 rfl, fun h => (key _ h).2 rfl⟩

/-- C48 for texts with scheme and authority: the URI is read again as it is printed exactly if its path is empty or begins with a
slash or a backslash. -/
theorem C48_exact {s x a path : Str} {q f : Option Str} {u : Uri} (hp : Parts s (some x) (some a) path q f) (h : parse ip s = .ok u) :
    parse ip (text u) = .ok u ↔ ∀ c, u.path.head? = some c → c = '/' ∨ c = '\\' := by
  rw [Uri.parse_parts ip hp, Res.bind_eq_ok] at h
  obtain ⟨a', ha, h⟩ := h
  simp only [Option.isSome_some, if_true, Option.getD_some, Res.ok.injEq] at h
  subst h
  have hok := Uri.auth_sound ip ha
  obtain ⟨r1, r2, r3, r4, h1, h2, h3, h4, h5⟩ := hp
  have hc : ∀ c ∈ normPath path, c ≠ '?' ∧ c ≠ '#' := by
    intro c hc
    rcases normPath_mem hc with rfl | h | h
    · decide
    · exact h3.2.1 c h
    · constructor <;> rintro rfl <;> revert h <;> decide
  obtain ⟨A, P, e, hA, hP⟩ := cut_path (normPath path)
  have := text_cut ip (u := ⟨lower x, a', normPath path, pctUpper (q.getD []), pctUpper (f.getD [])⟩) (Uri.lower_scheme h1.1) hok hc e hA hP
    (query_upper h4) (fragment_upper h5)
  rw [Uri.parse_parts ip this]
  have hd : normPath P = pctUpper P := norm_upper (cut_noDots (e ▸ normPath_noDots path) hA hP)
  cases A with
  | nil =>
    simp only [List.nil_append] at e
    subst e
    simp only [List.append_nil, Option.getD_some, Uri.auth_print ip hok, Res.ok_bind, Uri.some'_getD, Option.isSome_some, if_true, normPath_idem,
      pctUpper_idem, Uri.lower_idem h1.1, true_iff]
    intro c hh
    have h6 := hP c hh
    have h7 := hc c (List.mem_of_mem_head? hh)
    simp only [List.mem_cons, List.not_mem_nil, or_false] at h6
    rcases h6 with h | h | h | h
    · exact .inr h
    · exact .inl h
    · exact absurd h h7.1
    · exact absurd h h7.2
  | cons b A =>
    constructor
    · intro h
      rw [Res.bind_eq_ok] at h
      obtain ⟨a2, -, h⟩ := h
      simp only [Option.isSome_some, if_true, Res.ok.injEq, Uri.mk.injEq] at h
      have h6 := congrArg List.length h.2.2.1
      rw [hd, pctUpper_length, e] at h6
      simp at h6
      omega
    · intro h
      have h6 := hA b (by simp)
      simp only at h
      rcases h b (by rw [e]; rfl) with rfl | rfl <;> exact absurd (by decide) h6

/-- C48 for texts with neither scheme nor authority, whatever the path begins with. -/
theorem C48_relative {s path : Str} {q f : Option Str} {u : Uri} (hp : Parts s none none path q f) (h : parse ip s = .ok u) :
    parse ip (text u) = .ok u := by
  by_cases hb : path.head? = some '\\'
  · rw [Uri.parse_parts ip hp, Res.bind_eq_ok] at h
    obtain ⟨a', ha, h⟩ := h
    have hnil : parseAuthority ip [] = .ok ⟨[], [], []⟩ := authority_name ip (h := []) (by simp)
    simp only [Option.getD_none, hnil, Res.ok.injEq] at ha
    subst ha
    simp only [Option.isSome_none, Option.getD_none, Res.ok.injEq, Bool.false_eq_true, if_false] at h
    subst h
    obtain ⟨r1, r2, r3, r4, ⟨rfl, h1⟩, ⟨rfl, h2⟩, h3, h4, h5⟩ := hp
    have := Uri.text_parts_rel (u := ⟨lower [], ⟨[], [], []⟩, path, pctUpper (q.getD []), pctUpper (f.getD [])⟩) rfl rfl h3.2.1
      (by
        rintro ⟨x, r, hx, e⟩
        exact h1 ⟨x, r ++ r3, hx, by rw [h3.1, show path = x ++ ':' :: r from e]; simp⟩)
      (by
        intro r e
        exact h2 (r ++ r3) (by rw [h3.1, show path = _ from e]; simp)) (query_upper h4) (fragment_upper h5)
    rw [Uri.parse_parts ip this]
    simp only [Option.getD_none, hnil, Res.ok_bind, Uri.some'_getD, Option.isSome_none, pctUpper_idem, Bool.false_eq_true, if_false]
  · exact C48_round_trip_partial ip (.inr ⟨q, f, hp⟩) hb h

/-- `http://a/b` is read again, `http://a\/../x` is not. -/
example : (∃ u, Parts c!"http://a/b" (some c!"http") (some c!"a") c!"/b" none none ∧ parse ip c!"http://a/b" = .ok u ∧ u.path = c!"/b") ∧
    ∃ u, parse ip c!"http://a\\/../x" = .ok u ∧ u.path = c!"x" :=
  ⟨⟨_, parts_http (p := c!"/b") (by decide) (by decide), parse_http ip (p := c!"/b") (by decide) (by decide), by decide⟩,
    ⟨_, parse_http ip (p := c!"\\/../x") (by decide) (by decide), by decide⟩⟩

/-! ## C50: dot segments -/

theorem fold_atRoot (segs out : List Str) : segs.foldl dotStep out.reverse = atRoot out segs := by
  induction segs generalizing out with
  | nil => rfl
  | cons x r ih =>
    rw [List.foldl_cons, atRoot]
    by_cases h1 : x = c!"."
    · rw [if_pos h1, show dotStep out.reverse x = out.reverse by simp [dotStep, h1]]; exact ih out
    · by_cases h2 : x = c!".."
      · rw [if_neg h1, if_pos h2, show dotStep out.reverse x = out.tail.reverse by cases out <;> simp [dotStep, h2]]
        exact ih out.tail
      · rw [if_neg h1, if_neg h2, show dotStep out.reverse x = (x :: out).reverse by simp [dotStep, h1, h2]]
        exact ih (x :: out)

theorem follow_atRoot {segs out res : List Str} (h : follow out segs = some res) : atRoot out segs = res := by
  induction segs generalizing out with
  | nil => simpa [follow, atRoot] using h
  | cons x r ih =>
    simp only [follow] at h
    simp only [atRoot]
    by_cases h1 : x = c!"."
    · rw [if_pos h1] at h ⊢; exact ih h
    · by_cases h2 : x = c!".."
      · rw [if_neg h1, if_pos h2] at h ⊢
        cases out with
        | nil => cases h
        | cons _ o => exact ih h
      · rw [if_neg h1, if_neg h2] at h ⊢; exact ih h

/-- The empty segment before the first slash is lost on the way above the root. -/
theorem fold_climbs {segs out : List Str} (h : follow out segs = none) : segs.foldl dotStep ([] :: out.reverse) = atRoot out segs := by
  induction segs generalizing out with
  | nil => cases h
  | cons x r ih =>
    simp only [follow] at h
    rw [List.foldl_cons, atRoot]
    by_cases h1 : x = c!"."
    · rw [if_pos h1] at h ⊢
      rw [show dotStep ([] :: out.reverse) x = [] :: out.reverse by simp [dotStep, h1]]; exact ih h
    · by_cases h2 : x = c!".."
      · rw [if_neg h1, if_pos h2] at h ⊢
        cases out with
        | nil =>
          rw [show dotStep ([] :: ([] : List Str).reverse) x = ([] : List Str).reverse by simp [dotStep, h2]]
          exact fold_atRoot r []
        | cons a o =>
          rw [show dotStep ([] :: (a :: o).reverse) x = [] :: o.reverse by
            simp only [dotStep, h2]
            rw [if_neg (by decide), if_neg (by simp), List.reverse_cons, ← List.cons_append, List.dropLast_concat]]
          exact ih h
      · rw [if_neg h1, if_neg h2] at h ⊢
        rw [show dotStep ([] :: out.reverse) x = [] :: (x :: out).reverse by simp [dotStep, h1, h2]]; exact ih h

theorem dots_last {y : Str} {ys : List Str} (hno : ∀ x ∈ y :: ys, '/' ∉ x) (e : Str) (he : '/' ∉ e) :
    ('/' :: e).isSuffixOf (strJoin c!"/" ([] :: y :: ys)) = true ↔ (y :: ys).getLast? = some e := by
  have hsplit : strSplit '/' (strJoin c!"/" ([] :: y :: ys)) = [] :: y :: ys := by
    refine strSplit_join (by simp) fun x hx => ?_
    rcases List.mem_cons.1 hx with rfl | hx
    · simp
    · exact hno x hx
  rw [List.isSuffixOf_iff_suffix]
  constructor
  · rintro ⟨a, ha⟩
    have := congrArg (strSplit '/') ha
    rw [hsplit, strSplit_last he] at this
    have h2 := congrArg List.getLast? this
    simpa using h2.symm
  · intro hl
    obtain ⟨init, hi⟩ : ∃ init, y :: ys = init ++ [e] := List.getLast?_eq_some_iff.1 hl
    rw [hi]
    have hjoin : ∀ (l : List Str), l ≠ [] → ∃ p, strJoin c!"/" (l ++ [e]) = p ++ '/' :: e := by
      intro l
      induction l with
      | nil => intro h; exact absurd rfl h
      | cons a l ih =>
        intro _
        cases l with
        | nil => exact ⟨a, by simp [strJoin]⟩
        | cons b l =>
          obtain ⟨p, hp⟩ := ih (by simp)
          exact ⟨a ++ '/' :: p, by simp only [List.cons_append, strJoin] at hp ⊢; rw [hp]; simp⟩
    obtain ⟨p, hp⟩ := hjoin ([] :: init) (by simp)
    exact ⟨p, by rw [← hp]; rfl⟩

/-- C50: what normalising does to every path that begins with a slash.  It is what RFC 3986 says unless the path leads above the root
and the first segment that is left is empty; then a slash is lost. -/
theorem C50_dots_exact {segs : List Str} (hne : segs ≠ []) (hno : ∀ x ∈ segs, '/' ∉ x) (hup : ∀ x ∈ segs, pctUpper x = x) :
    (normPath ('/' :: strJoin c!"/" segs) = withoutDots segs ↔ ¬ (follow [] segs = none ∧ (atRoot [] segs).head? = some [])) ∧
    (follow [] segs = none → (atRoot [] segs).head? = some [] → '/' :: normPath ('/' :: strJoin c!"/" segs) = withoutDots segs) := by
  have lose : follow [] segs = none → (atRoot [] segs).head? = some [] → '/' :: normPath ('/' :: strJoin c!"/" segs) = withoutDots segs := by
    intro hf hh
    obtain ⟨y, ys, rfl⟩ : ∃ y ys, segs = y :: ys := by
      cases segs with
      | nil => exact absurd rfl hne
      | cons y ys => exact ⟨y, ys, rfl⟩
    have e1 : '/' :: strJoin c!"/" (y :: ys) = strJoin c!"/" ([] :: y :: ys) := rfl
    have hup' : pctUpper (strJoin c!"/" ([] :: y :: ys)) = strJoin c!"/" ([] :: y :: ys) := by
      rw [pctUpper_join, map_fix]
      intro x hx
      rcases List.mem_cons.1 hx with rfl | hx
      · rfl
      · exact hup x hx
    have hsplit : strSplit '/' (strJoin c!"/" ([] :: y :: ys)) = [] :: y :: ys := by
      refine strSplit_join (by simp) fun x hx => ?_
      rcases List.mem_cons.1 hx with rfl | hx
      · simp
      · exact hno x hx
    have hfold : (strSplit '/' (strJoin c!"/" ([] :: y :: ys))).foldl dotStep [] = atRoot [] (y :: ys) := by
      rw [hsplit]
      have := fold_climbs hf
      simpa [dotStep] using this
    rw [e1, normPath, hup', removeDots_eq, outL, hfold]
    have c1 := dots_last hno c!"." (by decide)
    have c2 := dots_last hno c!".." (by decide)
    obtain ⟨t, ht⟩ : ∃ t, atRoot [] (y :: ys) = [] :: t := by
      cases h : atRoot [] (y :: ys) with
      | nil => rw [h] at hh; cases hh
      | cons a t => rw [h] at hh; cases hh; exact ⟨t, rfl⟩
    simp only [ht, List.isEmpty_cons, List.head?_cons, bne_self_eq_false, Bool.or_false, Bool.and_false, Bool.false_eq_true, if_false, Bool.or_eq_true, c1, c2,
      withoutDots]
  refine ⟨⟨fun h hc => ?_, fun h => ?_⟩, lose⟩
  · have := lose hc.1 hc.2
    rw [← h] at this
    exact absurd (congrArg List.length this) (by simp)
  · cases hf : follow [] segs with
    | some res =>
      rw [C50_dots_partial hne hno hup hf, withoutDots, follow_atRoot hf]
    | none =>
      have hh : (atRoot [] segs).head? ≠ some [] := fun e => h ⟨hf, e⟩
      obtain ⟨y, ys, rfl⟩ : ∃ y ys, segs = y :: ys := by
        cases segs with
        | nil => exact absurd rfl hne
        | cons y ys => exact ⟨y, ys, rfl⟩
      have e1 : '/' :: strJoin c!"/" (y :: ys) = strJoin c!"/" ([] :: y :: ys) := rfl
      have hup' : pctUpper (strJoin c!"/" ([] :: y :: ys)) = strJoin c!"/" ([] :: y :: ys) := by
        rw [pctUpper_join, map_fix]
        intro x hx
        rcases List.mem_cons.1 hx with rfl | hx
        · rfl
        · exact hup x hx
      have hsplit : strSplit '/' (strJoin c!"/" ([] :: y :: ys)) = [] :: y :: ys := by
        refine strSplit_join (by simp) fun x hx => ?_
        rcases List.mem_cons.1 hx with rfl | hx
        · simp
        · exact hno x hx
      have hfold : (strSplit '/' (strJoin c!"/" ([] :: y :: ys))).foldl dotStep [] = atRoot [] (y :: ys) := by
        rw [hsplit]
        have := fold_climbs hf
        simpa [dotStep] using this
      have hlast : ¬ ((y :: ys).getLast? = some c!"." ∨ (y :: ys).getLast? = some c!"..") → atRoot [] (y :: ys) ≠ [] := by
        intro hl e0
        obtain ⟨e, he⟩ : ∃ e, (y :: ys).getLast? = some e := ⟨_, List.getLast?_cons ..⟩
        obtain ⟨init, hi⟩ : ∃ init, y :: ys = init ++ [e] := List.getLast?_eq_some_iff.1 he
        rw [he] at hl
        simp only [Option.some.injEq, not_or] at hl
        have hf := fold_atRoot (y :: ys) []
        rw [e0, hi, List.foldl_append] at hf
        simp [dotStep, hl.1, hl.2] at hf
      rw [e1, normPath, hup', removeDots_eq, outL, hfold]
      have c1 := dots_last hno c!"." (by decide)
      have c2 := dots_last hno c!".." (by decide)
      have hslash : (strJoin c!"/" ([] :: y :: ys)).head? = some '/' := by rw [← e1]; rfl
      have hpre : ((atRoot [] (y :: ys)).isEmpty || (atRoot [] (y :: ys)).head? != some []) = true := by
        simp [hh]
      have hres : ∀ l : List Str, l ≠ [] → strJoin c!"/" ([] :: l) = '/' :: strJoin c!"/" l := by
        intro l hl
        cases l with
        | nil => exact absurd rfl hl
        | cons a l => rfl
      simp only [hslash, hpre, decide_true, Bool.and_true, if_true, Bool.or_eq_true, c1, c2, withoutDots]
      by_cases hl : (y :: ys).getLast? = some c!"." ∨ (y :: ys).getLast? = some c!".."
      · rw [if_pos hl, if_pos hl]
        exact hres _ (by simp)
      · rw [if_neg hl, if_neg hl]
        exact hres _ (hlast hl)

/-- `/../b` is normalised as RFC 3986 says, `/..//b` loses a slash. -/
example : (normPath c!"/../b" = withoutDots [c!"..", c!"b"] ∧ follow [] [c!"..", c!"b"] = none) ∧
    follow [] [c!"..", [], c!"b"] = none ∧ (atRoot [] [c!"..", [], c!"b"]).head? = some [] ∧ withoutDots [c!"..", [], c!"b"] = c!"//b" := by decide

end Verif.Props
