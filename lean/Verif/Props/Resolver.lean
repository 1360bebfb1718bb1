import Verif.Props.Store
/-!
# C52, C53: from URIs to files
-/

namespace Verif.Props
open Verif Rfc3986 UriSpec Resolver
open Verif.Pointer (strSplit_ne_nil strSplit_none strSplit_append)

/-- The path `p` lies below the directory `dir`: it goes on from `dir`, at a slash, and following it never leads out of `dir`. -/
def Below (dir p : Str) : Prop :=
  ∃ rest, p = dir ++ rest ∧ (rest = [] ∨ dir.getLast? = some '/' ∨ rest.head? = some '/') ∧
    follow [] ((strSplit '/' rest).filter (· ≠ [])) ≠ none

/-- The first mapping whose URI begins the text. -/
def Covers (m : List (Str × Str)) (s k dir rest : Str) : Prop :=
  s = k ++ rest ∧ ∃ a b, m = a ++ (k, dir) :: b ∧ ∀ p ∈ a, ¬ p.1 <+: s

variable (ip : IpRe)

theorem find_covers {m : List (Str × Str)} {s k dir rest : Str} (h : Covers m s k dir rest) :
    (m.find? fun p => p.1.isPrefixOf s) = some (k, dir) := by
  obtain ⟨hs, a, b, rfl, ha⟩ := h
  rw [List.find?_append]
  have : (a.find? fun p => p.1.isPrefixOf s) = none := by
    rw [List.find?_eq_none]
    intro p hp
    rw [List.isPrefixOf_iff_prefix]
    exact ha p hp
  rw [this]
  have h2 : k.isPrefixOf s = true := by rw [List.isPrefixOf_iff_prefix]; exact ⟨rest, hs.symm⟩
  simp [h2]

theorem pathJoin_shape {parts : List Str} (hp : ∀ x ∈ parts, '/' ∉ x) (a : Str) (ha : a ≠ []) :
    ∃ rest, pathJoin a parts = a ++ rest ∧ (rest = [] ∨ a.getLast? = some '/' ∨ rest.head? = some '/') ∧
      (strSplit '/' rest).filter (· ≠ []) = parts.filter (· ≠ []) := by
  induction parts generalizing a with
  | nil => exact ⟨[], by simp [pathJoin], .inl rfl, by simp [strSplit]⟩
  | cons b bs ih =>
    have hb := hp b (by simp)
    have ih := ih fun x hx => hp x (by simp [hx])
    have h0 : b.head? ≠ some '/' := by
      intro h
      cases b with
      | nil => simp at h
      | cons x b => simp at h; subst h; simp at hb
    by_cases hl : a.getLast? = some '/'
    · simp only [pathJoin, if_neg h0, hl, or_true, if_true]
      obtain ⟨rest, h1, h2, h3⟩ := ih (a ++ b) (by simp [ha])
      refine ⟨b ++ rest, by rw [h1, List.append_assoc], .inr (.inl (by simp)), ?_⟩
      rcases Classical.em (b = []) with rfl | hbn
      · simp only [List.nil_append, h3]; simp
      · have hlast : (a ++ b).getLast? ≠ some '/' := by
          rw [List.getLast?_append]
          cases hg : b.getLast? with
          | none => simp [List.getLast?_eq_none_iff] at hg; exact absurd hg hbn
          | some c =>
          intro h
          simp at h; subst h
          exact hb (List.mem_of_getLast? hg)
        rcases h2 with rfl | h2 | h2
        · rw [List.append_nil, strSplit_none hb]
          simp only [strSplit, ne_eq] at h3
          simp only [ne_eq, List.filter_cons, List.filter_nil] at h3 ⊢
          simp at h3
          simp [hbn]
          exact h3
        · exact absurd h2 hlast
        · cases rest with
          | nil => simp at h2
          | cons x rest =>
            simp at h2; subst h2
            rw [strSplit_append hb, List.filter_cons, List.filter_cons]
            simp only [strSplit] at h3
            simp [hbn] at h3 ⊢
            exact h3
    · simp only [pathJoin, if_neg h0, hl, ha, or_false, if_false]
      obtain ⟨rest, h1, h2, h3⟩ := ih (a ++ '/' :: b) (by simp)
      refine ⟨'/' :: (b ++ rest), by rw [h1]; simp, .inr (.inr rfl), ?_⟩
      have e0 : strSplit '/' ('/' :: (b ++ rest)) = [] :: strSplit '/' (b ++ rest) := by simp [strSplit]
      rw [e0]
      rcases Classical.em (b = []) with rfl | hbn
      · simp only [List.nil_append, List.filter_cons, h3]
      · have hlast : (a ++ '/' :: b).getLast? ≠ some '/' := by
          rw [List.getLast?_append, List.getLast?_cons]
          intro h
          cases hb' : b.getLast? with
          | none => simp [List.getLast?_eq_none_iff] at hb'; exact hbn hb'
          | some c => rw [hb'] at h; simp at h; subst h; exact hb (List.mem_of_getLast? hb')
        rcases h2 with rfl | h2 | h2
        · rw [List.append_nil, strSplit_none hb]
          simp [strSplit] at h3
          simp [hbn]
          exact h3
        · exact absurd h2 hlast
        · cases rest with
          | nil => simp at h2
          | cons x rest =>
            simp at h2; subst h2
            rw [strSplit_append hb]
            simp [strSplit] at h3
            simp [hbn]
            exact h3

theorem mapResolve_covered {m : List (Str × Str)} {u : Uri} (hu : Made ip u) {k dir rest : Str} (hc : Covers m (baseOf u) k dir rest)
    (hd : dir ≠ []) : mapResolve ip m u = .ok (pathJoin dir (strSplit '/' rest)) := by
  have e : (baseOf u).drop k.length = rest := by rw [hc.1]; simp
  simp only [mapResolve, baseText_made ip hu, Res.ok_bind, find_covers hc, Option.getD_some, ne_eq, hd, not_false_eq_true, if_true, e]

theorem follow_plain {l : List Str} (h : ∀ x ∈ l, x ≠ c!"." ∧ x ≠ c!"..") (out : List Str) : follow out l ≠ none := by
  induction l generalizing out with
  | nil => simp [follow]
  | cons x l ih =>
    have hx := h x (by simp)
    simp only [follow, if_neg hx.1, if_neg hx.2]
    exact ih (fun y hy => h y (by simp [hy])) _

theorem strSplit_tail {c : Char} {a b x : Str} (h : x ∈ strSplit c b) : x ∈ strSplit c (a ++ c :: b) := by
  have : ∃ l, l ≠ [] ∧ strSplit c (a ++ c :: b) = l ++ strSplit c b := by
    induction a with
    | nil => exact ⟨[[]], by simp, by simp [strSplit]⟩
    | cons y a ih =>
      obtain ⟨l, hl, e⟩ := ih
      simp only [strSplit, List.cons_append, e]
      split
      · exact ⟨[] :: l, by simp, rfl⟩
      · cases l with
        | nil => exact absurd rfl hl
        | cons z l => exact ⟨(y :: z) :: l, by simp, rfl⟩
  obtain ⟨l, -, e⟩ := this
  rw [e]; simp [h]

/-- C52: the first mapping that covers the URI decides, and the path lies below its directory if the rest of the URI does not
climb above its start. -/
theorem C52_below_partial {m : List (Str × Str)} {u : Uri} (hu : Made ip u) {k dir rest : Str} (hc : Covers m (baseOf u) k dir rest)
    (hd : dir ≠ []) (hf : follow [] ((strSplit '/' rest).filter (· ≠ [])) ≠ none) :
    ∃ p, mapResolve ip m u = .ok p ∧ Below dir p := by
  refine ⟨_, mapResolve_covered ip hu hc hd, ?_⟩
  obtain ⟨r, h1, h2, h3⟩ := pathJoin_shape (fun x hx => strSplit_mem hx) dir hd
  exact ⟨r, h1, h2, by rw [h3]; exact hf⟩

/-- C52, the other way: the path lies below the directory only if the rest does not climb. -/
theorem C52_below_only {m : List (Str × Str)} {u : Uri} (hu : Made ip u) {k dir rest p : Str} (hc : Covers m (baseOf u) k dir rest)
    (hd : dir ≠ []) (hp : mapResolve ip m u = .ok p) (hb : Below dir p) :
    follow [] ((strSplit '/' rest).filter (· ≠ [])) ≠ none := by
  rw [mapResolve_covered ip hu hc hd] at hp
  cases hp
  obtain ⟨r, h1, h2, h3⟩ := pathJoin_shape (parts := strSplit '/' rest) (fun x hx => strSplit_mem hx) dir hd
  obtain ⟨r', h1', h2', h3'⟩ := hb
  have : r' = r := List.append_cancel_left (h1'.symm.trans h1)
  subst this
  rw [← h3]; exact h3'

/-- Everything before the path of a URI. -/
def front (u : Uri) : Str := Uri.text { u with path := [], query := [], fragment := [] }

theorem base_front (u : Uri) : baseOf u = front u ++ u.path := by simp [baseOf, front, Uri.text]

/-- C52: with a scheme, the path lies below the directory if the mapping ends at the start of the path or at a slash in it. -/
theorem C52_scheme_partial {m : List (Str × Str)} {u : Uri} (hu : Made ip u) (hs : u.scheme ≠ []) {q dir rest : Str}
    (hc : Covers m (baseOf u) (front u ++ q) dir rest) (hq : q = [] ∨ q.getLast? = some '/') (hd : dir ≠ []) :
    ∃ p, mapResolve ip m u = .ok p ∧ Below dir p := by
  apply C52_below_partial ip hu hc hd
  have hpath : u.path = q ++ rest := by
    have := hc.1
    rw [base_front, List.append_assoc] at this
    exact List.append_cancel_left this
  obtain ⟨n1, n2⟩ := ((C49_normal ip hu).1 hs).1
  apply follow_plain
  intro x hx
  have hx := (List.mem_filter.1 hx).1
  have : x ∈ strSplit '/' u.path := by
    rw [hpath]
    rcases hq with rfl | hq
    · exact hx
    · obtain ⟨q', rfl⟩ := List.getLast?_eq_some_iff.1 hq
      rw [List.append_assoc]
      exact strSplit_tail hx
  exact ⟨fun e => n1 (e ▸ this), fun e => n2 (e ▸ this)⟩

/-- C52: not covered (or covered by a mapping to the empty path), a URI without scheme or of scheme `file` is its path, and any
other raises `ValueError`. -/
theorem C52_uncovered {m : List (Str × Str)} {u : Uri} (hu : Made ip u)
    (h : (∀ p ∈ m, ¬ p.1 <+: baseOf u) ∨ ∃ k rest, Covers m (baseOf u) k [] rest) :
    mapResolve ip m u = if u.scheme = [] ∨ u.scheme = c!"file" then .ok u.path else .err .valueError := by
  simp only [mapResolve, baseText_made ip hu, Res.ok_bind]
  rcases h with h | ⟨k, rest, h⟩
  · have : (m.find? fun p => p.1.isPrefixOf (baseOf u)) = none := by
      rw [List.find?_eq_none]
      intro p hp
      rw [List.isPrefixOf_iff_prefix]
      exact h p hp
    rw [this]
    simp
  · rw [find_covers h]
    simp

/-- A mapping that ends inside a segment lets the URI climb: `http://a/s../x` with `http://a/s` mapped to `/d` is `/d/../x`. -/
theorem C52_below_violated : ∃ m u k dir rest p, Made ip u ∧ Covers m (baseOf u) k dir rest ∧ dir ≠ [] ∧ mapResolve ip m u = .ok p ∧ ¬ Below dir p := by
  have hu : Made ip ⟨c!"http", ⟨[], c!"a", []⟩, c!"/s../x", [], []⟩ := .parse (parse_http ip (p := c!"/s../x") (by decide) (by decide))
  have hc : Covers [(c!"http://a/s", c!"/d")] (baseOf ⟨c!"http", ⟨[], c!"a", []⟩, c!"/s../x", [], []⟩) c!"http://a/s" c!"/d" c!"../x" :=
    ⟨rfl, [], [], rfl, by simp⟩
  refine ⟨_, _, _, _, _, _, hu, hc, by decide, mapResolve_covered ip hu hc (by decide), fun hb => ?_⟩
  exact C52_below_only ip hu hc (by decide) (mapResolve_covered ip hu hc (by decide)) hb (by decide)

/-- The same without scheme, where paths are not normalised. -/
theorem C52_relative_violated : ∃ m u q dir rest p, Made ip u ∧ Covers m (baseOf u) (front u ++ q) dir rest ∧ q.getLast? = some '/' ∧ dir ≠ [] ∧
    mapResolve ip m u = .ok p ∧ ¬ Below dir p := by
  have hp : Parts c!"s/../x" none none c!"s/../x" none none := by
    refine ⟨_, _, [], [], ⟨rfl, ?_⟩, ⟨rfl, by simp⟩, ⟨by simp, by decide, by simp⟩, ⟨rfl, by simp⟩, by simp [FragmentOf]⟩
    rintro ⟨x, r, -, e⟩
    have : ':' ∈ c!"s/../x" := by rw [e]; simp
    exact absurd this (by decide)
  have h : Uri.parse ip c!"s/../x" = .ok ⟨[], ⟨[], [], []⟩, c!"s/../x", [], []⟩ := by
    rw [Uri.parse_parts ip hp]
    rfl
  have hu : Made ip ⟨[], ⟨[], [], []⟩, c!"s/../x", [], []⟩ := .parse h
  have hc : Covers [(c!"s/", c!"d")] (baseOf ⟨[], ⟨[], [], []⟩, c!"s/../x", [], []⟩) c!"s/" c!"d" c!"../x" := ⟨rfl, [], [], rfl, by simp⟩
  refine ⟨_, _, c!"s/", _, _, _, hu, hc, rfl, by decide, mapResolve_covered ip hu hc (by decide), fun hb => ?_⟩
  exact C52_below_only ip hu hc (by decide) (mapResolve_covered ip hu hc (by decide)) hb (by decide)

example : mapResolve exampleIp [(c!"http://b", c!"/x"), (c!"http://a/", c!"/d")] ⟨c!"http", ⟨[], c!"a", []⟩, c!"/s//x", [], c!"f"⟩
    = .ok c!"/d/s/x" := rfl

/-! ## C53 -/

/-- The resolver registered last for a scheme. -/
def registered (s : Str) : List Op → Option (Uri → Res Str)
  | [] => none
  | .register s' r :: h => if s' = s then some r else registered s h
  | _ :: h => registered s h

theorem resolvers_registered (s : Str) (h : List Op) : dictGet s (exec h).resolvers = registered s h := by
  induction h with
  | nil => rfl
  | cons op h ih =>
    cases op with
    | register s' r => simp only [exec, step, dictGet_set, registered, ih]
    | resolve u =>
      simp only [exec, step, registered, resolve]
      split
      · exact ih
      · split <;> exact ih
    | others k => exact ih

/-- What should be answered. -/
def expected (h : List Op) (u : Uri) : Res Str :=
  match registered u.scheme h with
  | some r => r u
  | none => if u.scheme = [] ∨ u.scheme = c!"file" then .ok u.path else .err .valueError

/-- The URI is asked for in a history. -/
def Asked (u : Uri) (h : List Op) : Prop := Op.resolve u ∈ h

/-- Registering a scheme. -/
def Registers (s : Str) : Op → Prop
  | .register s' _ => s' = s
  | _ => False

theorem cache_step {u : Uri} {p : Str} {st : State} {op : Op} (h : (u, p) ∈ (step st op).2.cache) :
    (u, p) ∈ st.cache ∨ op = .resolve u ∧ lookup st.resolvers u = .ok p := by
  cases op with
  | register s r => exact .inl h
  | others k => exact .inl (List.mem_filter.1 h).1
  | resolve v =>
    simp only [step, resolve] at h
    split at h
    · rename_i q hq
      simp only [List.mem_cons] at h
      rcases h with h | h
      · exact .inl (h ▸ List.mem_of_find?_eq_some hq)
      · exact .inl (List.mem_filter.1 h).1
    · split at h
      · rename_i q hq
        have h := List.mem_of_mem_take h
        simp only [List.mem_cons] at h
        rcases h with h | h
        · simp at h; obtain ⟨rfl, rfl⟩ := h; exact .inr ⟨rfl, hq⟩
        · exact .inl h
      · exact .inl h

theorem cache_asked {u : Uri} {p : Str} {h : List Op} (hm : (u, p) ∈ (exec h).cache) : Asked u h := by
  induction h with
  | nil => simp [exec] at hm
  | cons op h ih =>
    rcases cache_step hm with h1 | ⟨rfl, _⟩
    · exact List.mem_cons_of_mem _ (ih h1)
    · exact List.mem_cons_self

theorem lookup_expected (h : List Op) (u : Uri) : lookup (exec h).resolvers u = expected h u := by
  simp only [lookup, expected, resolvers_registered]
  cases registered u.scheme h <;> rfl

/-- C53: the answer is that of the resolver registered last, if the URI was not asked for before that. -/
theorem C53_current_partial (h old : List Op) (u : Uri) (hold : ¬ Asked u old) (hh : ∀ op ∈ h, ¬ Registers u.scheme op) :
    (resolve u (exec (h ++ old))).1 = expected (h ++ old) u := by
  have inv : ∀ p, (u, p) ∈ (exec (h ++ old)).cache → expected (h ++ old) u = .ok p := by
    induction h with
    | nil => exact fun p hp => absurd (cache_asked hp) hold
    | cons op h ih =>
      have ih := ih fun o ho => hh o (by simp [ho])
      have hop := hh op (by simp)
      have he : expected (op :: h ++ old) u = expected (h ++ old) u := by
        cases op with
        | register s r => simp only [expected, List.cons_append, registered, if_neg (show ¬ s = u.scheme from hop)]
        | resolve v => rfl
        | others k => rfl
      intro p hp
      rw [he]
      rcases cache_step hp with h1 | ⟨_, h1⟩
      · exact ih p h1
      · rw [← lookup_expected]; exact h1
  simp only [resolve]
  split
  · rename_i q hq
    have h1 := List.mem_of_find?_eq_some hq
    have h2 : q.1 = u := eq_iff.1 (by simpa using List.find?_some hq)
    obtain ⟨a, b⟩ := q
    simp only at h2; subst h2
    exact (inv _ h1).symm
  · rw [← lookup_expected]
    split <;> simp_all

/-- C53: whatever was answered before, an answer is one that the resolvers gave at some time. -/
theorem C53_some_time (h : List Op) (u : Uri) {p : Str} (hp : (resolve u (exec h)).1 = .ok p) :
    ∃ later before, h = later ++ before ∧ expected before u = .ok p := by
  have inv : ∀ h : List Op, ∀ p, (u, p) ∈ (exec h).cache → ∃ later before, h = later ++ before ∧ expected before u = .ok p := by
    intro h
    induction h with
    | nil => simp [exec]
    | cons op h ih =>
      intro p hp
      rcases cache_step hp with h1 | ⟨_, h1⟩
      · obtain ⟨l, b, rfl, e⟩ := ih p h1
        exact ⟨op :: l, b, rfl, e⟩
      · exact ⟨[op], h, rfl, by rw [← lookup_expected]; exact h1⟩
  simp only [resolve] at hp
  split at hp
  · rename_i q hq
    have h1 := List.mem_of_find?_eq_some hq
    have h2 : q.1 = u := eq_iff.1 (by simpa using List.find?_some hq)
    obtain ⟨a, b⟩ := q
    simp only at h2; subst h2
    simp only [Res.ok.injEq] at hp; subst hp
    exact inv h _ h1
  · refine ⟨[], h, rfl, ?_⟩
    rw [← lookup_expected]
    split at hp <;> simp_all

/-- C53: an answer once given is given again, even after another resolver was registered. -/
theorem C53_current_violated : ∃ h u, (resolve u (exec h)).1 ≠ expected h u := by
  refine ⟨[.register c!"x" fun _ => .ok c!"new", .resolve ⟨c!"x", ⟨[], [], []⟩, [], [], []⟩, .register c!"x" fun _ => .ok c!"old"],
    ⟨c!"x", ⟨[], [], []⟩, [], [], []⟩, ?_⟩
  decide

end Verif.Props
