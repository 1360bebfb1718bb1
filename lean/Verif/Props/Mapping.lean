import Verif.Props.Resolver
import Verif.Model.Mapping
import Verif.Spec.Mapping
import Verif.Proofs.Split
/-!
# C107: a mapped URI is found where it is mapped to
-/

namespace Verif.Props
open Verif Rfc3986 UriSpec Resolver Verif.Spec
open Verif.Pointer (strSplit_ne_nil strSplit_none strSplit_append)

variable (ip : IpRe)

theorem find_dictSet (P : Str → Bool) (k x : Str) (d : List (Str × Str)) :
    (dictSet k x d).find? (fun p => P p.1) = match d.find? (fun p => P p.1) with
      | some p => some (p.1, if p.1 = k then x else p.2)
      | none => if P k = true then some (k, x) else none := by
  induction d with
  | nil => simp only [dictSet, List.find?]; cases P k <;> simp
  | cons p d ih =>
    obtain ⟨k', a⟩ := p
    simp only [dictSet]
    by_cases e : k' = k
    · subst e
      rw [if_pos rfl]
      cases hP : P k' with
      | true => simp [List.find?, hP]
      | false =>
        simp only [List.find?, hP]
        cases hd : d.find? fun p => P p.1 with
        | none => simp
        | some q =>
          have := List.find?_some hd
          have hq : q.1 ≠ k' := by rintro rfl; rw [hP] at this; exact absurd this (by simp)
          simp [hq]
    · rw [if_neg e]
      cases hP : P k' with
      | true => simp [List.find?, hP, e]
      | false => simp only [List.find?, hP]; exact ih

theorem mappings_last (calls : List (Str × Str)) (c : Str × Str) : mappings (calls ++ [c]) = dictSet c.1 c.2 (mappings calls) := by
  simp [mappings, mapUri]

/-- The last path given to a text. -/
theorem given_last (calls : List (Str × Str)) (k : Str) (c : Str × Str) (dir : Str) :
    Given (calls ++ [c]) k dir ↔ if c.1 = k then c.2 = dir else Given calls k dir := by
  constructor
  · rintro ⟨a, b, e, hb⟩
    rcases List.eq_nil_or_concat b with rfl | ⟨b', y, rfl⟩
    · obtain rfl : c = (k, dir) := by simpa using (List.append_inj' e rfl).2
      simp
    · rw [List.concat_eq_append, show a ++ (k, dir) :: (b' ++ [y]) = (a ++ (k, dir) :: b') ++ [y] by simp] at e
      obtain ⟨e1, e2⟩ := List.append_inj' e rfl
      obtain rfl : c = y := by simpa using e2
      have hc : c.1 ≠ k := hb c (by simp)
      rw [if_neg hc]
      exact ⟨a, b', e1, fun z hz => hb z (by simp [hz])⟩
  · by_cases hc : c.1 = k
    · rw [if_pos hc]
      rintro rfl
      subst hc
      exact ⟨calls, [], rfl, by simp⟩
    · rw [if_neg hc]
      rintro ⟨a, b, rfl, hb⟩
      refine ⟨a, b ++ [c], by simp, ?_⟩
      intro z hz
      rcases List.mem_append.1 hz with hz | hz
      · exact hb z hz
      · simp at hz; subst hz; exact hc

/-- What is found in the mapping: the text mapped first, with the path given last. -/
theorem find_mappings (P : Str → Bool) : ∀ (n : Nat) (calls : List (Str × Str)), calls.length = n →
    match (mappings calls).find? (fun p => P p.1), calls.find? (fun p => P p.1) with
    | some p, some c => p.1 = c.1 ∧ Given calls p.1 p.2
    | none, none => True
    | _, _ => False := by
  intro n
  induction n with
  | zero =>
    intro calls h
    obtain rfl := List.length_eq_zero_iff.1 h
    simp [mappings]
  | succ n ih =>
    intro calls h
    rcases List.eq_nil_or_concat calls with rfl | ⟨l, c, rfl⟩
    · simp at h
    rw [List.concat_eq_append] at h ⊢
    have ih := ih l (by simpa using h)
    rw [mappings_last, find_dictSet, List.find?_append]
    cases h1 : (mappings l).find? fun p => P p.1 with
    | none =>
      rw [h1] at ih
      cases h2 : l.find? fun p => P p.1 with
      | some q => rw [h2] at ih; exact ih.elim
      | none =>
        cases hP : P c.1 with
        | true => simp [List.find?, hP]; exact (given_last l c.1 c c.2).2 (by simp)
        | false => simp [List.find?, hP]
    | some p =>
      rw [h1] at ih
      cases h2 : l.find? fun p => P p.1 with
      | none => rw [h2] at ih; exact ih.elim
      | some q =>
        rw [h2] at ih
        refine ⟨ih.1, (given_last l p.1 c _).2 ?_⟩
        by_cases e : p.1 = c.1
        · simp [e]
        · rw [if_neg (fun h => e h.symm), if_neg e]; exact ih.2

theorem given_unique {calls : List (Str × Str)} {k d d' : Str} (h : Given calls k d) (h' : Given calls k d') : d = d' := by
  obtain ⟨a, b, e, hb⟩ := h
  induction hn : b.length generalizing calls b with
  | zero =>
    obtain rfl := List.length_eq_zero_iff.1 hn
    rw [e, given_last] at h'
    simpa using h'
  | succ n ih =>
    rcases List.eq_nil_or_concat b with rfl | ⟨l, c, rfl⟩
    · simp at hn
    rw [List.concat_eq_append] at e hb hn
    have hc : c.1 ≠ k := hb c (by simp)
    rw [e, show a ++ (k, d) :: (l ++ [c]) = (a ++ (k, d) :: l) ++ [c] by simp, given_last, if_neg hc] at h'
    exact ih h' l rfl (fun z hz => hb z (by simp [hz])) (by simpa using hn)

theorem within_nil_last (dir : Str) : (within dir []).getLast? = some '/' := by
  unfold within
  split
  · next h => simpa using h
  · simp

theorem within_slash {x : Str} (h : x.getLast? = some '/') (t : Str) : within x t = x ++ t := by simp [within, h]

theorem within_other {x : Str} (h : x.getLast? ≠ some '/') (t : Str) : within x t = x ++ '/' :: t := by simp [within, h]

theorem pathJoin_tidy {parts : List Str} (hp : ∀ x ∈ parts, '/' ∉ x) (hn : parts ≠ []) (a : Str) (ha : a ≠ []) :
    pathJoin a parts = within a (tidy parts) := by
  induction parts generalizing a with
  | nil => exact absurd rfl hn
  | cons b bs ih =>
    have hb := hp b (by simp)
    have h0 : b.head? ≠ some '/' := by
      intro h
      cases b with
      | nil => simp at h
      | cons x b => simp at h; subst h; simp at hb
    have step : pathJoin a (b :: bs) = pathJoin (within a b) bs := by
      by_cases hl : a.getLast? = some '/'
      · simp [pathJoin, h0, hl, within]
      · simp [pathJoin, h0, hl, ha, within]
    have hw : within a b ≠ [] := by unfold within; simp [ha]
    rw [step]
    cases bs with
    | nil => simp [pathJoin, tidy]
    | cons y ys =>
      rw [ih (fun x hx => hp x (by simp [hx])) (by simp) _ hw, tidy]
      by_cases hbn : b = []
      · subst hbn
        rw [if_pos rfl]
        generalize tidy (y :: ys) = t
        rw [within_slash (within_nil_last a)]
        unfold within
        split <;> simp
      · rw [if_neg hbn]
        have hlast : (within a b).getLast? ≠ some '/' := by
          intro h
          obtain ⟨c, hc⟩ : ∃ c, b.getLast? = some c := by
            cases hg : b.getLast? with
            | none => exact absurd (List.getLast?_eq_none_iff.1 hg) hbn
            | some c => exact ⟨c, rfl⟩
          have : c = '/' := by
            unfold within at h
            split at h
            · rw [List.getLast?_append, hc] at h; simpa using h
            · rw [List.getLast?_append, List.getLast?_cons, hc] at h; simpa using h
          subst this
          exact hb (List.mem_of_getLast? hc)
        generalize tidy (y :: ys) = t
        rw [within_other hlast]
        unfold within
        split <;> simp

/-- Without a mapping for it, or with an empty path mapped. -/
def unmapped (u : Uri) : Res Str := if u.scheme = [] ∨ u.scheme = c!"file" then .ok u.path else .err .valueError

/-- C107, what the resolver does after any calls of `map`: of the mapped texts that begin the URI the one mapped first decides, by the path it was mapped to last;
the rest of the URI follows, with empty segments left out. -/
theorem C107_answers (calls : List (Str × Str)) {u : Uri} (hu : Made ip u) :
    ((∀ k ∈ calls.map Prod.fst, ¬ k <+: baseOf u) → mapResolve ip (mappings calls) u = unmapped u) ∧
    ∀ k dir rest, MappedFirst calls (baseOf u) k → Given calls k dir → baseOf u = k ++ rest →
      mapResolve ip (mappings calls) u = if dir = [] then unmapped u else .ok (within dir (tidy (strSplit '/' rest))) := by
  have key := find_mappings (fun k => k.isPrefixOf (baseOf u)) _ calls rfl
  simp only [mapResolve, baseText_made ip hu, Res.ok_bind]
  refine ⟨fun h => ?_, ?_⟩
  · have h2 : (calls.find? fun p => p.1.isPrefixOf (baseOf u)) = none := by
      rw [List.find?_eq_none]
      intro p hp
      rw [List.isPrefixOf_iff_prefix]
      exact h p.1 (List.mem_map_of_mem hp)
    rw [h2] at key
    cases h1 : (mappings calls).find? fun p => p.1.isPrefixOf (baseOf u) with
    | some p => rw [h1] at key; exact key.elim
    | none => simp [unmapped]
  · rintro k dir rest ⟨hk, a, d, b, e, ha⟩ hg hs
    have h2 : (calls.find? fun p => p.1.isPrefixOf (baseOf u)) = some (k, d) := find_covers ⟨hs, a, b, e, ha⟩
    rw [h2] at key
    cases h1 : (mappings calls).find? fun p => p.1.isPrefixOf (baseOf u) with
    | none => rw [h1] at key; exact key.elim
    | some p =>
      rw [h1] at key
      obtain ⟨p1, p2⟩ := p
      obtain ⟨e1, e2⟩ := key
      simp only at e1 e2
      subst e1
      obtain rfl := given_unique hg e2
      simp only [Option.getD_some]
      by_cases hd : dir = []
      · simp [hd, unmapped]
      · have e3 : (baseOf u).drop p1.length = rest := by rw [hs]; simp
        simp only [ne_eq, hd, not_false_eq_true, if_true, if_false, e3]
        rw [pathJoin_tidy (fun x hx => strSplit_mem hx) (strSplit_ne_nil _ _) dir hd]

theorem tidy_plain {parts : List Str} (h : ∀ x ∈ parts.dropLast, x ≠ []) : tidy parts = strJoin c!"/" parts := by
  induction parts with
  | nil => rfl
  | cons x xs ih =>
    cases xs with
    | nil => rfl
    | cons y ys =>
      have hx : x ≠ [] := h x (by simp)
      rw [tidy, if_neg hx, ih fun z hz => h z (by simp only [List.dropLast_cons_cons, List.mem_cons]; exact .inr hz)]
      simp [strJoin]

/-- C107, as far as it is so: a URI under a mapped one, if the mapped one was mapped first of those that begin it and the path is not empty.
Missing: the mapped URI itself, more specific mappings made later, mappings that end inside a segment, the empty path. -/
theorem C107_partial (calls : List (Str × Str)) {u : Uri} (hu : Made ip u) {k dir rest : Str} (hf : MappedFirst calls (baseOf u) k)
    (hg : Given calls k dir) (hd : dir ≠ []) (hr : Under k rest (baseOf u)) (hs : ∀ x ∈ (strSplit '/' rest).dropLast, x ≠ []) :
    mapResolve ip (mappings calls) u = .ok (within dir rest) := by
  have ht : tidy (strSplit '/' rest) = rest := by rw [tidy_plain hs]; exact strJoin_split '/' rest
  rcases hr.2 with e | ⟨-, e⟩
  · rw [(C107_answers ip calls hu).2 k dir ('/' :: rest) hf hg e, if_neg hd]
    have : strSplit '/' ('/' :: rest) = [] :: strSplit '/' rest := by simp [strSplit]
    rw [this]
    cases h : strSplit '/' rest with
    | nil => exact absurd h (strSplit_ne_nil _ _)
    | cons y ys => rw [tidy, if_pos rfl, ← h, ht]
  · rw [(C107_answers ip calls hu).2 k dir rest hf hg e, if_neg hd, ht]

/-- The mapped URI itself is resolved to its path with a slash behind it. -/
theorem C107_itself (calls : List (Str × Str)) {u : Uri} (hu : Made ip u) {dir : Str} (hf : MappedFirst calls (baseOf u) (baseOf u))
    (hg : Given calls (baseOf u) dir) (hd : dir ≠ []) : mapResolve ip (mappings calls) u = .ok (within dir []) := by
  rw [(C107_answers ip calls hu).2 _ dir [] hf hg (by simp), if_neg hd]
  rfl

/-- `http://a/s` -/
private def atS : Uri := ⟨c!"http", ⟨[], c!"a", []⟩, c!"/s", [], []⟩
/-- `http://a/s/x` -/
private def atX : Uri := ⟨c!"http", ⟨[], c!"a", []⟩, c!"/s/x", [], []⟩

private theorem atS_made : Made ip atS := .parse (parse_http ip (p := c!"/s") (by decide) (by decide))
private theorem atX_made : Made ip atX := .parse (parse_http ip (p := c!"/s/x") (by decide) (by decide))

private theorem under_exact {k s : Str} {rest : Str} (h : Under k rest s) : k.length < s.length := by
  obtain ⟨h1, h2 | ⟨-, h2⟩⟩ := h <;> subst h2
  · simp
  · have : 0 < rest.length := List.length_pos_iff.2 h1
    simp; omega

/-- C107 fails for a mapped URI itself: with `http://a/s` mapped to `/d/s.json`, `http://a/s` is resolved to `/d/s.json/`. -/
theorem C107_violated : ∃ calls u, Made ip u ∧ ¬ Mapped calls (baseOf u) (unmapped u) (mapResolve ip (mappings calls) u) := by
  refine ⟨[(c!"http://a/s", c!"/d/s.json")], atS, atS_made ip, fun h => ?_⟩
  have hg : Given [(c!"http://a/s", c!"/d/s.json")] (baseOf atS) c!"/d/s.json" := ⟨[], [], rfl, by simp⟩
  have hf : MappedFirst [(c!"http://a/s", c!"/d/s.json")] (baseOf atS) (baseOf atS) :=
    ⟨List.prefix_rfl, [], _, [], rfl, by simp⟩
  have h1 := (h.1 (baseOf atS) _ ⟨by decide, .inl rfl, fun k hk _ => by simp at hk; subst hk; decide⟩ hg).1 rfl
  rw [C107_itself ip _ (atS_made ip) hf hg (by decide)] at h1
  exact absurd h1 (by decide)

/-- C107 fails for a more specific mapping made later: `http://a/` mapped to `/d`, then `http://a/s/` mapped to `/e`. -/
theorem C107_specific_violated : ∃ calls u, Made ip u ∧ ¬ Mapped calls (baseOf u) (unmapped u) (mapResolve ip (mappings calls) u) ∧
    mapResolve ip (mappings calls) u = .ok c!"/d/s/x" ∧ mapResolve ip (mappings calls.reverse) u = .ok c!"/e/x" := by
  have e1 : mapResolve ip (mappings [(c!"http://a/", c!"/d"), (c!"http://a/s/", c!"/e")]) atX = .ok c!"/d/s/x" :=
    C107_partial ip _ (atX_made ip) (k := c!"http://a/") (dir := c!"/d") (rest := c!"s/x")
      ⟨⟨_, rfl⟩, [], _, _, rfl, by simp⟩ ⟨[], _, rfl, by decide⟩ (by decide) ⟨by decide, .inr ⟨rfl, rfl⟩⟩ (by decide)
  have e2 : mapResolve ip (mappings [(c!"http://a/s/", c!"/e"), (c!"http://a/", c!"/d")]) atX = .ok c!"/e/x" :=
    C107_partial ip _ (atX_made ip) (k := c!"http://a/s/") (dir := c!"/e") (rest := c!"x")
      ⟨⟨_, rfl⟩, [], _, _, rfl, by simp⟩ ⟨[], _, rfl, by decide⟩ (by decide) ⟨by decide, .inr ⟨rfl, rfl⟩⟩ (by decide)
  refine ⟨_, atX, atX_made ip, fun h => ?_, e1, e2⟩
  have hx : Under c!"http://a/s/" c!"x" (baseOf atX) := ⟨by decide, .inr ⟨rfl, rfl⟩⟩
  have h1 := (h.1 c!"http://a/s/" c!"/e" ⟨by decide, .inr ⟨_, hx⟩, ?_⟩ ⟨[(c!"http://a/", c!"/d")], [], rfl, by simp⟩).2 _ hx
  · rw [e1] at h1
    exact absurd h1 (by decide)
  · intro k hk _
    simp at hk
    rcases hk with rfl | rfl <;> decide

/-- C107 fails for a mapping that ends inside a segment: with `http://a/s` mapped to `/d`, `http://a/sx` is resolved to `/d/x`. -/
theorem C107_inside_violated : ∃ calls u, Made ip u ∧ (∀ k ∈ calls.map Prod.fst, ¬ Reaches k (baseOf u)) ∧ unmapped u = .err .valueError ∧
    mapResolve ip (mappings calls) u = .ok c!"/d/x" ∧ ¬ Mapped calls (baseOf u) (unmapped u) (mapResolve ip (mappings calls) u) := by
  have hu : Made ip ⟨c!"http", ⟨[], c!"a", []⟩, c!"/sx", [], []⟩ := .parse (parse_http ip (p := c!"/sx") (by decide) (by decide))
  have hn : ∀ k ∈ [(c!"http://a/s", c!"/d")].map Prod.fst, ¬ Reaches k (baseOf ⟨c!"http", ⟨[], c!"a", []⟩, c!"/sx", [], []⟩) := by
    intro k hk
    simp at hk
    subst hk
    rintro (h | ⟨rest, -, h | ⟨h, -⟩⟩)
    · exact absurd h (by decide)
    · have : some 'x' = some '/' := congrArg (fun s => s[10]?) h
      exact absurd this (by decide)
    · exact absurd h (by decide)
  have e : mapResolve ip (mappings [(c!"http://a/s", c!"/d")]) ⟨c!"http", ⟨[], c!"a", []⟩, c!"/sx", [], []⟩ = .ok c!"/d/x" :=
    (C107_answers ip [(c!"http://a/s", c!"/d")] hu).2 c!"http://a/s" c!"/d" c!"x" ⟨⟨_, rfl⟩, [], _, _, rfl, by simp⟩ ⟨[], [], rfl, by simp⟩ rfl
  refine ⟨_, _, hu, hn, rfl, e, fun h => ?_⟩
  have := h.2 hn
  rw [e] at this
  exact absurd this (by decide)

/-- C107 fails for the empty path, the working directory: such a mapping is refused, and keeps a more specific one made later from being found. -/
theorem C107_here_violated : ∃ calls u, Made ip u ∧ mapResolve ip (mappings calls) u = .err .valueError ∧
    ¬ Mapped calls (baseOf u) (unmapped u) (mapResolve ip (mappings calls) u) ∧ Given calls c!"http://a/" [] ∧ Given calls c!"http://a/s" c!"/e" ∧
    Under c!"http://a/s" c!"x" (baseOf u) := by
  have e : mapResolve ip (mappings [(c!"http://a/", []), (c!"http://a/s", c!"/e")]) atX = .err .valueError :=
    (C107_answers ip [(c!"http://a/", []), (c!"http://a/s", c!"/e")] (atX_made ip)).2 c!"http://a/" [] c!"s/x"
      ⟨⟨_, rfl⟩, [], _, _, rfl, by simp⟩ ⟨[], _, rfl, by decide⟩ rfl
  have hx : Under c!"http://a/s" c!"x" (baseOf atX) := ⟨by decide, .inl rfl⟩
  have hg : Given [(c!"http://a/", []), (c!"http://a/s", c!"/e")] c!"http://a/s" c!"/e" := ⟨[(c!"http://a/", [])], [], rfl, by simp⟩
  refine ⟨_, atX, atX_made ip, e, fun h => ?_, ⟨[], _, rfl, by decide⟩, hg, hx⟩
  have h1 := (h.1 c!"http://a/s" c!"/e" ⟨by decide, .inr ⟨_, hx⟩, ?_⟩ hg).2 _ hx
  · rw [e] at h1
    exact absurd h1 (by decide)
  · intro k hk _
    simp at hk
    rcases hk with rfl | rfl <;> decide

/-- A mapping that is made again keeps its place. -/
example : mapResolve exampleIp (mappings [(c!"http://a/", c!"/d"), (c!"http://a/s/", c!"/e"), (c!"http://a/", c!"f/")]) atX = .ok c!"f/s/x" :=
  C107_partial exampleIp _ (atX_made exampleIp) (k := c!"http://a/") (dir := c!"f/") (rest := c!"s/x")
    ⟨⟨_, rfl⟩, [], _, _, rfl, by simp⟩ ⟨[(c!"http://a/", c!"/d"), (c!"http://a/s/", c!"/e")], [], rfl, by simp⟩ (by decide) ⟨by decide, .inr ⟨rfl, rfl⟩⟩ (by decide)

end Verif.Props
