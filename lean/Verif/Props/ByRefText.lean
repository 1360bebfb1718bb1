import Verif.Props.ByRef
import Verif.Props.Formats
/-!
# Property C87: the texts of `format` and `pattern` given by reference

Both keywords take `str` of the value of the keyword (format_keyword.py 16, pattern_keyword.py 15), and `str` of a reference is
`JsonReference(…)` with the text of its `$ref` (ref_keyword.py 80-81), whatever it leads to.
-/

namespace Verif.Props
open Verif

variable (w : World) (docs : List Doc) (voc : List Kw) (f : Nat) (items : List (Str × Node)) (v : Val) (ctx : Ctx)

/-- C87 fails for names of formats: `format` given by reference is refused for every value, unless a format has been registered under a name
that ends with a parenthesis. -/
theorem C87_format_violated (hw : ∀ s, (w.formats s).isSome = true → s.getLast? ≠ some ')') (ho : Only voc items .format) (t : Str)
    (h : ByRef docs f items .format (.str t)) : validateN w docs voc (f + 2) (.obj items) v ctx = .err .schemaParse := by
  obtain ⟨n, hg, hr, hv⟩ := h
  obtain ⟨o, d, p, rfl⟩ := ref_kind hr
  simp only [Kw.key, Kw.keys, List.headD] at hg
  have hn : w.formats (nodeStr w (.ref o d p)) = none := by
    cases e : w.formats (nodeStr w (.ref o d p)) with
    | none => rfl
    | some c => exact absurd (by simp [nodeStr]) (hw (nodeStr w (.ref o d p)) (by rw [e]; rfl))
  exact single_err w docs voc f items v ctx .format _ ho rfl (dictHas_of_get hg) (by simp [readKw, getKey_of_get hg, hv, hn])

/-- C87, the formats the library comes with: none can be given by reference. -/
theorem C87_builtin_violated (E : Formats.Env) (ho : Only voc items .format) (t : Str) (h : ByRef docs f items .format (.str t)) :
    validateN (Formats.withFormats E w []) docs voc (f + 2) (.obj items) v ctx = .err .schemaParse := by
  refine C87_format_violated (Formats.withFormats E w []) docs voc f items v ctx (fun s hs => ?_) ho t h
  have hk : s ∈ (Formats.builtin E).map Prod.fst := by
    simp only [Formats.withFormats, Formats.registry, List.foldl_nil] at hs
    obtain ⟨c, hc⟩ := Option.isSome_iff_exists.1 hs
    exact List.mem_map.2 ⟨_, dictGet_mem hc, rfl⟩
  revert hk
  have : ∀ s ∈ (Formats.builtin E).map Prod.fst, s.getLast? ≠ some ')' := by
    simp only [Formats.builtin, List.map_cons, List.map_nil]
    decide
  exact this s

/-- C87 fails for patterns: what `pattern` given by reference accepts does not depend on the text the reference leads to.  Two schemas that
differ in that text, and in what else is not recognised, judge every value alike. -/
theorem C87_pattern_violated {docs' : List Doc} {f' : Nat} {items' : List (Str × Node)} (ho : Only voc items .pattern) (ho' : Only voc items' .pattern)
    (same : dictGet c!"pattern" items = dictGet c!"pattern" items') (t t' : Str) (h : ByRef docs f items .pattern (.str t))
    (h' : ByRef docs' f' items' .pattern (.str t')) :
    validateN w docs voc (f + 2) (.obj items) v ctx = validateN w docs' voc (f' + 2) (.obj items') v ctx := by
  obtain ⟨n, hg, hr, hv⟩ := h
  obtain ⟨n', hg', hr', hv'⟩ := h'
  simp only [Kw.key, Kw.keys, List.headD] at hg hg'
  have e : n = n' := by rw [hg, hg'] at same; exact Option.some.inj same
  subst e
  cases hs : w.search (nodeStr w n) with
  | none =>
    rw [single_err w docs voc f items v ctx .pattern .reError ho rfl (dictHas_of_get hg) (by simp [readKw, getKey_of_get hg, hv, hs]),
      single_err w docs' voc f' items' v ctx .pattern .reError ho' rfl (dictHas_of_get hg') (by simp [readKw, getKey_of_get hg', hv', hs])]
  | some m =>
    rw [single_set w docs voc f items v ctx .pattern (.pattern (nodeStr w n)) ho rfl (dictHas_of_get hg) (by simp [readKw, getKey_of_get hg, hv, hs]),
      single_set w docs' voc f' items' v ctx .pattern (.pattern (nodeStr w n)) ho' rfl (dictHas_of_get hg') (by simp [readKw, getKey_of_get hg', hv', hs])]
    rfl

/-- What is accepted instead: the texts in which the printed reference, read as a pattern, is found. -/
theorem C87_pattern_partial (hc : CtxOk ctx) (ho : Only voc items .pattern) (t : Str) {n : Node} (hg : dictGet c!"pattern" items = some n)
    (hv : view docs (f + 1) n = .ok (.str t)) (shown : Str) (hn : nodeStr w n = shown) (m : Str → Bool) (hm : w.search shown = some m) (s : Str) :
    validateN w docs voc (f + 2) (.obj items) (.str s) ctx = if m s then .ok () else rejected c!"format_error" ctx.path shown := by
  subst hn
  rw [single_set w docs voc f items _ ctx .pattern (.pattern (nodeStr w n)) ho rfl (dictHas_of_get hg)
    (by simp [readKw, getKey_of_get hg, hv, hm])]
  simp only [run, runPattern, hm, raise_ctx hc (c := .format) (by simp [ErrClass.all])]
  rfl

/-- C87 fails, a case: the schema `{"pattern": {"$ref": "#/x"}, "x": "a"}` rejects the text `"a"`, which `{"pattern": "a", "x": "a"}` accepts, and accepts
`"JsonReference#/x"`, if references are printed the way they are and `JsonReference(#/x)` is a pattern for the texts that contain `JsonReference#/x`. -/
theorem C87_texts_violated (w : World) (f : Nat) (shown : ∀ o d p, dictGet c!"$ref" o = some (.str c!"#/x") → w.reprBody (.ref o d p) = c!"JsonReference(#/x")
    (a : w.search c!"a" = some fun s => strContains c!"a" s) (j : w.search c!"JsonReference(#/x)" = some fun s => strContains c!"JsonReference#/x" s) :
    let sch := givenRef .pattern (.str c!"a")
    validateN w [] [.pattern] (f + 3) (.obj (givenHere .pattern (.str c!"a"))) (.str c!"a") [] = .ok () ∧
    validateN w [⟨.obj sch, []⟩] [.pattern] (f + 3) (.obj sch) (.str c!"a") [] = rejected c!"format_error" [] c!"JsonReference(#/x)" ∧
    validateN w [⟨.obj sch, []⟩] [.pattern] (f + 3) (.obj sch) (.str c!"JsonReference#/x") [] = .ok () := by
  have hc : CtxOk [] := by intro k hk; simp at hk
  obtain ⟨n, hg, -, hv⟩ := givenRef_leads .pattern (by decide) (.str c!"a") (by simp) (by simp) f
  have hn : nodeStr w n = c!"JsonReference(#/x)" := by
    simp only [givenRef, Kw.key, Kw.keys, List.headD, dictGet, if_true, Option.some.injEq] at hg
    subst hg
    rw [nodeStr, shown _ _ _ (by simp [dictGet])]
    all_goals simp
  have key := C87_pattern_partial w _ [.pattern] (f + 1) _ [] hc (given_only .pattern _ _) c!"a" hg hv _ hn _ j
  refine ⟨?_, (key c!"a").trans ?_, (key c!"JsonReference#/x").trans ?_⟩
  · rw [single_set w [] [.pattern] (f + 1) (givenHere .pattern (.str c!"a")) _ [] .pattern (.pattern c!"a") (given_only .pattern _ _) rfl (by decide)
      (by simp [givenHere, readKw, getKey, dictGet, Kw.key, Kw.keys, view, nodeStr, a])]
    simp only [run, runPattern, a]
    rfl
  · exact if_neg (by decide)
  · exact if_pos (by decide)

/-- A world as supposed. -/
example : ∃ w : World, (∀ o d p, dictGet c!"$ref" o = some (.str c!"#/x") → w.reprBody (.ref o d p) = c!"JsonReference(#/x") ∧
    (w.search c!"a" = some fun s => strContains c!"a" s) ∧ (w.search c!"JsonReference(#/x)" = some fun s => strContains c!"JsonReference#/x" s) ∧
    ∀ s, (w.formats s).isSome = true → s.getLast? ≠ some ')' :=
  ⟨{ search := fun p => some fun s => strContains (p.filter fun c => c ≠ '(' && c ≠ ')') s, formats := fun _ => none, parseDec := fun _ => none,
     reprBody := fun _ => c!"JsonReference(#/x" }, fun _ _ _ _ => rfl, rfl, by simp, by simp⟩

example (f : Nat) : ByRef [⟨.obj (givenRef .format (.str c!"email")), []⟩] (f + 1) (givenRef .format (.str c!"email")) .format (.str c!"email") ∧
    Only [.format] (givenRef .format (.str c!"email")) .format :=
  ⟨givenRef_leads _ (by decide) _ (by simp) (by simp) f, given_only _ _ _⟩

example (f : Nat) : ByRef [⟨.obj (givenRef .pattern (.str c!"a")), []⟩] (f + 1) (givenRef .pattern (.str c!"a")) .pattern (.str c!"a") ∧
    ByRef [⟨.obj (givenRef .pattern (.str c!"b")), []⟩] (f + 1) (givenRef .pattern (.str c!"b")) .pattern (.str c!"b") ∧
    dictGet c!"pattern" (givenRef .pattern (.str c!"a")) = dictGet c!"pattern" (givenRef .pattern (.str c!"b")) :=
  ⟨givenRef_leads _ (by decide) _ (by simp) (by simp) f, givenRef_leads _ (by decide) _ (by simp) (by simp) f, rfl⟩

end Verif.Props
