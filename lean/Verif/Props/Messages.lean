import Verif.Props.Paths
/-!
# C33: building and printing a `ValidationError`

The text of an error is a template which contains the path; `str.format` is applied to all of it.
-/

namespace Verif.Props
open Verif

/-- Texts that `str.format` accepts, given the names of the fields: plain characters, doubled braces, and fields. -/
inductive FmtOk (known : List Str) : Str → Prop
  | nil : FmtOk known []
  | char {c : Char} {r : Str} (h1 : c ≠ '{') (h2 : c ≠ '}') (h : FmtOk known r) : FmtOk known (c :: r)
  | opening {r : Str} (h : FmtOk known r) : FmtOk known ('{' :: '{' :: r)
  | closing {r : Str} (h : FmtOk known r) : FmtOk known ('}' :: '}' :: r)
  | field {name r : Str} (hn : name ∈ known) (h : FmtOk known r) : FmtOk known ('{' :: (name ++ '}' :: r))

/-- Field names are identifiers. -/
def Ident (s : Str) : Prop := s ≠ [] ∧ ∀ c ∈ s, c ∉ c!"{}!:.[`" ∧ c.isDigit = false ∧ c.toNat < 128

theorem isDigit_range {c : Char} : ('0' ≤ c && c ≤ '9') = c.isDigit := by
  simp [Char.isDigit, Char.le_def]

/-- An identifier is not a number. -/
theorem fmtInt_ident {s : Str} (h : Ident s) : fmtInt 0 s = none := by
  cases s with
  | nil => exact absurd rfl h.1
  | cons c r =>
    have hc := (h.2 c (by simp)).2
    rw [fmtInt, isDigit_range, hc.1]
    simp only [Bool.false_eq_true, if_false]
    exact if_neg (by omega)

theorem fmtField_none {known : List Str} (hk : ∀ s ∈ known, Ident s) (name : Str) : fmtField known name = none ↔ name ∈ known := by
  unfold fmtField
  constructor
  · intro h
    repeat' split at h
    all_goals first | assumption | cases h
  · intro h
    rw [fmtInt_ident (hk name h)]
    exact if_pos h

theorem fmtGo_field {known : List Str} (hk : ∀ s ∈ known, Ident s) (s acc : Str) :
    fmtGo known (some acc) s = none ↔ ∃ n r, s = n ++ '}' :: r ∧ '}' ∉ n ∧ acc.reverse ++ n ∈ known ∧ fmtGo known none r = none := by
  induction s generalizing acc with
  | nil => simp [fmtGo]
  | cons c s ih =>
    simp only [fmtGo]
    by_cases hc : c = '}'
    · subst hc
      simp only [if_true]
      constructor
      · intro h
        split at h
        · cases h
        · rename_i hf
          exact ⟨[], s, rfl, by simp, by simpa using (fmtField_none hk _).1 hf, h⟩
      · rintro ⟨n, r, e, hn, hm, h⟩
        cases n with
        | nil =>
          simp at e; subst e
          simp at hm
          rw [(fmtField_none hk _).2 hm]; exact h
        | cons x n => simp at e; rw [← e.1] at hn; simp at hn
    · simp only [if_neg hc]
      have key : (∃ n r, c :: s = n ++ '}' :: r ∧ '}' ∉ n ∧ acc.reverse ++ n ∈ known ∧ fmtGo known none r = none) ↔
          ∃ n r, s = n ++ '}' :: r ∧ '}' ∉ n ∧ (c :: acc).reverse ++ n ∈ known ∧ fmtGo known none r = none := by
        constructor
        · rintro ⟨n, r, e, hn, hm, h⟩
          cases n with
          | nil => simp at e; exact absurd e.1 hc
          | cons x n =>
            simp at e
            obtain ⟨rfl, rfl⟩ := e
            simp at hn
            exact ⟨n, r, rfl, hn.2, by simpa using hm, h⟩
        · rintro ⟨n, r, rfl, hn, hm, h⟩
          exact ⟨c :: n, r, rfl, by simp [hn, Ne.symm hc], by simpa using hm, h⟩
      have no : c ∈ c!"{}!:.[`" → ¬ ∃ n r, s = n ++ '}' :: r ∧ '}' ∉ n ∧ (c :: acc).reverse ++ n ∈ known ∧ fmtGo known none r = none := by
        rintro hb ⟨n, r, -, -, hm, -⟩
        exact ((hk _ hm).2 c (by simp)).1 hb
      rw [key]
      split
      · rename_i h; subst h; simp only [reduceCtorEq, false_iff]; exact no (by decide)
      · split
        · rename_i h
          simp only [reduceCtorEq, false_iff]
          apply no
          rcases h with rfl | rfl | rfl | rfl <;> decide
        · exact ih _

theorem FmtOk.inv {known : List Str} {s : Str} (h : FmtOk known s) : s = [] ∨
    (∃ c r, s = c :: r ∧ c ≠ '{' ∧ c ≠ '}' ∧ FmtOk known r) ∨ (∃ r, s = '{' :: '{' :: r ∧ FmtOk known r) ∨
    (∃ r, s = '}' :: '}' :: r ∧ FmtOk known r) ∨ ∃ n r, s = '{' :: (n ++ '}' :: r) ∧ n ∈ known ∧ FmtOk known r := by
  cases h with
  | nil => exact .inl rfl
  | char h1 h2 h => exact .inr (.inl ⟨_, _, rfl, h1, h2, h⟩)
  | opening h => exact .inr (.inr (.inl ⟨_, rfl, h⟩))
  | closing h => exact .inr (.inr (.inr (.inl ⟨_, rfl, h⟩)))
  | field hn h => exact .inr (.inr (.inr (.inr ⟨_, _, rfl, hn, h⟩)))

theorem fmtGo_ok {known : List Str} (hk : ∀ s ∈ known, Ident s) (n : Nat) (s : Str) (hn : s.length ≤ n) : fmtGo known none s = none ↔ FmtOk known s := by
  have name_head : ∀ {m : Str} {c : Char} {r : Str}, m ∈ known → m = c :: r → c ∉ c!"{}!:.[`" := by
    intro m c r hm e
    exact ((hk m hm).2 c (by rw [e]; simp)).1
  induction n generalizing s with
  | zero =>
    cases s with
    | nil => simp [fmtGo, FmtOk.nil]
    | cons _ _ => simp at hn
  | succ n ih =>
    cases s with
    | nil => simp [fmtGo, FmtOk.nil]
    | cons c s =>
      simp at hn
      by_cases h1 : c = '{'
      · subst h1
        cases s with
        | nil =>
          simp only [fmtGo, reduceCtorEq, false_iff]
          intro h
          rcases h.inv with h | ⟨_, _, e, h1, h2, h⟩ | ⟨_, e, h⟩ | ⟨_, e, h⟩ | ⟨_, _, e, h1, h⟩
          · cases h
          · simp at e; exact h1 e.1.symm
          · simp at e
          · simp at e
          · simp at e
        | cons d s =>
          simp at hn
          by_cases h2 : d = '{'
          · subst h2
            simp only [fmtGo, ih s (by omega)]
            constructor
            · exact .opening
            · intro h
              rcases h.inv with h | ⟨_, _, e, h1, h2, h⟩ | ⟨_, e, h⟩ | ⟨_, e, h⟩ | ⟨m, _, e, h1, h⟩
              · cases h
              · simp at e; exact absurd e.1.symm h1
              · simp at e; subst e; exact h
              · simp at e
              · cases m with
                | nil => simp at e
                | cons x m =>
                  simp at e
                  exact absurd (by rw [← e.1]; decide) (name_head h1 rfl)
          · by_cases h3 : d = '}'
            · subst h3
              simp only [fmtGo, fmtField, fmtInt, reduceCtorEq, false_iff]
              intro h
              rcases h.inv with h | ⟨_, _, e, h1, h2, h⟩ | ⟨_, e, h⟩ | ⟨_, e, h⟩ | ⟨m, _, e, h1, h⟩
              · cases h
              · simp at e; exact absurd e.1.symm h1
              · simp at e
              · simp at e
              · cases m with
                | nil => exact (hk _ h1).1 rfl
                | cons x m =>
                  simp at e
                  exact absurd (by rw [← e.1]; decide) (name_head h1 rfl)
            · have e1 : fmtGo known none ('{' :: d :: s) = if d = '!' ∨ d = ':' ∨ d = '.' ∨ d = '[' then some (fmtOdd known [] (d :: s)) else fmtGo known (some [d]) s := by
                rw [fmtGo]
                · exact fun h => h2 h
                · exact fun h => h3 h
              rw [e1]
              have inv : FmtOk known ('{' :: d :: s) ↔ ∃ m r, s = m ++ '}' :: r ∧ '}' ∉ m ∧ [d].reverse ++ m ∈ known ∧ FmtOk known r := by
                constructor
                · intro h
                  rcases h.inv with h | ⟨_, _, e, h1, h2, h⟩ | ⟨_, e, h⟩ | ⟨_, e, h⟩ | ⟨m, r, e, h1, h'⟩
                  · cases h
                  · simp at e; exact absurd e.1.symm h1
                  · simp at e; exact absurd e.1 h2
                  · simp at e
                  · cases m with
                    | nil => exact absurd rfl (hk _ h1).1
                    | cons x m =>
                      simp at e
                      obtain ⟨rfl, rfl⟩ := e
                      refine ⟨m, r, rfl, fun hm => ?_, by simpa using h1, h'⟩
                      exact absurd (by decide) ((hk _ h1).2 '}' (by simp [hm])).1
                · rintro ⟨m, r, rfl, _, hm, h⟩
                  exact .field (name := d :: m) (by simpa using hm) h
              rw [inv]
              split
              · rename_i hd
                simp only [reduceCtorEq, false_iff]
                rintro ⟨m, r, -, -, hm, -⟩
                have := ((hk _ hm).2 d (by simp)).1
                apply this
                rcases hd with rfl | rfl | rfl | rfl <;> decide
              · rw [fmtGo_field hk]
                constructor
                · rintro ⟨m, r, rfl, a, b, h⟩
                  exact ⟨m, r, rfl, a, b, (ih r (by simp at hn; omega)).1 h⟩
                · rintro ⟨m, r, rfl, a, b, h⟩
                  exact ⟨m, r, rfl, a, b, (ih r (by simp at hn; omega)).2 h⟩
      · by_cases h2 : c = '}'
        · subst h2
          by_cases h3 : ∃ r, s = '}' :: r
          · obtain ⟨r, rfl⟩ := h3
            simp at hn
            simp only [fmtGo, ih r (by omega)]
            constructor
            · exact .closing
            · intro h
              rcases h.inv with h | ⟨_, _, e, h1, h2, h⟩ | ⟨_, e, h⟩ | ⟨_, e, h⟩ | ⟨m, _, e, h1, h⟩
              · cases h
              · simp at e; exact absurd e.1.symm h2
              · simp at e
              · simp at e; subst e; exact h
              · simp at e
          · have e1 : fmtGo known none ('}' :: s) = some .valueError := by
              rw [fmtGo]
              exact fun r h => h3 ⟨r, h⟩
            simp only [e1, reduceCtorEq, false_iff]
            intro h
            rcases h.inv with h | ⟨_, _, e, h1, h2, h⟩ | ⟨_, e, h⟩ | ⟨r, e, h⟩ | ⟨m, _, e, h1, h⟩
            · cases h
            · simp at e; exact absurd e.1.symm h2
            · simp at e
            · simp at e; exact h3 ⟨r, e⟩
            · simp at e
        · rw [fmtGo_skip _ _ _ h1 h2]
          refine (ih s (by omega)).trans ?_
          constructor
          · exact .char h1 h2
          · intro h
            rcases h.inv with h | ⟨_, _, e, h1, h2, h⟩ | ⟨_, e, h⟩ | ⟨r, e, h⟩ | ⟨m, _, e, h1, h⟩
            · cases h
            · simp at e; rw [e.2]; exact h
            · simp at e; exact absurd e.1 h1
            · simp at e; exact absurd e.1 h2
            · simp at e; exact absurd e.1 ‹_›

/-- What `str.format` accepts. -/
theorem pyFormat_ok {known : List Str} (hk : ∀ s ∈ known, Ident s) (s : Str) : pyFormat known s = none ↔ FmtOk known s :=
  fmtGo_ok hk s.length s (Nat.le_refl _)

theorem FmtOk.append {known : List Str} {s t : Str} (hs : FmtOk known s) (ht : FmtOk known t) : FmtOk known (s ++ t) := by
  induction hs with
  | nil => exact ht
  | char h1 h2 _ ih => exact .char h1 h2 ih
  | opening _ ih => exact .opening ih
  | closing _ ih => exact .closing ih
  | field hn _ ih => rw [List.cons_append, List.append_assoc]; exact .field hn ih

theorem FmtOk.plain {known : List Str} {s : Str} (h : noBrace s) : FmtOk known s := by
  induction s with
  | nil => exact .nil
  | cons c s ih =>
    unfold noBrace at h ih
    simp at h
    exact .char (Ne.symm h.1.1) (Ne.symm h.2.1) (ih ⟨h.1.2, h.2.2⟩)

/-- Before a backquote, which occurs in no field name, a text must be complete. -/
theorem FmtOk.before {known : List Str} (hk : ∀ s ∈ known, Ident s) {s t : Str} (h : FmtOk known (s ++ '`' :: t)) : FmtOk known s ∧ FmtOk known t := by
  generalize e : s ++ '`' :: t = u at h
  induction h generalizing s with
  | nil => simp at e
  | char h1 h2 h ih =>
    cases s with
    | nil => simp at e; rw [e.2]; exact ⟨.nil, h⟩
    | cons x s =>
      simp at e
      obtain ⟨rfl, e⟩ := e
      exact ⟨.char h1 h2 (ih e).1, (ih e).2⟩
  | opening h ih =>
    cases s with
    | nil => simp at e
    | cons x s =>
      cases s with
      | nil => simp at e
      | cons y s =>
        simp at e
        obtain ⟨rfl, rfl, e⟩ := e
        exact ⟨.opening (ih e).1, (ih e).2⟩
  | closing h ih =>
    cases s with
    | nil => simp at e
    | cons x s =>
      cases s with
      | nil => simp at e
      | cons y s =>
        simp at e
        obtain ⟨rfl, rfl, e⟩ := e
        exact ⟨.closing (ih e).1, (ih e).2⟩
  | @field name r hn h ih =>
    cases s with
    | nil => simp at e
    | cons x s =>
      simp at e
      obtain ⟨rfl, e⟩ := e
      rcases List.append_eq_append_iff.1 e with ⟨a, rfl, e2⟩ | ⟨a, rfl, e2⟩
      · exfalso
        cases a with
        | nil => simp at e2
        | cons x a =>
          simp at e2
          obtain ⟨rfl, -⟩ := e2
          exact absurd (by decide) ((hk _ hn).2 '`' (by simp)).1
      · cases a with
        | nil => simp at e2
        | cons x a =>
          simp at e2
          obtain ⟨rfl, e2⟩ := e2
          obtain ⟨i1, i2⟩ := ih e2.symm
          exact ⟨.field hn i1, i2⟩

theorem fields_ident : ∀ c ∈ ErrClass.all, ∀ s ∈ c!"path" :: c.fields, Ident s := by
  have : ∀ c ∈ ErrClass.all, ∀ s ∈ c!"path" :: c.fields, s ≠ [] ∧ (s.all fun c => !(c!"{}!:.[`".contains c) && !c.isDigit && c.toNat < 128) = true := by
    simp only [ErrClass.all, List.forall_mem_cons]
    refine ⟨?_, ?_, ?_, ?_, ?_, ?_, ?_, ?_, ?_, ?_, ?_, ?_, ?_, ?_, ?_, ?_, ?_, ?_, ?_, by simp⟩ <;> decide +kernel
  intro c hc s hs
  obtain ⟨h1, h2⟩ := this c hc s hs
  refine ⟨h1, fun x hx => ?_⟩
  have := List.all_eq_true.1 h2 x hx
  simp only [Bool.and_eq_true, Bool.not_eq_true', List.contains_eq_mem, decide_eq_false_iff_not, decide_eq_true_eq] at this
  exact ⟨this.1.1, this.1.2, this.2⟩

theorem format_path {c : ErrClass} (hc : c ∈ ErrClass.all) (path : Str) :
    pyFormat (c!"path" :: c.fields) (errText path c.tmpl) = none ↔ FmtOk (c!"path" :: c.fields) path := by
  have hk := fields_ident c hc
  have ht := (pyFormat_ok hk _).1 (tmpl_ok c hc)
  rw [pyFormat_ok hk]
  have split : ∀ p, errText p c.tmpl = c!"Failed validation at " ++ '`' :: (p ++ '`' :: (c!". " ++ c.tmpl)) := by
    intro p; simp [errText]
  rw [split] at ht ⊢
  constructor
  · intro h
    exact ((h.before hk).2.before hk).1
  · intro h
    refine (FmtOk.plain ⟨by decide, by decide⟩).append (.char (by decide) (by decide) (h.append (.char (by decide) (by decide) ?_)))
    exact ((ht.before hk).2.before hk).2

/-- C33: raising an error, of any class, for a path raises that error exactly if the path, taken as a format string, is in order;
then it can be printed as well.  (Paths with a format specification inside braces are not modelled.) -/
theorem C33_raise_iff {c : ErrClass} (hc : c ∈ ErrClass.all) (path detail : Str) (_hm : raiseErr c path detail ≠ .unmodelled) :
    ((∃ e, raiseErr c path detail = .validation e) ↔ FmtOk (c!"path" :: c.fields) path) ∧
    (FmtOk (c!"path" :: c.fields) path → raiseErr c path detail = .validation ⟨c.code, path, detail⟩ ∧ strKeywordError c path = none) := by
  rw [← format_path hc]
  constructor
  · constructor
    · rintro ⟨e, h⟩
      unfold raiseErr at h
      split at h
      · rename_i e' he
        exact absurd (h ▸ he) (fmtGo_val _ _ _ e)
      · assumption
    · intro h
      exact ⟨⟨c.code, path, detail⟩, by simp [raiseErr, h]⟩
  · intro h
    exact ⟨by simp [raiseErr, h], h⟩

/-- C33: so raising and printing work for every location whose property names have no braces. -/
theorem C33_raise_partial {c : ErrClass} (hc : c ∈ ErrClass.all) (ctx : Ctx) (h : ∀ k ∈ ctx, '{' ∉ k ∧ '}' ∉ k) (detail : Str) :
    raiseErr c ctx.path detail = .validation ⟨c.code, ctx.path, detail⟩ ∧ strKeywordError c ctx.path = none := by
  have hp : noBrace ctx.path := CtxOk.path h
  refine ⟨raise_ctx h hc detail, ?_⟩
  rw [strKeywordError, format_path hc]
  exact .plain hp

/-- C33: an error raised with a message can be printed if path and message are in order as format strings. -/
theorem C33_print_partial (path message : Str) (hp : FmtOk [c!"path", c!"message"] path) (hm : FmtOk [c!"path", c!"message"] message) :
    strPlainError path message = none := by
  rw [strPlainError, pyFormat_ok]
  · exact (((FmtOk.plain ⟨by decide, by decide⟩).append hp).append (.plain ⟨by decide, by decide⟩)).append hm
  · intro s hs
    simp only [List.mem_cons, List.not_mem_nil, or_false] at hs
    rcases hs with rfl | rfl <;> exact ⟨by decide, by decide⟩

/-- A property named `{a}` makes raising fail: `{properties: {"{a}": {type: "string"}}}` on `{"{a}": 1}` raises `KeyError`. -/
theorem C33_name_violated : ∀ w, validateN w [] [.properties, .type] 5
    (.obj [(c!"properties", .obj [(c!"{a}", .obj [(c!"type", .str c!"string")])])]) (.dict [(c!"{a}", .int 1)]) [] = .err .keyError := fun _ => rfl

/-- A value `"{a}"` makes printing fail: the message for `additionalProperties: false` contains the value. -/
theorem C33_value_violated : (∀ w, validateN w [] [.additionalProperties] 5 (.obj [(c!"additionalProperties", .bool false)])
    (.dict [(c!"x", .str c!"{a}")]) [] = .err (raisePlain c!"x")) ∧ strPlainError c!"x" c!"Unexpected `{a}` value passed." = some .keyError :=
  ⟨fun _ => rfl, by decide⟩

example : FmtOk [c!"path", c!"expected_types"] c!"a{{b}}.{path}" :=
  .char (by decide) (by decide) (.opening (.char (by decide) (by decide) (.closing (.char (by decide) (by decide) (.field (name := c!"path") (by decide) .nil)))))

end Verif.Props
