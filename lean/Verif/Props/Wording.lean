import Verif.Spec.Wording
import Verif.Props.Messages
import Verif.Model.Schema
/-!
# C100: the text of a validation error
-/

namespace Verif.Props
open Verif Spec

section
variable {fields : List (Str × Str)}

/-- The text, and the question of C33 whether there is one, agree. -/
theorem fmtTextGo_agrees (st : Option Str) (s : Str) : (∃ t, fmtTextGo fields st s = .ok t ∧ fmtGo (fields.map Prod.fst) st s = none) ∨
    ∃ e, fmtTextGo fields st s = .err e ∧ fmtGo (fields.map Prod.fst) st s = some e := by
  have val : ∀ n, (∃ t, fmtValue fields n = .ok t ∧ fmtField (fields.map Prod.fst) n = none) ∨ ∃ e, fmtValue fields n = .err e ∧ fmtField (fields.map Prod.fst) n = some e := by
    intro n
    unfold fmtField fmtValue
    cases fmtInt 0 n with
    | some e => exact .inr ⟨_, rfl, rfl⟩
    | none =>
      cases h : dictGet n fields with
      | some v => exact .inl ⟨v, rfl, if_pos (List.mem_map.2 ⟨_, dictGet_mem h, rfl⟩)⟩
      | none => exact .inr ⟨_, rfl, if_neg (Verif.dictGet_none.1 h)⟩
  have step : ∀ {a : Res Str} {b : Option PyErr} (g : Str → Str), ((∃ t, a = .ok t ∧ b = none) ∨ ∃ e, a = .err e ∧ b = some e) →
      (∃ t, (a >>= fun t => Res.ok (g t)) = .ok t ∧ b = none) ∨ ∃ e, (a >>= fun t => Res.ok (g t)) = .err e ∧ b = some e := by
    rintro a b g (⟨t, rfl, rfl⟩ | ⟨e, rfl, rfl⟩)
    · exact .inl ⟨_, rfl, rfl⟩
    · exact .inr ⟨_, rfl, rfl⟩
  fun_induction fmtTextGo fields st s
  case case1 => exact .inl ⟨_, rfl, rfl⟩
  case case2 => exact .inr ⟨_, rfl, rfl⟩
  case case3 ih => simp only [fmtGo]; exact step _ ih
  case case4 => simp only [fmtGo]; exact val []
  case case5 c r h1 h2 h => exact .inr ⟨_, rfl, by simp only [fmtGo]; rw [if_pos h]⟩
  case case6 c r h1 h2 h ih => simp only [fmtGo]; rw [if_neg h]; exact ih
  case case7 ih => simp only [fmtGo]; exact step _ ih
  case case8 r h => exact .inr ⟨_, rfl, by rw [fmtGo]; exact h⟩
  case case9 c r h1 h2 h3 h4 h5 h6 ih =>
    rw [fmtGo]
    · exact step _ ih
    all_goals assumption
  case case10 => exact .inr ⟨_, rfl, rfl⟩
  case case11 acc r ih =>
    simp only [fmtGo, if_true]
    rcases val acc.reverse with ⟨v, h1, h2⟩ | ⟨e, h1, h2⟩ <;> rw [h1, h2]
    · exact step _ ih
    · exact .inr ⟨_, rfl, rfl⟩
  case case12 h => exact .inr ⟨_, rfl, by simp [fmtGo]⟩
  case case13 h1 h2 h => exact .inr ⟨_, rfl, by simp only [fmtGo]; rw [if_neg h1, if_neg h2, if_pos h]⟩
  case case14 h1 h2 h ih => simp only [fmtGo]; rw [if_neg h1, if_neg h2, if_neg h]; exact ih

theorem fmtTextGo_char {c : Char} (h1 : c ≠ '{') (h2 : c ≠ '}') (r : Str) :
    fmtTextGo fields none (c :: r) = fmtTextGo fields none r >>= fun t => .ok (c :: t) := by
  rw [fmtTextGo] <;> simp [h1, h2]

variable (hk : ∀ p ∈ fields, Ident p.1)
include hk

theorem fmtValue_of {n v : Str} (h : dictGet n fields = some v) : fmtValue fields n = .ok v := by
  unfold fmtValue
  rw [fmtInt_ident (hk _ (dictGet_mem h)), h]

omit hk in
theorem fmtTextGo_name {n r acc : Str} (hn : ∀ c ∈ n, c ∉ c!"{}!:.[`") :
    fmtTextGo fields (some acc) (n ++ '}' :: r) = fmtValue fields (acc.reverse ++ n) >>= fun v => fmtTextGo fields none r >>= fun t => .ok (v ++ t) := by
  induction n generalizing acc with
  | nil => simp [fmtTextGo]
  | cons c n ih =>
    have hc := hn c (by simp)
    simp at hc
    rw [List.cons_append, fmtTextGo, if_neg hc.2.1, if_neg hc.1, if_neg (by simp [hc]), ih fun c h => hn c (by simp [h])]
    simp

/-- What `str.format` makes of the beginning of a text. -/
theorem filled_go {s t : Str} (h : Filled fields s t) (r : Str) : fmtTextGo fields none (s ++ r) = fmtTextGo fields none r >>= fun u => .ok (t ++ u) := by
  have fold : ∀ (x : Res Str) (f g : Str → Str), (x >>= fun u => Res.ok (f u)) >>= (fun u => Res.ok (g u)) = x >>= fun u => Res.ok (g (f u)) := by
    intro x f g; cases x <;> rfl
  induction h with
  | nil => simp only [List.nil_append]; cases fmtTextGo fields none r <;> rfl
  | char h1 h2 _ ih => rw [List.cons_append, fmtTextGo_char h1 h2, ih, fold]; rfl
  | opening _ ih => simp only [List.cons_append, fmtTextGo]; rw [ih, fold]
  | closing _ ih => simp only [List.cons_append, fmtTextGo]; rw [ih, fold]
  | @field name v r' t' hn _ ih =>
    obtain ⟨h1, h2⟩ := hk _ (dictGet_mem hn)
    cases name with
    | nil => exact absurd rfl h1
    | cons c name =>
      have hc := (h2 c (by simp)).1
      simp at hc
      have hv := fmtValue_of hk hn
      simp only [List.cons_append, List.append_assoc]
      rw [fmtTextGo]
      · rw [if_neg (by simp [hc]), fmtTextGo_name fun c h => (h2 c (by simp [h])).1]
        simp only [List.reverse_cons, List.reverse_nil, List.nil_append, List.cons_append, hv, Res.ok_bind, ih, fold]
      all_goals simp [hc]

/-- `str.format` as the Python documentation has it. -/
theorem filled_text {s t : Str} (h : Filled fields s t) : fmtText fields s = .ok t := by
  have := filled_go hk h []
  simpa [fmtText, fmtTextGo] using this

omit hk in
/-- Text without braces is copied. -/
theorem filled_plain {s : Str} (h : noBrace s) : Filled fields s s := by
  induction s with
  | nil => exact .nil
  | cons c s ih =>
    obtain ⟨h1, h2⟩ := h
    simp at h1 h2
    exact .char (Ne.symm h1.1) (Ne.symm h2.1) (ih ⟨h1.2, h2.2⟩)

end

/-- A path that is in order as a format string is printed as what `str.format` makes of it, the message after it with the values in place. -/
theorem text_of {fields : List (Str × Str)} {path p tmpl msg : Str} (hk : ∀ q ∈ fields, Ident q.1) (hp : Filled fields path p)
    (ht : fmtTextGo fields none tmpl = .ok msg) :
    fmtText fields (errText path tmpl) = .ok (c!"Failed validation at `" ++ (p ++ (c!"`. " ++ msg))) := by
  unfold fmtText errText
  rw [List.append_assoc, List.append_assoc, filled_go hk (filled_plain ⟨by decide, by decide⟩), filled_go hk hp,
    filled_go hk (filled_plain ⟨by decide, by decide⟩), ht]
  rfl

theorem new_ok {c : ErrClass} {kwargs : List (Str × Str)} {t : Str} (h : ErrObj.str ⟨c, ErrObj.attrs c kwargs⟩ = .ok t) :
    ErrObj.new c kwargs = .ok ⟨c, ErrObj.attrs c kwargs⟩ := by
  unfold ErrObj.new
  simp only [h, Res.ok_bind]

/-- The names of the attributes are plain. -/
theorem ident_of {xs : List (Str × Str)} (h : (xs.map Prod.fst).all fun s => s ≠ [] && s.all fun c => !(c!"{}!:.[`").contains c && !c.isDigit && c.toNat < 128) : ∀ q ∈ xs, Ident q.1 := by
  intro q hq
  simp only [List.all_map, List.all_eq_true] at h
  have := h q hq
  simp only [Function.comp, decide_not, Bool.and_eq_true, Bool.not_eq_true', decide_eq_false_iff_not, List.all_eq_true] at this
  refine ⟨this.1, fun c hc => ?_⟩
  have h2 := this.2 c hc
  refine ⟨fun hm => ?_, h2.1.2, by simpa using h2.2⟩
  simp [hm] at h2

theorem kwargs_ident (r : Raised) (path : Str) : ∀ q ∈ r.kwargs path, Ident q.1 := by
  cases r <;> exact ident_of rfl

theorem kwargs_kept (r : Raised) (path : Str) : ErrObj.attrs r.cls (r.kwargs path) = r.kwargs path := by
  cases r <;> rfl

theorem sentence_of (r : Raised) (hr : r.arg = none) (path : Str) : fmtTextGo (r.kwargs path) none (ErrObj.message ⟨r.cls, r.kwargs path⟩) = .ok (Raised.sentence r) := by
  cases r <;> first | rfl | cases hr

/-- C100: an error raised through keyword arguments says in words what is wrong, with the values of its attributes in place, and shows of the path what `str.format`
makes of it. -/
theorem C100_filled (r : Raised) (hr : r.arg = none) (hn : ∀ t, r ≠ .notArray t) (path p : Str) (hp : Filled (r.kwargs path) path p) :
    ∃ e, r.error path = .ok e ∧ e.str = .ok (report p r) ∧ e.path = path ∧ e.cls = r.cls := by
  have hpath : ErrObj.path ⟨r.cls, r.kwargs path⟩ = path := by
    cases r <;> first | rfl | exact absurd rfl (hn _)
  have : ErrObj.str ⟨r.cls, r.kwargs path⟩ = .ok (report p r) := by
    unfold ErrObj.str
    rw [hpath]
    exact text_of (kwargs_ident r path) hp (sentence_of r hr path)
  refine ⟨⟨r.cls, r.kwargs path⟩, ?_, this, hpath, rfl⟩
  unfold Raised.error
  rw [hr]
  simp only
  have e := kwargs_kept r path
  rw [new_ok (t := report p r)] <;> rw [e]
  exact this

/-- C100: an error raised at a path without braces says in words what is wrong, with the values of its attributes in place.  Missing: paths and values with braces,
where the text is something else or there is none (`C100_path_violated`, `C33_name_violated`); one message is not what the schema asks (`C100_exclusive_violated`), and
one error has lost its path (`C100_array_violated`). -/
theorem C100_text_partial (r : Raised) (hr : ∀ v, r = .fail v → noBrace v) (path : Str) (hp : noBrace path) :
    ∃ e, r.error path = .ok e ∧ e.str = .ok (report (Raised.at path r) r) ∧ e.path = Raised.at path r := by
  cases r
  case fail v =>
    refine ⟨_, rfl, ?_, rfl⟩
    have hv := hr v rfl
    have : noBrace (c!"Unexpected `" ++ v ++ c!"` value passed.") := by
      refine ⟨?_, ?_⟩ <;> simp [hv.1, hv.2]
    have := filled_text (fields := [(c!"path", path), (c!"message", c!"Unexpected `" ++ v ++ c!"` value passed.")]) (ident_of rfl) (filled_plain this)
    refine text_of (fields := [(c!"path", path), (c!"message", c!"Unexpected `" ++ v ++ c!"` value passed.")]) (ident_of rfl) (filled_plain hp) ?_
    refine Eq.trans this ?_
    simp [Raised.sentence]
  case not => exact ⟨_, rfl, text_of (fields := [(c!"path", path), (c!"message", c!"Failed to validate the value.")]) (ident_of rfl) (filled_plain hp) rfl, rfl⟩
  case notArray t =>
    have := text_of (fields := [(c!"expected_types", t)]) (path := []) (ident_of rfl) .nil (sentence_of (.notArray t) rfl path)
    exact ⟨_, new_ok (c := .typeError) (kwargs := [(c!"expected_types", t)]) this, this, rfl⟩
  all_goals
    refine (fun ⟨e, h1, h2, h3, _⟩ => ⟨e, h1, h2, h3⟩) (C100_filled _ ?_ ?_ path path (filled_plain hp))
    · rfl
    · intro t h
      cases h

/-- Whether an attribute is there does not depend on the order of the names. -/
theorem fmtGo_congr {k k' : List Str} (h : ∀ s, s ∈ k ↔ s ∈ k') (st : Option Str) (s : Str) : fmtGo k st s = fmtGo k' st s := by
  have hf : ∀ n, fmtField k n = fmtField k' n := by
    intro n
    unfold fmtField
    simp only [h n]
  have ho : ∀ n r, fmtOdd k n r = fmtOdd k' n r := by
    intro n r
    unfold fmtOdd
    simp only [h n]
  fun_induction fmtGo k st s <;> simp_all [fmtGo]

theorem same_names {a b : List Str} (h : (a.all fun x => b.contains x) && (b.all fun x => a.contains x)) (s : Str) : s ∈ a ↔ s ∈ b := by
  simp at h
  exact ⟨h.1 s, h.2 s⟩

/-- The class the model of validation takes; there the message of `oneOf` is that of a class. -/
def Raised.raisedAs : Raised → ErrClass
  | .oneOf => .tooMany
  | r => r.cls

/-- C100: the errors with texts are those of the model of validation: at the same place of the code both raise the error, or both the same exception of `str.format`. -/
theorem C100_agrees (r : Raised) (hr : r.arg = none) (hn : ∀ t, r ≠ .notArray t) (path detail : Str) :
    (∃ e, r.error path = .ok e ∧ e.path = path ∧ raiseErr (Raised.raisedAs r) path detail = .validation ⟨e.code, e.path, detail⟩) ∨
      ∃ x, r.error path = .err x ∧ raiseErr (Raised.raisedAs r) path detail = x := by
  have hm : ErrObj.message ⟨r.cls, r.kwargs path⟩ = (Raised.raisedAs r).tmpl := by
    cases r <;> first | rfl | cases hr
  have hpath : ErrObj.path ⟨r.cls, r.kwargs path⟩ = path := by
    cases r <;> first | rfl | exact absurd rfl (hn _)
  have hcode : ErrObj.code ⟨r.cls, r.kwargs path⟩ = (Raised.raisedAs r).code := by
    cases r <;> first | rfl | cases hr
  have hk : ∀ s, s ∈ (r.kwargs path).map Prod.fst ↔ s ∈ c!"path" :: (Raised.raisedAs r).fields := by
    cases r
    case notArray => exact absurd rfl (hn _)
    all_goals first | exact same_names rfl | cases hr
  have hnew : r.error path = ErrObj.str ⟨r.cls, r.kwargs path⟩ >>= fun _ => .ok ⟨r.cls, r.kwargs path⟩ := by
    unfold Raised.error ErrObj.new
    rw [hr]
    simp only [kwargs_kept]
  have hstr : ErrObj.str ⟨r.cls, r.kwargs path⟩ = fmtTextGo (r.kwargs path) none (errText path (Raised.raisedAs r).tmpl) := by
    unfold ErrObj.str fmtText
    rw [hm, hpath]
  rw [hnew, hstr]
  unfold raiseErr pyFormat
  rw [← fmtGo_congr hk]
  rcases fmtTextGo_agrees (fields := r.kwargs path) none (errText path (Raised.raisedAs r).tmpl) with ⟨t, h1, h2⟩ | ⟨x, h1, h2⟩
  · refine .inl ⟨_, ?_, hpath, ?_⟩
    · rw [h1]
      rfl
    · rw [h2, hpath, hcode]
  · refine .inr ⟨x, ?_, ?_⟩
    · rw [h1]
      rfl
    · rw [h2]

/-- C100: as `C100_agrees`, for the other three places. -/
theorem C100_agrees_other (path t : Str) :
    (∃ e, Raised.error path (.notArray t) = .ok e ∧ raiseTypeNoPath = .validation ⟨e.code, e.path, []⟩) ∧
    (∃ e, Raised.error path .not = .ok e ∧ raisePlain path = .validation ⟨e.code, e.path, []⟩) ∧
    ∃ e, Raised.error path (.fail t) = .ok e ∧ raisePlain path = .validation ⟨e.code, e.path, []⟩ := by
  refine ⟨?_, ⟨_, rfl, rfl⟩, ⟨_, rfl, rfl⟩⟩
  exact ⟨_, new_ok (c := .typeError) (kwargs := [(c!"expected_types", t)])
    (text_of (fields := [(c!"expected_types", t)]) (path := []) (ident_of rfl) .nil (sentence_of (.notArray t) rfl path)), by rfl⟩

/-- C100: of two errors with the same reason, at paths without braces, the texts differ if the paths do. -/
theorem C100_path_partial (r : Raised) (hr : ∀ v, r = .fail v → noBrace v) (hn : ∀ t, r ≠ .notArray t) {p q : Str} (hp : noBrace p) (hq : noBrace q)
    {e e' : ErrObj} (h : r.error p = .ok e) (h' : r.error q = .ok e') (hs : e.str = e'.str) : p = q := by
  obtain ⟨x, h1, h2, _⟩ := C100_text_partial r hr p hp
  obtain ⟨y, h3, h4, _⟩ := C100_text_partial r hr q hq
  obtain rfl : x = e := by simpa [h] using h1.symm
  obtain rfl : y = e' := by simpa [h'] using h3.symm
  have ha : ∀ s, Raised.at s r = s := by
    intro s
    cases r <;> first | rfl | exact absurd rfl (hn _)
  rw [h2, h4, ha, ha] at hs
  have hs : report p r = report q r := by simpa using hs
  unfold report at hs
  exact List.append_cancel_right (List.append_cancel_left hs)

/-- A property with braces in its name is reported under another name: `{properties: {"{expected_maximum}": {maximum: 3}}}` on `{"{expected_maximum}": 4}` says that
something is wrong at `3`, as `{items: {maximum: 3}}` does of the last of four numbers. -/
theorem C100_path_violated : (∀ w, validateN w [] [.properties, .maximum] 5
    (.obj [(c!"properties", .obj [(c!"{expected_maximum}", .obj [(c!"maximum", .num (.fin 3))])])]) (.dict [(c!"{expected_maximum}", .int 4)]) [] =
      .err (raiseErr .maximum c!"{expected_maximum}")) ∧
    (∃ e, Raised.error c!"{expected_maximum}" (.maximum c!"3") = .ok e ∧ e.str = .ok (report c!"3" (.maximum c!"3"))) ∧
    ∃ e, Raised.error c!"3" (.maximum c!"3") = .ok e ∧ e.str = .ok (report c!"3" (.maximum c!"3")) := by
  refine ⟨fun _ => by rfl, ?_, ?_⟩
  · have hf : Filled (Raised.kwargs c!"{expected_maximum}" (.maximum c!"3")) ('{' :: (c!"expected_maximum" ++ '}' :: [])) (c!"3" ++ []) := .field rfl .nil
    obtain ⟨e, h1, h2, _⟩ := C100_filled (.maximum c!"3") rfl (by simp) c!"{expected_maximum}" c!"3" hf
    exact ⟨e, h1, h2⟩
  · obtain ⟨e, h1, h2, _⟩ := C100_filled (.maximum c!"3") rfl (by simp) c!"3" c!"3" (filled_plain ⟨by decide, by decide⟩)
    exact ⟨e, h1, h2⟩

/-- The message of an exclusive limit asks for what the value already meets: `{exclusiveMaximum: 3}` rejects 3, and says it must be lower or equal to 3. -/
theorem C100_exclusive_violated : (∀ w, validateN w [] [.exclusiveMaximum] 5 (.obj [(c!"exclusiveMaximum", .num (.fin 3))]) (.int 3) [] =
      .err (raiseErr .maximum [])) ∧
    (∃ e, Raised.error [] (.maximum c!"3") = .ok e ∧
      e.str = .ok c!"Failed validation at ``. Passed value must be lower or equal to set maximum `3`.") ∧ (3 : Rat) ≤ 3 := by
  refine ⟨fun _ => by rfl, ?_, by decide⟩
  obtain ⟨e, h1, h2, _⟩ := C100_text_partial (.maximum c!"3") (by simp) [] ⟨by decide, by decide⟩
  exact ⟨e, h1, h2⟩

/-- The error about a value that is no array is reported at the root, wherever the value is: `{properties: {a: {items: {}}}}` on `{a: 1}`. -/
theorem C100_array_violated : (∀ w, validateN w [] [.properties, .items] 5
    (.obj [(c!"properties", .obj [(c!"a", .obj [(c!"items", .obj [])])])]) (.dict [(c!"a", .int 1)]) [] = .err raiseTypeNoPath) ∧
    ∃ e, Raised.error c!"a" (.notArray c!"['array']") = .ok e ∧
      e.str = .ok c!"Failed validation at ``. Passed value must be one of the following type(s) `['array']`." := by
  refine ⟨fun _ => by rfl, ?_⟩
  obtain ⟨e, h1, h2, _⟩ := C100_text_partial (.notArray c!"['array']") (by simp) c!"a" ⟨by decide, by decide⟩
  exact ⟨e, h1, h2⟩

/-- A text, and one with a brace in the path. -/
example : ∃ e, Raised.error c!"a.0" (.dependent c!"card" c!"address") = .ok e ∧
    e.str = .ok c!"Failed validation at `a.0`. Property `card` requires `address` to be provided." := by
  obtain ⟨e, h1, h2, _⟩ := C100_text_partial (.dependent c!"card" c!"address") (by simp) c!"a.0" ⟨by decide, by decide⟩
  exact ⟨e, h1, h2⟩
example : ∃ e, Raised.error c!"{{b}}" .uniqueItems = .ok e ∧ e.str = .ok c!"Failed validation at `{b}`. Passed value must contain only unique items." := by
  obtain ⟨e, h1, h2, _⟩ := C100_filled .uniqueItems rfl (by simp) c!"{{b}}" c!"{b}" (.opening (.char (by decide) (by decide) (.closing .nil)))
  exact ⟨e, h1, h2⟩

end Verif.Props
