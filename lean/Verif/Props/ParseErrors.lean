import Verif.Model.ParseErrors
import Verif.Props.Parse
import Verif.Props.Pointer
/-!
# Property C89: what a `SchemaParseError` says

The message should name the place of the faulty schema object and the keyword with the faulty value.
-/

namespace Verif.Props
open Verif Spec

variable (w : World) (vw : Node → Res Node) (items : List (Str × Node)) (path : List Str)

theorem takes_kinds {k : Kw} {x : Node} (hr : ∀ o d p, x ≠ .ref o d p) (ha : k.isAssertion = true) : k.takes x = true ↔ x.kind ∈ valueKinds k := by
  cases k <;> simp [Kw.isAssertion] at ha <;> cases x <;> simp [Kw.takes, valueKinds, Node.kind] at hr ⊢

theorem limit_reads (s : Str) (hv : ∀ n, NoParse (vw n)) : match limitFault vw items s with
    | (some _, b) => b = false ∧ dictHas s items = true ∧ intValueKey vw items s = .err .schemaParse
    | (none, true) => dictHas s items = false ∨ ∃ i, intValueKey vw items s = .ok i
    | (none, false) => dictHas s items = true ∧ NoParse (intValueKey vw items s) ∧ ∀ i, intValueKey vw items s ≠ .ok i := by
  unfold limitFault intValueKey getKey
  cases hg : dictGet s items with
  | none => simp [dictHas, hg]
  | some n =>
    simp only [Res.ok_bind]
    have := hv n
    cases hx : vw n with
    | timeout => simp [dictHas, hg, NoParse]
    | err e => rw [hx] at this; simp [dictHas, hg, NoParse]; rintro rfl; exact this rfl
    | ok x =>
      cases x with
      | num m =>
        simp only [Res.ok_bind]
        have hs : NoParse (if n.isRef then .err .unmodelled else m.toInt : Res Int) := by split; exact .err (by simp); exact toInt_sound m
        revert hs
        generalize (if n.isRef then .err .unmodelled else m.toInt : Res Int) = r
        intro hs
        cases r <;> simp [dictHas, hg, hs]
      | _ => simp [dictHas, hg]

/-- The fault found is the one reading the keyword stops at. -/
theorem fault_iff (hv : ∀ n, NoParse (vw n)) (hnr : ∀ n x, vw n = .ok x → ∀ o d p, x ≠ .ref o d p) (k : Kw) :
    readKw w vw (id : Node → Node) items k = .err .schemaParse ↔ ∃ e, faultOf w vw items k = some e := by
  cases hg : dictGet k.key items with
  | none =>
    simp only [faultOf, hg]
    cases k <;> simp only [Kw.key, Kw.keys, List.headD] at hg <;> simp [readKw, numKey, intKey, intValueKey, subKey, subsKey, subMapKey, getKey, hg]
  | some n =>
    have hs := hv n
    cases hx : vw n with
    | timeout =>
      simp only [faultOf, hg, hx]
      cases k <;> simp only [Kw.key, Kw.keys, List.headD] at hg <;>
        simp [readKw, numKey, intKey, intValueKey, subKey, subsKey, subMapKey, getKey_of_get hg, hx]
    | err e =>
      have he : e ≠ .schemaParse := fun h => hs (by rw [hx, h])
      simp only [faultOf, hg, hx]
      cases k <;> simp only [Kw.key, Kw.keys, List.headD] at hg <;>
        simp [readKw, numKey, intKey, intValueKey, subKey, subsKey, subMapKey, getKey_of_get hg, hx, he]
    | ok x =>
      have hr := hnr n x hx
      simp only [faultOf, hg, hx]
      cases k <;> simp only [Kw.key, Kw.keys, List.headD] at hg <;> simp only [Kw.isAssertion, if_true]
      case type =>
        simp only [readKw, getKey_of_get hg, hx, Res.ok_bind, faultIn]
        cases x with
        | str s =>
          simp only [Kw.takes, List.all_cons, List.all_nil, Bool.and_true, decide_eq_true_eq]
          split <;> simp_all
        | arr xs =>
          simp only [Kw.takes]
          have := seqOf_sound n xs
          cases hq : seqOf n xs with
          | ok ys => simp only [Res.ok_bind]; split <;> simp_all
          | err e => rw [hq] at this; simpa [NoParse] using this
          | timeout => simp
        | _ => simp [Kw.takes]
      case contains =>
        have h1 := limit_reads vw items c!"minContains" hv
        have h2 := limit_reads vw items c!"maxContains" hv
        cases x with
        | obj m =>
          have last : ∀ mn : Int, (if dictHas c!"maxContains" items then do
                let m ← intValueKey vw items c!"maxContains"
                let mx ← Res.ok (some m)
                Res.ok (Upd.set (V.contains n mn mx))
              else do
                let mx ← Res.ok none
                Res.ok (Upd.set (V.contains n mn mx))) = .err .schemaParse ↔ ∃ e, (limitFault vw items c!"maxContains").1 = some e := by
            intro mn
            rcases hl : limitFault vw items c!"maxContains" with ⟨_ | e, b⟩
            · rw [hl] at h2
              cases b
              · obtain ⟨h3, h4, h5⟩ := h2
                simp only [h3, if_true]
                cases hi : intValueKey vw items c!"maxContains" with
                | ok i => exact absurd hi (h5 i)
                | err e => rw [hi] at h4; simpa [NoParse] using h4
                | timeout => simp
              · rcases h2 with h2 | ⟨i, hi⟩
                · simp [h2]
                · split <;> simp [hi]
            · rw [hl] at h2
              simp [h2.2.1, h2.2.2]
          simp only [readKw, subKey, getKey_of_get hg, hx, Res.ok_bind, faultIn, Kw.takes, id]
          rcases hl : limitFault vw items c!"minContains" with ⟨_ | e, b⟩
          · rw [hl] at h1
            cases b
            · obtain ⟨h3, h4, h5⟩ := h1
              simp only [h3, if_true]
              cases hi : intValueKey vw items c!"minContains" with
              | ok i => exact absurd hi (h5 i)
              | err e => rw [hi] at h4; simpa [NoParse] using h4
              | timeout => simp
            · rcases h1 with h1 | ⟨i, hi⟩
              · simp only [h1]; exact last 1
              · split
                · rw [hi]; exact last i
                · exact last 1
          · rw [hl] at h1
            obtain ⟨rfl, h4, h5⟩ := h1
            simp [h4, h5]
        | _ => simp [readKw, subKey, getKey_of_get hg, hx, faultIn, Kw.takes]
      all_goals
        simp only [readKw, numKey, intKey, subKey, subsKey, subMapKey, getKey_of_get hg, hx, Res.ok_bind, faultIn]
      all_goals cases x <;> simp [Kw.takes]
      case some.ok.additionalProperties.bool b => cases b <;> simp
      case some.ok.unevaluatedProperties.bool b => cases b <;> simp
      case some.ok.format.str => cases w.formats (nodeStr w n) <;> simp
      all_goals
        refine (show NoParse _ from ?_)
        repeat' first
          | exact NoParse.ok _
          | (refine NoParse.err ?_; simp; done)
          | exact toInt_sound _
          | exact seqOf_sound _ _
          | exact strItemsMap_sound _ _
          | exact eqTrue_sound hv _
          | exact hv _
          | (refine NoParse.bind ?_ fun _ => ?_)
          | split

/-- C89: in a document, reading a keyword of a schema object ends in `SchemaParseError` exactly if one of the `raise` statements is reached. -/
theorem C89_raised (docs : List Doc) (f : Nat) (k : Kw) :
    readKw w (view docs f) (id : Node → Node) items k = .err .schemaParse ↔ ∃ e, faultOf w (view docs f) items k = some e :=
  fault_iff w _ items (view_sound docs f) (fun _ _ h => Obj.view_not_ref h) k

/-- Faults of the schema objects of a document. -/
def Arises (w : World) (e : Fault) : Prop := ∃ docs f items k, faultOf w (view docs f) items k = some e

/-- C89 fails for the keyword: it can not be told from the message. -/
theorem C89_keyword_violated : ¬ ∃ g : Str → Str, ∀ e, Arises w e → ∀ path, g (e.message path) = e.keyword := by
  rintro ⟨g, h⟩
  have h1 := h (.value .minLength .number) ⟨[], 1, [(c!"minLength", .null)], .minLength, rfl⟩ []
  have h2 := h (.value .required .array) ⟨[], 1, [(c!"required", .null)], .required, rfl⟩ []
  have e : (Fault.value .minLength .number).message [] = (Fault.value .required .array).message [] := rfl
  rw [e, h2] at h1
  exact absurd h1 (by decide)

/-- C89 fails for all keywords alike: at the same place, a value of the wrong type and a missing dependency give the same message, whatever the
keywords and the types. -/
theorem C89_message_violated (k k' k'' : Kw) (t t' : Kind) (d : Str) :
    (Fault.value k t).message path = (Fault.value k' t').message path ∧ (Fault.value k t).message path = (Fault.missing k'' d).message path :=
  ⟨rfl, rfl⟩

/-- C89 fails for the place in the case of `minContains` and `maxContains`: the message does not have it.  (The exception does, see
`C89_place_partial`.) -/
theorem C89_limit_violated : ¬ ∃ g : Str → List Str, ∀ e, Arises w e → ∀ path, g (e.message path) = path := by
  rintro ⟨g, h⟩
  have h1 := h (.limit c!"minContains") ⟨[], 1, [(c!"contains", .obj []), (c!"minContains", .null)], .contains, rfl⟩
  have := (h1 [c!"a"]).symm.trans (h1 [c!"b"])
  exact absurd this (by decide)

theorem print_inj {p q : List Str} (hp : p ≠ []) (hq : q ≠ []) (h : Pointer.print p = Pointer.print q) : p = q := by
  have h1 := C01_token_round_trip p hp
  rw [h, C01_token_round_trip q hq] at h1
  simpa using h1.symm

/-- C89, what holds: the exception carries the place, and the message of a wrong value has it, so that below the root two places give two
messages. -/
theorem C89_place_partial (e : Fault) : (e.report path).path = path ∧
    ((∀ s, e ≠ .limit s) → parseFailed path <+: e.message path) ∧
    ∀ q, path ≠ [] → q ≠ [] → (∃ k t, e = .value k t) ∨ (∃ k d, e = .missing k d) → e.message path = e.message q → path = q := by
  refine ⟨rfl, fun h => ?_, fun q hp hq he h => ?_⟩
  · cases e with
    | limit s => exact absurd rfl (h s)
    | format s => exact ⟨_, by simp [Fault.message]; rfl⟩
    | _ => exact ⟨_, rfl⟩
  · have h : parseFailed path ++ c!" Passed document is not a valid json schema object. " =
        parseFailed q ++ c!" Passed document is not a valid json schema object. " := by
      rcases he with ⟨_, _, rfl⟩ | ⟨_, _, rfl⟩ <;> exact h
    have h := List.append_cancel_right h
    simp only [parseFailed, List.append_assoc] at h
    exact print_inj hp hq (List.append_cancel_right (List.append_cancel_left h))

/-- C89, what holds: an unknown format and a limit of `contains` are named. -/
theorem C89_named_partial (s : Str) : (∃ a b, (Fault.format s).message path = a ++ c!"`" ++ s ++ c!"`" ++ b) ∧
    ∃ b, (Fault.limit s).message path = c!"`" ++ s ++ c!"`" ++ b :=
  ⟨⟨parseFailed path ++ c!" Unrecognized format type ", _, by simp [Fault.message]; rfl⟩, _, by simp [Fault.message]; rfl⟩

/-- C89, what holds: the statement that is reached is about the keyword that is read (for `contains`, perhaps about one of its two limits,
which is there), and the dependency it finds missing is missing, and is the one the keyword needs. -/
theorem C89_about (view : Node → Res Node) (k : Kw) (e : Fault) (h : faultOf w view items k = some e) :
    (e.keyword = k.key ∨ k = .contains ∧ dictHas e.keyword items = true ∧ (e.keyword = c!"minContains" ∨ e.keyword = c!"maxContains")) ∧
    ∀ k' d, e = .missing k' d → k' = k ∧ dictHas d items = false ∧ (k = .exclusiveMaximum ∧ d = c!"maximum" ∨ k = .exclusiveMinimum ∧ d = c!"minimum") := by
  have lim : ∀ s, (limitFault view items s).1 = some e → e = .limit s ∧ dictHas s items = true := by
    intro s hs
    unfold limitFault at hs
    split at hs
    · cases hs
    · next n hn =>
      have : dictHas s items = true := by simp [dictHas, hn]
      split at hs <;> simp at hs
      exact ⟨hs.symm, this⟩
  unfold faultOf at h
  split at h
  · cases h
  split at h
  · split at h
    · unfold faultIn at h
      split at h
      · cases h
        exact ⟨.inl rfl, by intro k' d e; cases e⟩
      · split at h
        · split at h
          · cases h
          · cases h; exact ⟨.inl rfl, by intro k' d e; cases e⟩
        · split at h
          · split at h
            · cases h
            · cases h; exact ⟨.inl rfl, by intro k' d e; cases e⟩
          · cases h
        · split at h
          · cases h
          · next hd => cases h; refine ⟨.inl rfl, ?_⟩; intro k' d e; cases e; exact ⟨rfl, by simpa using hd, .inl ⟨rfl, rfl⟩⟩
        · split at h
          · cases h
          · next hd => cases h; refine ⟨.inl rfl, ?_⟩; intro k' d e; cases e; exact ⟨rfl, by simpa using hd, .inr ⟨rfl, rfl⟩⟩
        · split at h
          · cases h; exact ⟨.inl rfl, by intro k' d e; cases e⟩
          · cases h
        · have : ∃ s, (s = c!"minContains" ∨ s = c!"maxContains") ∧ (limitFault view items s).1 = some e := by
            simp only at h
            split at h
            · exact ⟨_, .inr rfl, h⟩
            · exact ⟨_, .inl rfl, h⟩
          obtain ⟨s, hs, h⟩ := this
          obtain ⟨rfl, hd⟩ := lim s h
          exact ⟨.inr ⟨rfl, hd, hs⟩, by intro k' d e; cases e⟩
        · cases h
    · cases h
  · cases h

example : Arises w (.missing .exclusiveMaximum c!"maximum") := ⟨[], 1, [(c!"exclusiveMaximum", .bool true)], .exclusiveMaximum, rfl⟩

example : (Fault.value .type .string).message [c!"properties", c!"a/b"] =
    c!"Parsing failed at `/properties/a~1b`. Passed document is not a valid json schema object. " := by decide

end Verif.Props
