import Verif.Props.Query
import Verif.Props.Core
import Verif.Props.Store
import Verif.Props.Formats
import Verif.Proofs.Leads
import Verif.Proofs.BridgeLoad
/-!
# C10, C40, C46 and C63: what is done where the properties fail

`query` on every pointer, with every notation of numbers; what loading does to arrays; and texts as keys of a store;
and what may stand before an `@` in a URL.
-/

namespace Verif.Props
open Verif Verif.Spec Verif.Obj

/-! ## C10 -/

/-- What `query` does with every pointer of ASCII tokens, on a document without references and anchors.  The pointer `/` is the document.
Any other pointer is followed by the names of members and by the numbers Python's `int` reads, negative ones counted from the end, and
either leads to the value returned, or ends with the error raised: `KeyError` for a missing member, `IndexError` for a missing element,
`ValueError` for a token that is no number, or one of more than 4300 digits. -/
theorem C10_exact (docs : List Doc) (f : Nat) (root : Node) (ptr : List Str) (hr : root.RefFree) (ha : ∀ k ∈ ptr, isAscii k = true) :
    (ptr = [[]] → queryDoc (view docs (f + 1)) ⟨root, []⟩ ptr = .ok root) ∧
    (ptr ≠ [[]] → (∀ n, queryDoc (view docs (f + 1)) ⟨root, []⟩ ptr = .ok n ↔ Follows root ptr n) ∧
      (∀ e, queryDoc (view docs (f + 1)) ⟨root, []⟩ ptr = .err e ↔ Stops root ptr e) ∧
      ((∃ n, Follows root ptr n) ∨ ∃ e, Stops root ptr e)) := by
  refine ⟨by rintro rfl; rfl, fun h1 => ?_⟩
  rw [queryDoc_loop _ _ _ h1]
  have hv := view_refFree docs f
  have found : ∀ n, Follows root ptr n → queryLoop (view docs (f + 1)) root ptr = .ok n := by
    intro n h
    have := (loop_leads (b := []) hv hr ha h).1
    rwa [List.append_nil] at this
  have stops : ∀ e, Stops root ptr e → queryLoop (view docs (f + 1)) root ptr = .err e := fun e h => loop_stops hv hr ha h
  refine ⟨fun n => ⟨fun h => ?_, found n⟩, fun e => ⟨fun h => ?_, stops e⟩, leads_or_stops root ptr hr⟩
  · rcases leads_or_stops root ptr hr with ⟨m, h'⟩ | ⟨e, h'⟩
    · rw [found m h'] at h; cases h; exact h'
    · rw [stops e h'] at h; cases h
  · rcases leads_or_stops root ptr hr with ⟨m, h'⟩ | ⟨e, h'⟩
    · rw [found m h'] at h; cases h
    · rw [stops e h'] at h; cases h; exact h'

/-- From `[null, true]` the token ` -0_1` leads to the last element, `+2` to no element, and `one` is no number. -/
example : Follows (.arr [.null, .bool true]) [c!" -0_1"] (.bool true) ∧ Stops (.arr [.null, .bool true]) [c!"+2"] .indexError ∧
    Stops (.arr [.null, .bool true]) [c!"one"] .valueError := by
  refine ⟨.element (i := -1) (pyInt_iff.1 (by decide)).1 ((pyInt_iff (i := -1)).1 (by decide)).2 ⟨[.null], [], rfl, .inr rfl⟩ (.here _),
    .index (i := 2) (pyInt_iff.1 (by decide)).1 ((pyInt_iff (i := 2)).1 (by decide)).2 fun x hx => ?_, .number fun i hi => ?_⟩
  · have := pyIndex_iff.2 hx; cases this
  · apply Classical.byContradiction
    intro hl
    have := pyInt_iff.2 ⟨hi, Nat.le_of_not_lt hl⟩
    revert this
    rw [show pyInt c!"one" = none by decide]
    simp

/-! ## C40 -/

/-- Loading leaves every array as it was written, with all that is in it: no reference in it is resolved, no name registered, no
identifier used.  The array is the one made from the data, at its place. -/
theorem C40_arrays (E : Env) (s s1 s2 : St) (kvs : List (Str × Val)) (voc : List Kw) (hvoc : CoreFirst voc) (hst : StoreNotLoaded s)
    (d f : Nat) (hnew : newDocument (.dict kvs) voc s = (.ok d, s1)) (hload : (ops E f).load d s1 = (.ok (), s2))
    (ks : List Str) (xs : List Node) (hat : At (wrap (.dict kvs)) ks (.arr xs)) (hks : c!"$anchor" ∉ ks) :
    ∃ (x1 x : Schema) (i : Nat), s1.docs[d]? = some x1 ∧ s2.docs[d]? = some x ∧ Steps s1.mem x1.value ks i ∧ Below s2.mem x.value ks i ∧
      path s2.mem i = .ok ks ∧ Shows s1.mem (.arr xs) i ∧ Shows s2.mem (.arr xs) i := by
  obtain ⟨hi, r0, L0, x, ht, hd1, hd2, rfl, -, -, hslots, hdone⟩ := load_done rfl hvoc hst hnew hload
  obtain ⟨p', k', lo', hi', r', L', h1, h2, h3, h4, -, -, h6⟩ := hdone.at hat ht
  obtain ⟨rfl, htree, -⟩ := (done_leaf (by simp)).1 h2
  exact ⟨_, x, r', hd1, hd2, h3, h4 hks, (up_place ht h3 hslots).path, h1.shows, htree.shows⟩

/-- The array of `{"allOf": [{"$ref": "#/x"}], "x": {}}`, whose reference is not resolved. -/
example : At (wrap (.dict [(c!"allOf", .list [.dict [(c!"$ref", .str c!"#/x")]]), (c!"x", .dict [])])) [c!"allOf"]
    (.arr [.obj [(c!"$ref", .str c!"#/x")]]) ∧ c!"$anchor" ∉ [c!"allOf"] :=
  ⟨.member (by simp [wrap, wrapDict, wrapList]) (.here _), by decide⟩

/-! ## C46 -/

open Rfc3986 UriSpec Store

variable (ip : IpRe) {V D L : Type} (ld : Loader V D L)

theorem written_made (l : L) (ops : List (Op V D)) (hops : ∀ op ∈ ops, OpMade ip op) (k : Str) (d : D) (h : written ip (exec ip ld l ops).1 k = some d) :
    ∃ u, Made ip u ∧ baseOf u = k := by
  induction ops with
  | nil => cases h
  | cons op ops ih =>
    have ih := ih fun o ho => hops o (by simp [ho])
    have hop := hops op (by simp)
    simp only [exec] at h
    generalize (step ip ld (exec ip ld l ops).2 op).1 = r at h
    cases op with
    | add u d' =>
      cases r with
      | ok o =>
        rw [written] at h
        split at h
        · next e => exact ⟨u, hop, e⟩
        · exact ih h
      | err e => exact ih h
      | timeout => exact ih h
    | get k' => exact ih h
    | contains k' => exact ih h
    | load key v =>
      cases r with
      | err e => cases key <;> exact ih h
      | timeout => cases key <;> exact ih h
      | ok o =>
        cases o with
        | none => cases key <;> exact ih h
        | bool b => cases key <;> exact ih h
        | doc d' =>
          cases key with
          | uri u =>
            rw [written] at h
            split at h
            · next e => exact ⟨u, hop, e⟩
            · exact ih h
          | str s =>
            rw [written] at h
            cases hs : Uri.parse ip s with
            | ok u =>
              simp only [hs] at h
              split at h
              · next e => exact ⟨u, .parse hs, e⟩
              · exact ih h
            | err e => simp only [hs] at h; exact ih h
            | timeout => simp only [hs] at h; exact ih h

/-- C46: what `get` and `in` answer to every text.  The text is compared as it is with the base URI texts under which documents were
written, whatever URI it denotes; a text that is no base URI text of any URI is never found. -/
theorem C46_text (l : L) (ops : List (Op V D)) (hops : ∀ op ∈ ops, OpMade ip op) (s : Str) :
    answer ip ld l ops (.get (.str s)) = (match written ip (exec ip ld l ops).1 s with
      | some d => .ok (.doc d)
      | none => .err .keyError) ∧
    answer ip ld l ops (.contains (.str s)) = .ok (.bool (written ip (exec ip ld l ops).1 s).isSome) ∧
    ((¬ ∃ u, Made ip u ∧ baseOf u = s) → answer ip ld l ops (.get (.str s)) = .err .keyError ∧
      answer ip ld l ops (.contains (.str s)) = .ok (.bool false)) := by
  have h1 : answer ip ld l ops (.get (.str s)) = (match written ip (exec ip ld l ops).1 s with
      | some d => .ok (.doc d)
      | none => .err .keyError) := by
    simp only [answer, step, Store.get, lookKey, Res.ok_bind, storage_written ip ld l ops hops]
    cases written ip (exec ip ld l ops).1 s <;> rfl
  have h2 : answer ip ld l ops (.contains (.str s)) = .ok (.bool (written ip (exec ip ld l ops).1 s).isSome) := by
    simp only [answer, step, contains, lookKey, Res.ok_bind, dictHas, storage_written ip ld l ops hops]
  refine ⟨h1, h2, fun hno => ?_⟩
  have : written ip (exec ip ld l ops).1 s = none := by
    cases e : written ip (exec ip ld l ops).1 s with
    | none => rfl
    | some d => exact absurd (written_made ip ld l ops hops s d e) hno
  rw [h1, h2, this]
  exact ⟨rfl, rfl⟩

/-! ## C63 -/

open Verif.Formats in
/-- C63: whatever stands before an `@` passes for user information, be it a private address with port and path: no text without white
space there is refused. -/
theorem C63_hidden (w : World) (docs : List Doc) (voc : List Kw) (f : Nat) (items : List (Str × Node)) (ctx : Ctx) (E : Formats.Env) (hc : CtxOk ctx)
    (h : FormatSchema voc items c!"url") (t : Str) (ht : t ≠ []) (hs : ∀ c ∈ t, E.u.space c = false) :
    validateN (withFormats E w []) docs voc (f + 2) (.obj items) (.str (c!"http://" ++ (t ++ c!"@a.bc"))) ctx = .ok () := by
  refine (C63_url_partial w docs voc f items ctx E hc h _).1.2 ⟨_, [], (List.append_nil _).symm, .inl rfl,
    c!"http", t ++ ['@'], c!"a.bc", [], [], .inl (by simp [AnyCase]), .inr ⟨t, ht, hs, rfl⟩,
    .inr ⟨[c!"a"], c!"bc", by simp, ?_, by decide, by simp [WideLetter, Letter], rfl⟩, .inl rfl, .inl rfl, by simp⟩
  intro L hL; simp at hL; subst hL
  exact ⟨[c!"a"], by simp, by simp [WideLetter, Letter], rfl⟩

/-- `192.168.1.1:8080/admin?` is such a text. -/
example (E : Formats.Env) : ∀ c ∈ c!"192.168.1.1:8080/admin?", E.u.space c = false := by
  intro k hk
  rw [E.u.space_ascii k (by revert k; decide)]
  revert k; decide

end Verif.Props
