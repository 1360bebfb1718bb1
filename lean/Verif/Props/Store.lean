import Verif.Model.Store
import Verif.Props.Uri
import Verif.Proofs.Dict
/-!
# C46, C47: the store

Histories are lists of calls with their results, latest first.  `written h k` is the document that was stored last under the
base URI text `k`.
-/

namespace Verif.Props
open Verif Rfc3986 UriSpec Store

variable (ip : IpRe) {V D L : Type} (ld : Loader V D L)

/-- Base URI text: query and fragment removed. -/
def baseOf (u : Uri) : Str := Uri.text { u with query := [], fragment := [] }

/-- The document of the last `add` or `load` under `k` that succeeded. -/
def written : List (Op V D × Res (Out D)) → Str → Option D
  | [], _ => none
  | (.add u d, .ok _) :: h, k => if baseOf u = k then some d else written h k
  | (.load (.uri u) _, .ok (.doc d)) :: h, k => if baseOf u = k then some d else written h k
  | (.load (.str s) _, .ok (.doc d)) :: h, k =>
    match Uri.parse ip s with
    | .ok u => if baseOf u = k then some d else written h k
    | _ => written h k
  | _ :: h, k => written h k

/-- The URIs in a call were made by the program. -/
def OpMade : Op V D → Prop
  | .add u _ => Made ip u
  | .get (.uri u) => Made ip u
  | .contains (.uri u) => Made ip u
  | .load (.uri u) _ => Made ip u
  | _ => True

theorem baseText_made {u : Uri} (h : Made ip u) : baseText ip u = .ok (baseOf u) := by
  simp only [baseText, (C49_base ip h).1, Res.ok_bind, baseOf]

theorem loadUri_cases {u : Uri} (hu : Made ip u) (v : V) (st : State D L) :
    (∃ d, dictGet (baseOf u) st.storage = some d ∧ loadUri ip ld u v st = (.ok (.doc d), st)) ∨
    dictGet (baseOf u) st.storage = none ∧
      ((∃ d, (ld u v st.loader).1 = .ok d ∧ loadUri ip ld u v st
        = (.ok (.doc d), ⟨dictSet (baseOf u) d st.storage, (ld u v st.loader).2, (baseOf u, .ok d) :: st.calls⟩)) ∨
      (∃ e, (ld u v st.loader).1 = .err e ∧ loadUri ip ld u v st
        = (.err (if e = .fileNotFound then .jsonLoadError else e), ⟨st.storage, (ld u v st.loader).2, (baseOf u, .err e) :: st.calls⟩)) ∨
      ((ld u v st.loader).1 = .timeout ∧ loadUri ip ld u v st
        = (.timeout, ⟨st.storage, (ld u v st.loader).2, (baseOf u, .timeout) :: st.calls⟩))) := by
  simp only [loadUri, baseText_made ip hu]
  cases hg : dictGet (baseOf u) st.storage with
  | some d => exact .inl ⟨d, rfl, rfl⟩
  | none =>
    right
    refine ⟨rfl, ?_⟩
    cases hl : (ld u v st.loader).1 with
    | ok d => exact .inl ⟨d, rfl, rfl⟩
    | err e =>
      right; left
      refine ⟨e, rfl, ?_⟩
      cases e <;> simp
    | timeout => exact .inr (.inr ⟨rfl, rfl⟩)

theorem add_cases {u : Uri} (hu : Made ip u) (d : D) (st : State D L) :
    Uri.isAbsolute ip u = .ok true ∧ add ip u d st = (.ok .none, { st with storage := dictSet (baseOf u) d st.storage }) ∨
    Uri.isAbsolute ip u = .ok false ∧ add ip u d st = (.err .valueError, st) := by
  have : ∃ b, Uri.isAbsolute ip u = .ok b := ⟨_, rfl⟩
  obtain ⟨b, hb⟩ := this
  cases b with
  | true => left; exact ⟨hb, by simp [add, hb, baseText_made ip hu]⟩
  | false => right; exact ⟨hb, by simp [add, hb]⟩

/-- The storage is the map of the documents written. -/
theorem storage_written (l : L) (ops : List (Op V D)) (hops : ∀ op ∈ ops, OpMade ip op) (k : Str) :
    dictGet k (exec ip ld l ops).2.storage = written ip (exec ip ld l ops).1 k := by
  induction ops with
  | nil => rfl
  | cons op ops ih =>
    have ih := ih fun o ho => hops o (by simp [ho])
    have hop := hops op (by simp)
    have hload : ∀ u v, Made ip u →
        dictGet k (loadUri ip ld u v (exec ip ld l ops).2).2.storage
          = match (loadUri ip ld u v (exec ip ld l ops).2).1 with
            | .ok (.doc d) => if baseOf u = k then some d else written ip (exec ip ld l ops).1 k
            | _ => written ip (exec ip ld l ops).1 k := by
      intro u v hu
      rcases loadUri_cases ip ld hu v (exec ip ld l ops).2 with ⟨d, h1, h2⟩ | ⟨h1, ⟨d, h2, h3⟩ | ⟨e, h2, h3⟩ | ⟨h2, h3⟩⟩
      · rw [h2]
        simp only
        split
        · rename_i hk; rw [← hk]; exact h1
        · exact ih
      · rw [h3]; simp only [dictGet_set, ih]
      · rw [h3]; exact ih
      · rw [h3]; exact ih
    cases op with
    | add u d =>
      simp only [exec, step]
      rcases add_cases ip hop d (exec ip ld l ops).2 with ⟨-, h⟩ | ⟨-, h⟩
      · rw [h]; simp only [dictGet_set, written, ih]
      · rw [h]; simp only [written, ih]
    | get k' => simp only [exec, step, written, ih]
    | contains k' => simp only [exec, step, written, ih]
    | load key v =>
      cases key with
      | uri u =>
        have := hload u v hop
        simp only [exec, step, load]
        rw [this]
        cases (loadUri ip ld u v (exec ip ld l ops).2).1 with
        | ok o => cases o <;> simp [written]
        | err e => simp [written]
        | timeout => simp [written]
      | str s =>
        simp only [exec, step, load]
        cases hs : Uri.parse ip s with
        | ok u =>
          have := hload u v (.parse hs)
          simp only
          rw [this]
          cases (loadUri ip ld u v (exec ip ld l ops).2).1 with
          | ok o => cases o <;> simp [written, hs]
          | err e => simp [written]
          | timeout => simp [written]
        | err e => simp only [written, ih]
        | timeout => simp only [written, ih]

/-- The answer to one more call after a history. -/
def answer (l : L) (ops : List (Op V D)) (op : Op V D) : Res (Out D) := (step ip ld (exec ip ld l ops).2 op).1

/-- C46: `get` answers with the document written last under the base URI. -/
theorem C46_get (l : L) (ops : List (Op V D)) (hops : ∀ op ∈ ops, OpMade ip op) (u : Uri) (hu : Made ip u) :
    answer ip ld l ops (.get (.uri u)) = match written ip (exec ip ld l ops).1 (baseOf u) with
      | some d => .ok (.doc d)
      | none => .err .keyError := by
  simp only [answer, step, Store.get, lookKey, baseText_made ip hu, Res.ok_bind, storage_written ip ld l ops hops]
  split <;> simp_all

/-- C46: `in` tells whether a document was written under the base URI. -/
theorem C46_contains (l : L) (ops : List (Op V D)) (hops : ∀ op ∈ ops, OpMade ip op) (u : Uri) (hu : Made ip u) :
    answer ip ld l ops (.contains (.uri u)) = .ok (.bool (written ip (exec ip ld l ops).1 (baseOf u)).isSome) := by
  simp only [answer, step, contains, lookKey, baseText_made ip hu, Res.ok_bind, dictHas, storage_written ip ld l ops hops]

/-- C46: a document written is the answer of `load`, and nothing changes. -/
theorem C46_load (l : L) (ops : List (Op V D)) (hops : ∀ op ∈ ops, OpMade ip op) (u : Uri) (v : V) (hu : Made ip u) {d : D}
    (h : written ip (exec ip ld l ops).1 (baseOf u) = some d) :
    step ip ld (exec ip ld l ops).2 (.load (.uri u) v) = (.ok (.doc d), (exec ip ld l ops).2) := by
  rw [← storage_written ip ld l ops hops] at h
  simp only [step, load]
  rcases loadUri_cases ip ld hu v (exec ip ld l ops).2 with ⟨d', h1, h2⟩ | ⟨h1, _⟩
  · rw [h] at h1; cases h1; exact h2
  · rw [h] at h1; cases h1

/-- C46: `load` of a text is `load` of its URI. -/
theorem C46_load_text (st : State D L) {s : Str} {u : Uri} (v : V) (hs : Uri.parse ip s = .ok u) :
    step ip ld st (.load (.str s) v) = step ip ld st (.load (.uri u) v) := by
  simp only [step, load, hs]

/-- C46: `add` of a relative URI raises `ValueError` and changes nothing; of an absolute URI it succeeds and replaces. -/
theorem C46_add (st : State D L) (u : Uri) (d : D) (hu : Made ip u) :
    (Uri.isAbsolute ip u = .ok false → step ip ld st (.add u d : Op V D) = (.err .valueError, st)) ∧
    (Uri.isAbsolute ip u = .ok true → ∃ st', step ip ld st (.add u d : Op V D) = (.ok .none, st') ∧ st'.loader = st.loader ∧
      st'.calls = st.calls ∧ ∀ k, dictGet k st'.storage = if baseOf u = k then some d else dictGet k st.storage) := by
  constructor
  · intro h
    rcases add_cases ip hu d st with ⟨h1, _⟩ | ⟨_, h2⟩
    · rw [h] at h1; cases h1
    · exact h2
  · intro h
    rcases add_cases ip hu d st with ⟨_, h2⟩ | ⟨h1, _⟩
    · exact ⟨_, h2, rfl, rfl, fun k => by simp [dictGet_set]⟩
    · rw [h] at h1; cases h1

/-- C46: a text is taken as key without reading it; so it finds what its URI finds if it is a base URI text. -/
theorem C46_text_partial (l : L) (ops : List (Op V D)) {s : Str} {u : Uri} (hs : Uri.parse ip s = .ok u)
    (hb : s = baseOf u) : answer ip ld l ops (.get (.str s)) = answer ip ld l ops (.get (.uri u)) ∧
      answer ip ld l ops (.contains (.str s)) = answer ip ld l ops (.contains (.uri u)) := by
  simp only [answer, step, Store.get, contains, lookKey, baseText_made ip (.parse hs), ← hb, and_self]

theorem isAbsolute_a : Uri.isAbsolute ip ⟨c!"http", ⟨[], c!"a", []⟩, c!"/", [], []⟩ = .ok true :=
  congrArg Res.ok (by decide +kernel : (Re.pyMatch absoluteMatcher c!"http://a/").isSome = true)

/-- With a fragment, the text does not find what its URI finds. -/
theorem C46_text_violated (l : L) (d : D) : ∃ (ops : List (Op V D)) (s : Str) (u : Uri), (∀ op ∈ ops, OpMade ip op) ∧ Uri.parse ip s = .ok u ∧
    answer ip ld l ops (.contains (.uri u)) = .ok (.bool true) ∧ answer ip ld l ops (.contains (.str s)) = .ok (.bool false) := by
  have hp : Parts c!"http://a/#f" (some c!"http") (some c!"a") c!"/" none (some c!"f") :=
    ⟨c!"//a/#f", c!"/#f", c!"#f", c!"#f", ⟨scheme_http, by simp⟩, ⟨rfl, by decide, by decide⟩, ⟨rfl, by decide, by decide⟩, ⟨rfl, by decide⟩,
      [], rfl, by decide, by simp⟩
  have hu : Uri.parse ip c!"http://a/#f" = .ok ⟨c!"http", ⟨[], c!"a", []⟩, c!"/", [], c!"f"⟩ := by
    rw [Uri.parse_parts ip hp]
    have : Uri.parseAuthority ip c!"a" = .ok ⟨[], c!"a", []⟩ := authority_name ip (by decide)
    simp only [Option.getD_some, this, Res.ok_bind]
    rfl
  have hops : ∀ op ∈ [(Op.add ⟨c!"http", ⟨[], c!"a", []⟩, c!"/", [], []⟩ d : Op V D)], OpMade ip op := by
    intro op h; simp at h; subst h; exact made_a ip
  refine ⟨[.add ⟨c!"http", ⟨[], c!"a", []⟩, c!"/", [], []⟩ d], c!"http://a/#f", _, hops, hu, ?_, ?_⟩
  · rw [C46_contains ip ld l _ hops _ (.parse hu)]
    rcases add_cases ip (made_a ip) d (exec ip ld l ([] : List (Op V D))).2 with ⟨_, h⟩ | ⟨h, _⟩
    · simp only [exec, step] at h ⊢
      rw [h]
      rfl
    · rw [isAbsolute_a] at h; cases h
  · rcases add_cases ip (made_a ip) d (exec ip ld l ([] : List (Op V D))).2 with ⟨_, h⟩ | ⟨h, _⟩
    · simp only [exec] at h
      simp only [answer, exec, step]
      rw [h]
      rfl
    · rw [isAbsolute_a] at h; cases h

/-! ## C47 -/

/-- The base URIs of the successful calls of the loader. -/
def loaded (calls : List (Str × Res D)) : List Str := calls.filterMap fun p => match p.2 with
  | .ok _ => some p.1
  | _ => none

/-- C47: the loader succeeds at most once for each base URI, and what it loaded is in the store. -/
theorem C47_once (l : L) (ops : List (Op V D)) (hops : ∀ op ∈ ops, OpMade ip op) :
    (loaded (exec ip ld l ops).2.calls).Nodup ∧ ∀ k ∈ loaded (exec ip ld l ops).2.calls, (dictGet k (exec ip ld l ops).2.storage).isSome = true := by
  induction ops with
  | nil => simp [exec, loaded]
  | cons op ops ih =>
    have ih := ih fun o ho => hops o (by simp [ho])
    have hop := hops op (by simp)
    have hload : ∀ u v, Made ip u →
        (loaded (loadUri ip ld u v (exec ip ld l ops).2).2.calls).Nodup ∧
          ∀ k ∈ loaded (loadUri ip ld u v (exec ip ld l ops).2).2.calls, (dictGet k (loadUri ip ld u v (exec ip ld l ops).2).2.storage).isSome = true := by
      intro u v hu
      rcases loadUri_cases ip ld hu v (exec ip ld l ops).2 with ⟨d, h1, h2⟩ | ⟨h1, ⟨d, h2, h3⟩ | ⟨e, h2, h3⟩ | ⟨h2, h3⟩⟩
      · rw [h2]; exact ih
      · rw [h3]
        have : loaded ((baseOf u, Res.ok d) :: (exec ip ld l ops).2.calls) = baseOf u :: loaded (exec ip ld l ops).2.calls := rfl
        simp only [this, List.nodup_cons, List.mem_cons, dictGet_set]
        refine ⟨⟨fun hm => ?_, ih.1⟩, ?_⟩
        · have := ih.2 _ hm
          rw [h1] at this; cases this
        · rintro k (rfl | hk)
          · simp
          · split
            · rfl
            · exact ih.2 k hk
      · rw [h3]; exact ih
      · rw [h3]; exact ih
    cases op with
    | add u d =>
      simp only [exec, step]
      rcases add_cases ip hop d (exec ip ld l ops).2 with ⟨-, h⟩ | ⟨-, h⟩
      · rw [h]
        refine ⟨ih.1, fun k hk => ?_⟩
        simp only [dictGet_set]
        split
        · rfl
        · exact ih.2 k hk
      · rw [h]; exact ih
    | get k' => exact ih
    | contains k' => exact ih
    | load key v =>
      cases key with
      | uri u => exact hload u v hop
      | str s =>
        simp only [exec, step, load]
        cases hs : Uri.parse ip s with
        | ok u => exact hload u v (.parse hs)
        | err e => exact ih
        | timeout => exact ih

/-- C47: a load that fails leaves the storage unchanged; a missing file surfaces as `JsonLoadError`, other errors as they are. -/
theorem C47_failure (st : State D L) (u : Uri) (v : V) (hu : Made ip u) (hn : dictGet (baseOf u) st.storage = none) (e : PyErr)
    (he : (ld u v st.loader).1 = .err e) : ∃ st', step ip ld st (.load (.uri u) v) = (.err (if e = .fileNotFound then .jsonLoadError else e), st') ∧
      st'.storage = st.storage := by
  rcases loadUri_cases ip ld hu v st with ⟨d, h1, _⟩ | ⟨_, ⟨d, h2, _⟩ | ⟨e', h2, h3⟩ | ⟨h2, _⟩⟩
  · rw [hn] at h1; cases h1
  · rw [he] at h2; cases h2
  · rw [he] at h2; cases h2
    exact ⟨_, h3, rfl⟩
  · rw [he] at h2; cases h2

/-- A call that stores nothing by `add` under `k`. -/
def NoAdd (k : Str) : Op V D → Prop
  | .add u _ => baseOf u ≠ k
  | _ => True

/-- C47: once a document is there it stays, whatever else is called, until it is replaced by `add`; so (`C46_load`) every later
load returns it without calling the loader. -/
theorem C47_stays (l : L) (ops more : List (Op V D)) (hops : ∀ op ∈ more ++ ops, OpMade ip op) {k : Str} {d : D}
    (h : written ip (exec ip ld l ops).1 k = some d) (hm : ∀ op ∈ more, NoAdd k op) :
    written ip (exec ip ld l (more ++ ops)).1 k = some d := by
  rw [← storage_written ip ld l _ hops]
  rw [← storage_written ip ld l _ (fun o ho => hops o (by simp [ho]))] at h
  induction more with
  | nil => exact h
  | cons op more ih =>
    have ih := ih (fun o ho => hops o (by simp at ho ⊢; exact .inr ho)) fun o ho => hm o (by simp [ho])
    have hop := hops op (by simp)
    have hno := hm op (by simp)
    have hload : ∀ u v, Made ip u → dictGet k (loadUri ip ld u v (exec ip ld l (more ++ ops)).2).2.storage = some d := by
      intro u v hu
      rcases loadUri_cases ip ld hu v (exec ip ld l (more ++ ops)).2 with ⟨d, h1, h2⟩ | ⟨h1, ⟨d, h2, h3⟩ | ⟨e, h2, h3⟩ | ⟨h2, h3⟩⟩
      · rw [h2]; exact ih
      · rw [h3]
        simp only [dictGet_set]
        split
        · rename_i hk; rw [hk, ih] at h1; cases h1
        · exact ih
      · rw [h3]; exact ih
      · rw [h3]; exact ih
    simp only [List.cons_append]
    cases op with
    | add u d' =>
      simp only [exec, step]
      rcases add_cases ip hop d' (exec ip ld l (more ++ ops)).2 with ⟨-, h⟩ | ⟨-, h⟩
      · rw [h]; simp only [dictGet_set, if_neg (show baseOf u ≠ k from hno), ih]
      · rw [h]; exact ih
    | get k' => exact ih
    | contains k' => exact ih
    | load key v =>
      cases key with
      | uri u => exact hload u v hop
      | str s =>
        simp only [exec, step, load]
        cases hs : Uri.parse ip s with
        | ok u => exact hload u v (.parse hs)
        | err e => exact ih
        | timeout => exact ih

/-- A loader that finds the document at its second call only. -/
example : answer exampleIp (V := Unit) (D := Nat) (L := Nat) (fun _ _ n => if n = 0 then (.err .fileNotFound, 1) else (.ok n, n + 1)) 0
    [.load (.uri ⟨[], ⟨[], [], []⟩, c!"x", [], []⟩) (), .load (.uri ⟨[], ⟨[], [], []⟩, c!"x", [], []⟩) ()]
    (.get (.uri ⟨[], ⟨[], [], []⟩, c!"x", [], []⟩)) = .ok (.doc 1) := rfl

end Verif.Props
