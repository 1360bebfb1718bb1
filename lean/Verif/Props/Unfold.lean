import Verif.Proofs.Unfold
import Verif.Props.Satisfies
/-!
# C66: a schema with references is judged as the schema with the references written out

`unfold` and `Truthful` are in `Verif.Spec.Unfold`, `Sat` and `Fits` in `Verif.Spec.Satisfies`.
-/

namespace Verif.Props
open Verif Verif.Spec

/-- C66: what the schema with the references written out, to any depth, decides about a value, the schema with the references decides in
the same way and with the same error.  `[]` are no documents: the unfolding is judged on its own. -/
theorem C66_unfold (w : World) (docs : List Doc) (voc : List Kw) (see : Node → Option Node) (hs : Truthful docs see) (k f : Nat) (n : Node)
    (v : Val) (c : Ctx) (hd : Decides (validateN w [] voc f (unfold see k n) v c)) :
    ∃ g, ∀ h, g ≤ h → validateN w docs voc h n v c = validateN w [] voc f (unfold see k n) v c := by
  refine validateN_unfold w docs voc f see hs k n v c ?_
  rcases hd with h | ⟨e, h⟩
  · exact .inl ⟨(), h⟩
  · exact .inr ⟨e, h⟩

/-- What a node is seen to show when references are followed `f` deep. -/
def seen (docs : List Doc) (f : Nat) (n : Node) : Option Node :=
  match view docs f n with
  | .ok m => some m
  | _ => none

theorem seen_truthful (docs : List Doc) (f : Nat) : Truthful docs (seen docs f) := by
  intro n m h
  refine ⟨f, ?_⟩
  unfold seen at h
  cases e : view docs f n with
  | ok x => rw [e] at h; cases h; rfl
  | err x => rw [e] at h; cases h
  | timeout => rw [e] at h; cases h

/-- C36 for schemas with references: where an unfolding of a schema fits the value, the schema, although it may refer to itself, accepts the value exactly if the
value satisfies the unfolding as JSON Schema says, and rejects it with a `ValidationError` otherwise.  What `Fits` leaves out is listed at
`C36_judged_partial`. -/
theorem C36_refs_partial (w : World) (docs : List Doc) (voc : List Kw) (hp : VocPaired voc) (see : Node → Option Node)
    (hs : Truthful docs see) (k : Nat) (n : Node) (v : Val) (hf : Fits w voc (unfold see k n) v) (hv : v.NoBraces) :
    ∃ g, ∀ h, g ≤ h → (validateN w docs voc h n v [] = .ok () ↔ Sat w voc (unfold see k n) v) ∧ Decides (validateN w docs voc h n v []) := by
  obtain ⟨h1, h2⟩ := C36_judged_partial w [] voc hp _ v hf hv _ (Nat.le_refl _)
  obtain ⟨g, hg⟩ := C66_unfold w docs voc see hs k _ n v [] h2
  exact ⟨g, fun h hh => by rw [hg h hh]; exact ⟨h1, h2⟩⟩

/-! ## Lists of any length

`{"type": "object", "properties": {"next": {"$ref": "#"}}}`, which describes itself. -/

/-- `{"$ref": "#"}`, loaded. -/
def toSelf : Node := .ref [(c!"$ref", .str c!"#")] 0 []
/-- `{"type": "object", "properties": {"next": n}}` -/
def withNext (n : Node) : Node := .obj [(c!"type", .str c!"object"), (c!"properties", .obj [(c!"next", n)])]
/-- The only document. -/
def links : List Doc := [⟨withNext toSelf, []⟩]

/-- `k` times `{"next": …}` around `e`. -/
def chain (e : Val) : Nat → Val
  | 0 => e
  | k + 1 => .dict [(c!"next", chain e k)]

/-- The schema written out, with `l` in the end. -/
def writtenTo (l : Node) : Nat → Node
  | 0 => l
  | k + 1 => withNext (writtenTo l k)

/-- The schema written out. -/
abbrev writtenOut : Nat → Node := writtenTo toSelf

theorem written_self (k : Nat) : unfold (seen links 3) k toSelf = writtenOut k := by
  induction k with
  | zero => rfl
  | succ k ih =>
    have e : seen links 3 toSelf = some (withNext toSelf) := rfl
    rw [unfold, e]
    simp only [withNext, List.map_cons, List.map_nil]
    rw [show unfoldAt (seen links 3) (unfold (seen links 3) k) c!"type" (.str c!"object") = .str c!"object" from rfl,
      show unfoldAt (seen links 3) (unfold (seen links 3) k) c!"properties" (.obj [(c!"next", toSelf)]) =
        .obj [(c!"next", unfold (seen links 3) k toSelf)] from rfl, ih]
    rfl

theorem written_root (k : Nat) : unfold (seen links 3) (k + 1) (withNext toSelf) = writtenOut (k + 1) := by
  rw [← written_self]; rfl

/-- No formats. -/
def w1 : World :=
  { search := fun p => some fun s => strContains p s, formats := fun _ => none, parseDec := fun _ => none
    reprBody := fun _ => [] }
/-- A vocabulary. -/
def voc2 : List Kw := [.ref, .anchor, .id, .type, .properties]

theorem fits_chain {l : Node} (e : Val) (he : ∀ kvs, e = .dict kvs → kvs = []) (k d : Nat) (hd : k < d) :
    FitsN w1 voc2 d (writtenTo l (k + 1)) (chain e k) := by
  induction k generalizing d with
  | zero =>
    obtain ⟨d, rfl⟩ : ∃ j, d = j + 1 := ⟨d - 1, by omega⟩
    unfold FitsN writtenTo withNext
    simp only [show recognised voc2 [(c!"type", .str c!"object"), (c!"properties", .obj [(c!"next", writtenTo l 0)])] =
      [(c!"type", .str c!"object"), (c!"properties", .obj [(c!"next", writtenTo l 0)])] from rfl]
    constructor
    case type =>
      intro m h
      have : m = .str c!"object" := by simpa [dictGet] using h.symm
      subst this
      exact ⟨[c!"object"], by decide, .inr ⟨_, rfl, rfl⟩, by simp⟩
    case properties =>
      intro m h
      have : m = .obj [(c!"next", writtenTo l 0)] := by simpa [dictGet] using h.symm
      subst this
      refine ⟨_, rfl, by simp, ?_⟩
      intro kvs e' k x s hk hs
      obtain rfl := he kvs e'
      simp at hk
    all_goals simp [dictGet]
  | succ k ih =>
    obtain ⟨d, rfl⟩ : ∃ j, d = j + 1 := ⟨d - 1, by omega⟩
    unfold FitsN
    rw [show writtenTo l (k + 1 + 1) = withNext (writtenTo l (k + 1)) from rfl]
    unfold withNext
    simp only [show recognised voc2 [(c!"type", .str c!"object"), (c!"properties", .obj [(c!"next", writtenTo l (k + 1))])] =
      [(c!"type", .str c!"object"), (c!"properties", .obj [(c!"next", writtenTo l (k + 1))])] from rfl]
    constructor
    case type =>
      intro m h
      have : m = .str c!"object" := by simpa [dictGet] using h.symm
      subst this
      exact ⟨[c!"object"], by decide, .inr ⟨_, rfl, rfl⟩, by simp⟩
    case properties =>
      intro m h
      have : m = .obj [(c!"next", writtenTo l (k + 1))] := by simpa [dictGet] using h.symm
      subst this
      refine ⟨_, rfl, by simp, ?_⟩
      intro kvs e' k' x s hk hs
      cases e'
      simp only [List.mem_singleton, Prod.mk.injEq] at hk
      obtain ⟨rfl, rfl⟩ := hk
      simp only [dictGet, if_true, Option.some.injEq] at hs
      subst hs
      refine ⟨ih d (by omega), ?_⟩
      rintro ⟨t, ps, p, m, h, _⟩
      simp [dictGet] at h
    all_goals simp [dictGet]

theorem sat_chain {l : Node} (e : Val) (k : Nat) : Sat w1 voc2 (writtenTo l (k + 1)) (chain e k) →  (∃ kvs, e = .dict kvs) := by
  induction k with
  | zero =>
    rw [C36_meaning]
    intro L
    obtain ⟨t, h1, h2⟩ := Layer.type L (.str c!"object") rfl
    simp only [schemaTypeNames, List.mem_singleton] at h1
    subst h1
    simp only [chain] at h2
    cases e with
    | dict kvs => exact ⟨kvs, rfl⟩
    | flt x => cases x <;> simp [jsonTypesOf, typeNamesOf] at h2
    | dec x => cases x <;> simp [jsonTypesOf, typeNamesOf] at h2
    | _ => simp [jsonTypesOf, typeNamesOf] at h2
  | succ k ih =>
    rw [C36_meaning]
    intro L
    exact ih (Layer.properties L _ _ rfl rfl c!"next" (chain e k) (writtenTo l (k + 1)) (by simp) rfl)

theorem chain_sat {l : Node} (k : Nat) : Sat w1 voc2 (writtenTo l (k + 1)) (chain (.dict []) k) := by
  have hv : ∃ kvs, chain (.dict []) k = .dict kvs := by cases k <;> exact ⟨_, rfl⟩
  obtain ⟨kvs, hv⟩ := hv
  rw [C36_meaning]
  rw [show writtenTo l (k + 1) = withNext (writtenTo l k) from rfl]
  unfold withNext
  simp only [show recognised voc2 [(c!"type", .str c!"object"), (c!"properties", .obj [(c!"next", writtenTo l k)])] =
    [(c!"type", .str c!"object"), (c!"properties", .obj [(c!"next", writtenTo l k)])] from rfl]
  constructor
  case type =>
    intro n h
    have : n = .str c!"object" := by simpa [dictGet] using h.symm
    subst this
    exact ⟨c!"object", by simp [schemaTypeNames], by rw [hv]; simp [jsonTypesOf, typeNamesOf]⟩
  case properties =>
    intro kvs' ps e h k' x s hk hs
    have : ps = [(c!"next", writtenTo l k)] := by simpa [dictGet] using h.symm
    subst this
    cases k with
    | zero => cases e; simp at hk
    | succ k =>
      cases e
      simp only [List.mem_singleton, Prod.mk.injEq] at hk
      obtain ⟨rfl, rfl⟩ := hk
      simp only [dictGet, if_true, Option.some.injEq] at hs
      subst hs
      exact chain_sat k
  case patternProperties =>
    rintro _ _ _ _ _ _ ⟨_, _, _, h, _⟩
    simp [dictGet] at h
  case prefixItems => simp [prefixOf, dictGet]
  case items => simp [restOf, dictGet]
  all_goals simp [dictGet]

theorem chain_plain (e : Val) (he : e.NoBraces) (k : Nat) : (chain e k).NoBraces := by
  induction k with
  | zero => exact he
  | succ k ih => exact ⟨by decide, ih, trivial⟩

theorem written_depth (l : Node) (k : Nat) : k < (writtenTo l (k + 1)).depth + 1 := by
  induction k with
  | zero => simp only [writtenTo, withNext, Node.depth, Node.depthD]; omega
  | succ k ih =>
    rw [show writtenTo l (k + 1 + 1) = withNext (writtenTo l (k + 1)) from rfl]
    simp only [withNext, Node.depth, Node.depthD] at ih ⊢
    omega

/-- The schema accepts every list, however long, and rejects a list that ends with `null`. -/
example (k : Nat) : ∃ g, ∀ h, g ≤ h →
    validateN w1 links voc2 h (withNext toSelf) (chain (.dict []) k) [] = .ok () ∧
    ∃ e, validateN w1 links voc2 h (withNext toSelf) (chain .null k) [] = .err (.validation e) := by
  have hp : VocPaired voc2 := by constructor <;> decide
  obtain ⟨g1, h1⟩ := C36_refs_partial w1 links voc2 hp (seen links 3) (seen_truthful _ _) (k + 1) (withNext toSelf) (chain (.dict []) k)
    (by rw [written_root]; exact fits_chain _ (fun kvs e => by cases e; rfl) k _ (written_depth _ k)) (chain_plain _ (by simp [Val.NoBraces, Val.NoBracesD]) k)
  obtain ⟨g2, h2⟩ := C36_refs_partial w1 links voc2 hp (seen links 3) (seen_truthful _ _) (k + 1) (withNext toSelf) (chain .null k)
    (by rw [written_root]; exact fits_chain _ (fun kvs e => by cases e) k _ (written_depth _ k)) (chain_plain _ (by simp [Val.NoBraces]) k)
  rw [written_root] at h1 h2
  refine ⟨max g1 g2, fun h hh => ⟨(h1 h (by omega)).1.2 (chain_sat k), ?_⟩⟩
  rcases (h2 h (by omega)).2 with e | e
  · obtain ⟨kvs, e⟩ := sat_chain _ k ((h2 h (by omega)).1.1 e)
    cases e
  · exact e

end Verif.Props
