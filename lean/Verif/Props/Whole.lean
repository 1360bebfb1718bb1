import Verif.Proofs.Whole
import Verif.Props.Unfold
import Verif.Props.Linked
/-!
# Property C72: from the data of schemas to the judgement of values
-/

namespace Verif.Props
open Verif Verif.Spec Verif.Obj

/-- Loading keeps the vocabulary the schemas were created with. -/
theorem loads_vocabulary (E : Env) (voc : List Kw) (hvoc : (voc.filter fun k => !k.isAssertion) = [.ref, .anchor, .id]) :
    ∀ (vs : List (List (Str × Val))) (s : St) (docs : List Doc), Mirrors s docs → LinkedAll E.ip docs s.storage vs →
      (∀ (d : Nat) (x : Schema), s.docs[d]? = some x → x.vocabulary = voc) →
      ∀ s', LoadsAll E voc s vs s' → ∀ (d : Nat) (x : Schema), s'.docs[d]? = some x → x.vocabulary = voc := by
  intro vs
  induction vs with
  | nil => intro s docs _ _ hv s' h; cases h; exact hv
  | cons kvs vs ih =>
    intro s docs hm hl hv s' h
    obtain ⟨s1, s2, h1, h2, h3, h4⟩ := load_linked E hm hvoc hl.1
    cases h with
    | cons new load rest =>
      rw [h1] at new
      cases new
      obtain ⟨f0, hf⟩ := h2
      obtain ⟨f1, hf'⟩ := load
      have e := (hf (max f0 f1) (by omega)).symm.trans (hf' (max f0 f1) (by omega))
      cases e
      refine ih s2 _ h4 (by rw [h3]; exact hl.2) (fun d x hx => ?_) s' rest
      obtain ⟨ext, -, e⟩ := newDocument_spec (.inr ⟨kvs, rfl⟩) voc s
      have es : s1 = { s with mem := s.mem ++ ext, docs := s.docs ++ [⟨s.mem.length, false, voc, [], none⟩] } := by
        rw [h1] at e; exact (Prod.mk.inj e).2
      have hlen : s2.docs.length = s.docs.length + 1 := by rw [← h4.length, List.length_append, hm.length]; rfl
      have hd := (List.getElem?_eq_some_iff.1 hx).1
      have hlt : Later s1 s2 := by
        have := (ops_pres E (max f0 f1)).load docs.length s1
        rw [hf' (max f0 f1) (by omega)] at this
        exact this
      obtain ⟨y, hy, hyv⟩ : ∃ y, s1.docs[d]? = some y ∧ y.vocabulary = voc := by
        rw [es]
        by_cases h : d < s.docs.length
        · exact ⟨_, docs_append (List.getElem?_eq_getElem h), hv d _ (List.getElem?_eq_getElem h)⟩
        · have : d = s.docs.length := by omega
          subst this
          exact ⟨⟨s.mem.length, false, voc, [], none⟩, by simp, rfl⟩
      obtain ⟨z, hz, e1, -⟩ := hlt.ready d y hy
      rw [hx] at hz
      cases hz
      exact e1.trans hyv

/-- The judgement of a schema, when the objects are those of the documents. -/
theorem mirrors_judged (E : Env) {voc : List Kw} (hp : VocPaired voc) {s : St} {docs : List Doc} (hm : Mirrors s docs) {d : Nat} {x : Schema} {D : Doc}
    (hx : s.docs[d]? = some x) (hxv : x.vocabulary = voc) (hD : docs[d]? = some D) {see : Node → Option Node} (hsee : Truthful docs see) {k : Nat}
    {items : List (Str × Node)} (hu : unfold see k D.root = .obj items) {v : Val} (hf : Fits E.w voc (.obj items) v) (hv : v.NoBraces) :
    ∃ g, ∀ h, g ≤ h → ((validate E h d v s).1 = .ok () ↔ Sat E.w voc (.obj items) v) ∧ Decides (validate E h d v s).1 ∧ (validate E h d v s).2 = s := by
  obtain ⟨f0, h0⟩ := validate_mirrors E hm hx hD
  obtain ⟨f1, h1⟩ := C36_refs_partial E.w docs voc hp see hsee k D.root v (by rw [hu]; exact hf) hv
  obtain ⟨f2, its, h2⟩ : ∃ f its, view docs f D.root = .ok (.obj its) := by
    cases k with
    | zero => rw [unfold] at hu; rw [hu]; exact ⟨1, items, rfl⟩
    | succ k =>
      rw [unfold] at hu
      cases e : see D.root with
      | none => rw [e] at hu; simp only at hu; rw [hu]; exact ⟨1, items, rfl⟩
      | some m =>
        obtain ⟨f, hf⟩ := hsee _ _ e
        cases m with
        | obj its => exact ⟨f, its, hf⟩
        | bool b => rw [e] at hu; cases hu
        | _ => rw [e] at hu; simp only at hu; rw [hu]; exact ⟨1, items, rfl⟩
  refine ⟨max f0 (max f1 f2), fun h hh => ?_⟩
  have hv2 : view docs h D.root = .ok (.obj its) := by
    have := view_mono docs (f := f2) (g := h) (by omega) D.root
    rw [h2] at this
    exact this (by simp)
  have e : schemaValidate E.w docs voc h D.root v = validateN E.w docs voc h D.root v [] := by
    unfold schemaValidate; rw [hv2]; rfl
  rw [h0 h (by omega) v, hxv, e, hu] at *
  exact ⟨(h1 h (by omega)).1, (h1 h (by omega)).2, rfl⟩

/-- C72: documents that refer to themselves and to objects of documents loaded before load one after the other, and then each of them judges values as
JSON Schema says of its data: where an unfolding of the document (references replaced by what the data has there) is an object and fits the value,
`validate` accepts the value exactly if it satisfies the unfolding, raises `ValidationError` otherwise, and modifies no schema.  What `Fits` leaves out is
listed at `C36_judged_partial`. -/
theorem C72_judged_partial (E : Env) (voc : List Kw) (hvoc : (voc.filter fun k => !k.isAssertion) = [.ref, .anchor, .id]) (hp : VocPaired voc)
    (vs : List (List (Str × Val))) (hl : LinkedAll E.ip [] [] vs) :
    (∃ s, LoadsAll E voc St.empty vs s) ∧
    ∀ s, LoadsAll E voc St.empty vs s → ∀ docs, docs = (linkAll E.ip [] [] vs).1 → ∀ d D, docs[d]? = some D →
      ∀ see, Truthful docs see → ∀ k items, unfold see k D.root = .obj items → ∀ v, Fits E.w voc (.obj items) v → v.NoBraces →
        ∃ g, ∀ h, g ≤ h → ((validate E h d v s).1 = .ok () ↔ Sat E.w voc (.obj items) v) ∧ Decides (validate E h d v s).1 ∧
          (validate E h d v s).2 = s := by
  obtain ⟨h1, h2⟩ := C68_loads E voc hvoc vs hl
  refine ⟨h1, fun s hs docs hdocs d D hD see hsee k items hu v hf hv => ?_⟩
  obtain ⟨hm, -⟩ := h2 s hs
  rw [← hdocs] at hm
  obtain ⟨x, hx⟩ : ∃ x, s.docs[d]? = some x := ⟨_, List.getElem?_eq_getElem (by rw [← hm.length]; exact (List.getElem?_eq_some_iff.1 hD).1)⟩
  have hxv := loads_vocabulary E voc hvoc vs St.empty [] ⟨rfl, fun d x D h _ => by simp [St.empty] at h⟩ hl
    (fun d x h => by simp [St.empty] at h) s hs d x hx
  exact mirrors_judged E hp hm hx hxv hD hsee hu hf hv

/-- `{"type": "object", "properties": {"next": {"$ref": "#"}}}` -/
def nextData : List (Str × Val) :=
  [(c!"type", .str c!"object"), (c!"properties", .dict [(c!"next", .dict [(c!"$ref", .str c!"#")])])]

theorem next_docs (ip : Rfc3986.IpRe) : (linkAll ip [] [] [nextData]).1 = links := by cbv

theorem next_linked (ip : Rfc3986.IpRe) : LinkedAll ip [] [] [nextData] := by
  refine ⟨⟨⟨trivial, ⟨⟨by decide, by decide⟩, ⟨fun h => absurd h (by decide), fun h => absurd h (by decide)⟩,
    ⟨⟨by decide, by decide⟩, ⟨fun _ => ⟨by decide, c!"#", rfl, .inl ?_⟩, fun h => absurd h (by decide)⟩, trivial, trivial⟩, trivial⟩, trivial⟩,
    ⟨fun h => absurd h (by decide), fun h => absurd h (by decide)⟩, .inl ⟨by decide, by decide⟩⟩, trivial⟩
  obtain ⟨u, b, h⟩ := local_fragment ip (fr := []) (ptr := []) (by decide) rfl
  exact ⟨u, b, _, h⟩

/-- From the data, which refers to itself, to judgements: it loads, and accepts `{"next": {"next": … {}}}` of any length, and rejects those that
end with `null`. -/
theorem C72_next (ip : Rfc3986.IpRe) (file : Uri → Res Val) (k : Nat) : ∃ s, LoadsAll ⟨ip, w1, file⟩ voc2 St.empty [nextData] s ∧
    ∃ g, ∀ h, g ≤ h → validate ⟨ip, w1, file⟩ h 0 (chain (.dict []) k) s = (.ok (), s) ∧
      ∃ e, validate ⟨ip, w1, file⟩ h 0 (chain .null k) s = (.err (.validation e), s) := by
  obtain ⟨⟨s, h1⟩, h2⟩ := C72_judged_partial ⟨ip, w1, file⟩ voc2 (by decide) (by constructor <;> decide) [nextData] (next_linked ip)
  have h2 := h2 s h1 links (next_docs ip).symm 0 ⟨withNext toSelf, []⟩ rfl (seen links 3) (seen_truthful _ _) (k + 1) _ (written_root k)
  have hk : k < (writtenOut (k + 1)).depth + 1 := written_depth _ k
  obtain ⟨g1, a⟩ := h2 (chain (.dict []) k) (fits_chain _ (fun kvs e => by cases e; rfl) k _ hk) (chain_plain _ (by simp [Val.NoBraces, Val.NoBracesD]) k)
  obtain ⟨g2, b⟩ := h2 (chain .null k) (fits_chain _ (fun kvs e => by cases e) k _ hk) (chain_plain _ (by simp [Val.NoBraces]) k)
  refine ⟨s, h1, max g1 g2, fun h hh => ⟨Prod.ext ((a h (by omega)).1.2 (chain_sat k)) (a h (by omega)).2.2, ?_⟩⟩
  rcases (b h (by omega)).2.1 with e | ⟨e, he⟩
  · obtain ⟨kvs, e⟩ := sat_chain _ k ((b h (by omega)).1.1 e)
    cases e
  · exact ⟨e, Prod.ext he (b h (by omega)).2.2⟩

end Verif.Props
