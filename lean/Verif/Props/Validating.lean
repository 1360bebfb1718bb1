import Verif.Proofs.ValidatingNeed
import Verif.Proofs.ValidatingTree
import Verif.Props.OnDemand
/-!
# Property C95: validation reads the objects, and schemas are loaded in the middle of it
-/

namespace Verif.Props
open Verif Verif.Spec Verif.Obj

/-- Both results are `None`, the same exception, or there is none. -/
theorem alike_unit {x y : Res Unit} (h : Alike (fun _ _ => True) x y) : x = y := by
  cases x <;> cases y <;> simp_all [Alike]

/-- C95: when the objects are those of the documents, `validate`, the keywords of which read the objects, ends exactly if validation with the trees of the documents
ends, with the same result, and modifies nothing. -/
theorem C95_trees (E : Env) {s : St} {docs : List Doc} (hm : Mirrors s docs) {d : Nat} {x : Schema} {D : Doc} (hx : s.docs[d]? = some x) (hD : docs[d]? = some D) (v : Val) :
    ((∃ g, (validateS E g d v s).1 ≠ .timeout) ↔ ∃ f, schemaValidate E.w docs x.vocabulary f D.root v ≠ .timeout) ∧
    ∀ f, schemaValidate E.w docs x.vocabulary f D.root v ≠ .timeout → ∃ g0, ∀ g, g0 ≤ g → validateS E g d v s = (schemaValidate E.w docs x.vocabulary f D.root v, s) := by
  have h := validateS_sim hm (E := E) hx hD v
  have to : ∀ f, schemaValidate E.w docs x.vocabulary f D.root v ≠ .timeout → ∃ g0, ∀ g, g0 ≤ g → validateS E g d v s = (schemaValidate E.w docs x.vocabulary f D.root v, s) := by
    intro f hf
    obtain ⟨g0, hg⟩ := h.to f hf
    refine ⟨g0, fun g hle => ?_⟩
    obtain ⟨y, e, ha⟩ := hg g hle
    rw [alike_unit ha]
    exact e
  refine ⟨⟨fun ⟨g, hg⟩ => h.back g hg, fun ⟨f, hf⟩ => ?_⟩, to⟩
  obtain ⟨g0, hg⟩ := to f hf
  exact ⟨g0, by rw [hg g0 (Nat.le_refl _)]; exact hf⟩

/-- C95: so does the `validate` that C72 and C93 are about, which reads the trees of the objects. -/
theorem C95_whole (E : Env) {s : St} {docs : List Doc} (hm : Mirrors s docs) {d : Nat} (hd : d < s.docs.length) (v : Val) :
    ∃ g0, ∀ g, g0 ≤ g → (validate E g d v s).1 ≠ .timeout → ∃ h0, ∀ h, h0 ≤ h → validateS E h d v s = validate E g d v s := by
  have hx : s.docs[d]? = some s.docs[d] := List.getElem?_eq_getElem hd
  have hD : docs[d]? = some (docs[d]'(by rw [hm.length]; exact hd)) := List.getElem?_eq_getElem _
  obtain ⟨g0, h0⟩ := validate_mirrors E hm hx hD
  refine ⟨g0, fun g hg hne => ?_⟩
  rw [h0 g hg v] at hne ⊢
  exact (C95_trees E hm hx hD v).2 g hne

section
variable (E : Env) (voc : List Kw) (hvoc : (voc.filter fun k => !k.isAssertion) = [.ref, .anchor, .id]) (lib : Str → List (Str × Val) → Prop)
  (hlib : ∀ k kvs, lib k kvs → WebDoc E.ip E.file lib kvs) (ks : List Str) (hks : ∀ k kvs, lib k kvs → k ∈ ks)
include hvoc hlib hks

/-- C95: with the documents of a library as in C93, some of them loaded: `schema.validate(v)` loads some schemas – those it needs – and then does what it
does when these, or these and any others, were loaded before: it accepts the value, raises the same exception or does not end.  Nothing else changes. -/
theorem C95_validate {made : List (Nat × List (Str × Val))} {s : St} (h : Reached E voc lib made s) {d : Nat} (hd : d < s.docs.length) (v : Val) :
    ∃ s1, LoadsSome E s s1 ∧ Reached E voc lib made s1 ∧ ∃ h0, ∀ h, h0 ≤ h → ∀ s2, LoadsSome E s1 s2 →
      validateS E h d v s = ((validateS E h d v s2).1, s1) ∧ (validateS E h d v s2).2 = s2 := by
  obtain ⟨s1, h1, h2, h0, h3⟩ := loads_then hvoc hlib _ (fun s hs => reached_bound hvoc hlib hks hs) (fun h => validateS E h d v) (fun _ _ => True)
    (fun s f => validateSW s E.w f d v) s
    (fun s' hs' hl f => by
      obtain ⟨data, A, hh⟩ := reached_holds hvoc hlib hs'
      exact validateS_does hh.web.whole d (Nat.lt_of_lt_of_le hd (loadsSome_length hvoc hlib hl h)) v) _ s (Nat.le_refl _) h (.nil s)
  exact ⟨s1, h1, h2, h0, fun h hle s2 hs2 => ⟨(h3 h hle s2 hs2).1, (h3 h hle s2 hs2).2.1⟩⟩

/-- C95: a second look at an object a query returned (its type, and its value, members or elements) finds what the first look found, and loads nothing any more. -/
theorem C95_again {made : List (Nat × List (Str × Val))} {s : St} (h : Reached E voc lib made s) {d : Nat} (hd : d < s.docs.length) (ptr : List Str) :
    ∃ s1, LoadsSome E s s1 ∧ ∃ h0, ∀ h, h0 ≤ h → ∀ i s', (ops E h).query d ptr s = (.ok i, s') →
      ∃ y, sightS E h i s' = (y, s1) ∧ sightS E h i s1 = (y, s1) := by
  obtain ⟨s1, h1, h2, h0, h3⟩ := loads_then hvoc hlib _ (fun s hs => reached_bound hvoc hlib hks hs) (fun h => (ops E h).query d ptr) InView (fun s f => (wopsOf s f).query d ptr) s
    (fun s' hs' hl f => by
      obtain ⟨data, A, hh⟩ := reached_holds hvoc hlib hs'
      exact (does_all hh.web.whole f).query d ptr (Nat.lt_of_lt_of_le hd (loadsSome_length hvoc hlib hl h))) _ s (Nat.le_refl _) h (.nil s)
  by_cases hex : ∃ h i s', h0 ≤ h ∧ (ops E h).query d ptr s = (.ok i, s')
  · obtain ⟨k, i, s', hk, hq⟩ := hex
    have hin : ∀ s2, LoadsSome E s1 s2 → InView s2 i := fun s2 hs2 => by
      have e := (h3 k hk s2 hs2).1
      have ei : ((ops E k).query d ptr s2).1 = .ok i := by
        change (ops E k).query d ptr s = (((ops E k).query d ptr s2).1, s1) at e
        rw [hq] at e
        exact (Prod.mk.inj e).1.symm
      exact ((h3 k hk s2 hs2).2.2 i ei).keep (loadsSome_keeps hvoc hlib hs2 h2).1
    obtain ⟨s3, k1, k2, k0, k3⟩ := loads_then hvoc hlib _ (fun s hs => reached_bound hvoc hlib hks hs) (fun h => sightS E h i) (fun _ _ => True) (fun s f => sightW s f i) s1
      (fun s' hs' hl f => by
        obtain ⟨data, A, hh⟩ := reached_holds hvoc hlib hs'
        refine (sight_does hh.web.whole i (hin s' hl)).weaken fun _ _ _ => trivial) _ s1 (Nat.le_refl _) h2 (.nil s1)
    refine ⟨s3, h1.trans k1, max k0 h0, fun g hle j s'' hj => ?_⟩
    have e1 := (ops_mono E (Nat.le_max_left g k)).query d ptr s (by rw [hj]; simp)
    have e2 := (ops_mono E (Nat.le_max_right g k)).query d ptr s (by rw [hq]; simp)
    have e3 : s'' = s1 := by
      have := (h3 g (by omega) s1 (.nil _)).1
      change (ops E g).query d ptr s = _ at this
      rw [hj] at this
      exact (Prod.mk.inj this).2
    have e4 : j = i := by
      rw [e1, hj, hq] at e2
      cases e2
      rfl
    subst e3 e4
    obtain ⟨a, b, -⟩ := k3 g (by omega) s3 (.nil _)
    exact ⟨(sightS E g j s3).1, a, Prod.ext rfl b⟩
  · exact ⟨s1, h1, h0, fun g hle i s' hq => absurd ⟨g, i, s', hle, hq⟩ hex⟩

/-- C95: so each schema judges values as JSON Schema says of the data, as in C93, with nothing loaded before: `validate` loads what it needs, and accepts the value
exactly if it satisfies an unfolding of the document – references replaced by what the data has there – and raises `ValidationError` otherwise.  What `Fits` leaves out is listed at
`C36_judged_partial`. -/
theorem C95_judged_partial (hp : VocPaired voc) {made : List (Nat × List (Str × Val))} {s : St} (h : Reached E voc lib made s) {d : Nat} (hd : d < s.docs.length) (v : Val)
    (hv : v.NoBraces) :
    ∃ s1 s2, LoadsSome E s s1 ∧ LoadsSome E s1 s2 ∧ (∀ x ∈ s2.docs, x.ready = true) ∧ ∃ data : List (List (Str × Val)),
      (∀ d kvs, (d, kvs) ∈ made → data[d]? = some kvs) ∧ (∀ d kvs, data[d]? = some kvs → (d, kvs) ∈ made ∨ ∃ k, dictGet k s2.storage = some d ∧ lib k kvs) ∧
      (∀ k e, dictGet k s2.storage = some e → ∃ kvs, data[e]? = some kvs ∧ lib k kvs) ∧
      (∀ (d : Nat) kvs, data[d]? = some kvs → LinkedRoot E.ip (Known E.ip s2.storage) (wrapDict kvs)) ∧
      ∀ docs, docs = docsIn E.ip s2.storage data → ∃ D, docs[d]? = some D ∧
      ∀ see, Truthful docs see → ∀ k items, unfold see k D.root = .obj items → Fits E.w voc (.obj items) v →
        ∃ g, ∀ h, g ≤ h → ((validateS E h d v s).1 = .ok () ↔ Sat E.w voc (.obj items) v) ∧ Decides (validateS E h d v s).1 ∧ (validateS E h d v s).2 = s1 := by
  obtain ⟨s1, h1, h2, h0, h3⟩ := C95_validate E voc hvoc lib hlib ks hks h hd v
  obtain ⟨s2, g1, g2, g3⟩ := C93_completes E voc hvoc lib hlib ks hks h2
  obtain ⟨data, d1, d2, d3, -, d5⟩ := C93_mirrors E voc hvoc lib hlib g2
  obtain ⟨hm, d6⟩ := d5 g3
  have hd2 := Nat.lt_of_lt_of_le hd (Nat.le_trans (loadsSome_length hvoc hlib h1 h) (loadsSome_length hvoc hlib g1 h2))
  refine ⟨s1, s2, h1, g1, g3, data, d1, d2, d3, d6, fun docs hdocs => ?_⟩
  rw [← hdocs] at hm
  obtain ⟨D, hD⟩ : ∃ D, docs[d]? = some D := ⟨_, List.getElem?_eq_getElem (by rw [hm.length]; exact hd2)⟩
  have hx : s2.docs[d]? = some s2.docs[d] := List.getElem?_eq_getElem hd2
  refine ⟨D, hD, fun see hsee k items hu hf => ?_⟩
  obtain ⟨_, _, hh⟩ := reached_holds hvoc hlib g2
  obtain ⟨g, hg⟩ := mirrors_judged E hp hm hx (hh.words _ (List.mem_of_getElem? hx)) hD hsee hu hf hv
  obtain ⟨k0, hk⟩ := C95_whole E hm hd2 v
  have hg' := hg (max g k0) (by omega)
  obtain ⟨m0, hm0⟩ := hk (max g k0) (by omega) (by rcases hg'.2.1 with e | ⟨e, he⟩ <;> simp [*])
  refine ⟨max m0 h0, fun h hle => ?_⟩
  rw [(h3 h (by omega) s2 g1).1, hm0 h (by omega)]
  exact ⟨hg'.1, hg'.2.1, rfl⟩

end

/-! ## Two documents that go on in each other -/

/-- `{"type": "object", "properties": {"next": {"$ref": "http://x/b"}}}` -/
def hopA : List (Str × Val) := [(c!"type", .str c!"object"), (c!"properties", .dict [(c!"next", .dict [(c!"$ref", .str c!"http://x/b")])])]
/-- `{"type": "object", "properties": {"next": {"$ref": "http://x/a"}}}` -/
def hopB : List (Str × Val) := [(c!"type", .str c!"object"), (c!"properties", .dict [(c!"next", .dict [(c!"$ref", .str c!"http://x/a")])])]

def hopLib (k : Str) (kvs : List (Str × Val)) : Prop := (k = c!"http://x/a" ∧ kvs = hopA) ∨ (k = c!"http://x/b" ∧ kvs = hopB)

def hopFile (u : Uri) : Res Val :=
  if u.path = c!"/a" then .ok (.dict hopA) else if u.path = c!"/b" then .ok (.dict hopB) else .err .fileNotFound

theorem hop_to_a (ip : Rfc3986.IpRe) : WebRef ip hopFile hopLib c!"http://x/a" := by
  refine .inr ⟨⟨c!"http", ⟨[], c!"x", []⟩, c!"/a", [], []⟩, c!"http://x/a", [], hopA, by cbv, by decide, by cbv, by decide, rfl, .inl ⟨rfl, rfl⟩, ?_⟩
  rintro kvs' (⟨-, rfl⟩ | ⟨h, -⟩) link
  · exact ⟨3, _, rfl, by change ∀ k ∈ _, k ∉ [c!"type", c!"properties"]; decide⟩
  · exact absurd h (by decide)

theorem hop_to_b (ip : Rfc3986.IpRe) : WebRef ip hopFile hopLib c!"http://x/b" := by
  refine .inr ⟨⟨c!"http", ⟨[], c!"x", []⟩, c!"/b", [], []⟩, c!"http://x/b", [], hopB, by cbv, by decide, by cbv, by decide, rfl, .inr ⟨rfl, rfl⟩, ?_⟩
  rintro kvs' (⟨h, -⟩ | ⟨-, rfl⟩) link
  · exact absurd h (by decide)
  · exact ⟨3, _, rfl, by change ∀ k ∈ _, k ∉ [c!"type", c!"properties"]; decide⟩

theorem hop_library (ip : Rfc3986.IpRe) (k : Str) (kvs : List (Str × Val)) (h : hopLib k kvs) : WebDoc ip hopFile hopLib kvs := by
  have plain : ∀ {P : Str → Prop} {m : List (Str × Node)}, c!"$ref" ∉ m.map Prod.fst → c!"$anchor" ∉ m.map Prod.fst → CoreObject P m :=
    fun h1 h2 => ⟨fun h => absurd h h1, fun h => absurd h h2⟩
  rcases h with ⟨rfl, rfl⟩ | ⟨rfl, rfl⟩
  · refine ⟨⟨⟨trivial, ⟨⟨by decide, by decide⟩, plain (by decide) (by decide), ⟨⟨by decide, by decide⟩, ⟨fun _ => ⟨by decide, _, rfl, hop_to_b ip⟩, fun h => absurd h (by decide)⟩, trivial, trivial⟩,
      trivial⟩, trivial⟩, plain (by decide) (by decide), .inl ⟨by decide, by decide⟩⟩, ?_⟩
    intro k hk
    have : nameOf ip (wrapDict hopA) = none := by cbv
    rw [this] at hk; cases hk
  · refine ⟨⟨⟨trivial, ⟨⟨by decide, by decide⟩, plain (by decide) (by decide), ⟨⟨by decide, by decide⟩, ⟨fun _ => ⟨by decide, _, rfl, hop_to_a ip⟩, fun h => absurd h (by decide)⟩, trivial, trivial⟩,
      trivial⟩, trivial⟩, plain (by decide) (by decide), .inl ⟨by decide, by decide⟩⟩, ?_⟩
    intro k hk
    have : nameOf ip (wrapDict hopB) = none := by cbv
    rw [this] at hk; cases hk

/-- After asking the store for the first. -/
def hopStart (ip : Rfc3986.IpRe) : St := (storeLoad ⟨ip, w1, hopFile⟩ ⟨c!"http", ⟨[], c!"x", []⟩, c!"/a", [], []⟩ voc2 St.empty).2

theorem hop_start (ip : Rfc3986.IpRe) : storeLoad ⟨ip, w1, hopFile⟩ ⟨c!"http", ⟨[], c!"x", []⟩, c!"/a", [], []⟩ voc2 St.empty = (.ok 0, hopStart ip) := Prod.ext rfl rfl

theorem hop_reached (ip : Rfc3986.IpRe) : Reached ⟨ip, w1, hopFile⟩ voc2 hopLib [] (hopStart ip) :=
  .find .empty (web_name ip) rfl (.inl ⟨rfl, rfl⟩) (hop_start ip)

/-- `{"$ref": "http://x/a"}`, which leads to document `a`. -/
def hopTo (t : Str) (a : Nat) : Node := .ref [(c!"$ref", .str t)] a []

/-- Written out, each of the two goes on for as long as one likes. -/
theorem hop_written {docs : List Doc} {e : Nat} (D0 : docs[0]? = some ⟨withNext (hopTo c!"http://x/b" e), []⟩) (De : docs[e]? = some ⟨withNext (hopTo c!"http://x/a" 0), []⟩) (k : Nat) :
    ∃ l, unfold (seen docs 3) (k + 1) (withNext (hopTo c!"http://x/b" e)) = writtenTo l (k + 1) := by
  have key : ∀ k, (∃ l, unfold (seen docs 3) k (hopTo c!"http://x/b" e) = writtenTo l k) ∧ ∃ l, unfold (seen docs 3) k (hopTo c!"http://x/a" 0) = writtenTo l k := by
    have v0 : seen docs 3 (hopTo c!"http://x/a" 0) = some (withNext (hopTo c!"http://x/b" e)) := by
      unfold seen hopTo; rw [view, D0]; rfl
    have ve : seen docs 3 (hopTo c!"http://x/b" e) = some (withNext (hopTo c!"http://x/a" 0)) := by
      unfold seen hopTo; rw [view, De]; rfl
    have step : ∀ k t a, unfoldAt (seen docs 3) (unfold (seen docs 3) k) c!"properties" (.obj [(c!"next", hopTo t a)]) = .obj [(c!"next", unfold (seen docs 3) k (hopTo t a))] := fun _ _ _ => rfl
    have text : ∀ k, unfoldAt (seen docs 3) (unfold (seen docs 3) k) c!"type" (.str c!"object") = .str c!"object" := fun _ => rfl
    intro k
    induction k with
    | zero => exact ⟨⟨_, rfl⟩, ⟨_, rfl⟩⟩
    | succ k ih =>
      obtain ⟨⟨l, hl⟩, ⟨m, hm⟩⟩ := ih
      refine ⟨⟨m, ?_⟩, ⟨l, ?_⟩⟩
      · rw [unfold, ve]
        simp only [withNext, List.map_cons, List.map_nil, step, text, hm]
        rfl
      · rw [unfold, v0]
        simp only [withNext, List.map_cons, List.map_nil, step, text, hl]
        rfl
  obtain ⟨l, hl⟩ := (key (k + 1)).2
  refine ⟨l, ?_⟩
  rw [← hl]
  have v0 : seen docs 3 (hopTo c!"http://x/a" 0) = some (withNext (hopTo c!"http://x/b" e)) := by
    unfold seen hopTo; rw [view, D0]; rfl
  have vv : seen docs 3 (withNext (hopTo c!"http://x/b" e)) = some (withNext (hopTo c!"http://x/b" e)) := rfl
  rw [unfold, unfold, v0, vv]
  rfl

/-- In every state that loading leads to. -/
theorem hop_any (ip : Rfc3986.IpRe) (k : Nat) {s : St} (hs : LoadsSome ⟨ip, w1, hopFile⟩ (hopStart ip) s) :
    (∃ s1, LoadsSome ⟨ip, w1, hopFile⟩ s s1 ∧ ∃ g, ∀ h, g ≤ h → validateS ⟨ip, w1, hopFile⟩ h 0 (chain (.dict []) k) s = (.ok (), s1)) ∧
    ∃ s1, LoadsSome ⟨ip, w1, hopFile⟩ s s1 ∧ ∃ g, ∀ h, g ≤ h → ∃ e, validateS ⟨ip, w1, hopFile⟩ h 0 (chain .null k) s = (.err (.validation e), s1) := by
  have hvoc : (voc2.filter fun k => !k.isAssertion) = [.ref, .anchor, .id] := by decide
  have hks : ∀ k kvs, hopLib k kvs → k ∈ [c!"http://x/a", c!"http://x/b"] := by rintro k kvs (⟨rfl, -⟩ | ⟨rfl, -⟩) <;> simp
  have hlen0 : 0 < (hopStart ip).docs.length := by
    have := congrArg List.length (show (hopStart ip).docs.map Schema.ready = [false] from rfl); simp only [List.length_map, List.length_singleton] at this; omega
  have hlen : 0 < s.docs.length := Nat.lt_of_lt_of_le hlen0 (loadsSome_length hvoc (hop_library ip) hs (hop_reached ip))
  have hr := (loadsSome_keeps hvoc (hop_library ip) hs (hop_reached ip)).2
  have judged : ∀ v, v.NoBraces → (∀ l, Fits w1 voc2 (writtenTo l (k + 1)) v) → ∃ s1 l, LoadsSome ⟨ip, w1, hopFile⟩ s s1 ∧ ∃ g, ∀ h, g ≤ h →
      ((validateS ⟨ip, w1, hopFile⟩ h 0 v s).1 = .ok () ↔ Sat w1 voc2 (writtenTo l (k + 1)) v) ∧ Decides (validateS ⟨ip, w1, hopFile⟩ h 0 v s).1 ∧
      (validateS ⟨ip, w1, hopFile⟩ h 0 v s).2 = s1 := by
    intro v hv hf
    obtain ⟨s1, s2, h1, h2, h3, data, -, -, d3, d6, hj⟩ := C95_judged_partial ⟨ip, w1, hopFile⟩ voc2 hvoc hopLib (hop_library ip) _ hks (by constructor <;> decide) hr hlen v hv
    obtain ⟨-, own⟩ := C70_partial ⟨ip, w1, hopFile⟩ voc2 hvoc hopLib (hop_library ip) .empty (web_name ip) rfl (.inl ⟨rfl, rfl⟩) (by decide) (hop_start ip)
    have hA : dictGet c!"http://x/a" s2.storage = some 0 := by
      have := own s2 (hs.trans (h1.trans h2)) c!"http://x/a" ⟨c!"http", ⟨[], c!"x", []⟩, c!"/a", [], []⟩ 1 (by cbv) (by cbv)
      have e : refDoc ip s2.storage 1 c!"http://x/a" = (dictGet c!"http://x/a" s2.storage).getD 1 := by cbv
      rw [e] at this
      cases h : dictGet c!"http://x/a" s2.storage with
      | none => rw [h] at this; cases this
      | some x => rw [h] at this; cases this; rfl
    have dA : data[0]? = some hopA := by
      obtain ⟨v, hv, ⟨-, rfl⟩ | ⟨h, -⟩⟩ := d3 _ _ hA
      · exact hv
      · exact absurd h (by decide)
    obtain ⟨e, hB⟩ : ∃ e, dictGet c!"http://x/b" s2.storage = some e := by
      have := (d6 0 hopA dA).kids
      simp only [hopA, wrapDict, wrap, LinkedD, Linked] at this
      obtain ⟨t, ht, hkn⟩ := (this.2.1.2.2.1.2.1.ref (by decide)).2
      cases ht
      exact hkn ⟨c!"http", ⟨[], c!"x", []⟩, c!"/b", [], []⟩ c!"http://x/b" (by cbv) (by cbv) (by decide)
    have dB : data[e]? = some hopB := by
      obtain ⟨v, hv, ⟨h, -⟩ | ⟨-, rfl⟩⟩ := d3 _ _ hB
      · exact absurd h (by decide)
      · exact hv
    have rA : ∀ x, refDoc ip s2.storage x c!"http://x/a" = 0 := fun x => by
      have e : refDoc ip s2.storage x c!"http://x/a" = (dictGet c!"http://x/a" s2.storage).getD x := by cbv
      rw [e, hA]; rfl
    have rB : ∀ x, refDoc ip s2.storage x c!"http://x/b" = e := fun x => by
      have e : refDoc ip s2.storage x c!"http://x/b" = (dictGet c!"http://x/b" s2.storage).getD x := by cbv
      rw [e, hB]; rfl
    have pA : refPointer ip c!"http://x/a" = [] := by cbv
    have pB : refPointer ip c!"http://x/b" = [] := by cbv
    have eA : ∀ link, docIn ip link (wrap (.dict hopA)) = ⟨withNext (.ref [(c!"$ref", .str c!"http://x/b")] (link c!"http://x/b") (refPointer ip c!"http://x/b")), []⟩ := fun _ => rfl
    have eB : ∀ link, docIn ip link (wrap (.dict hopB)) = ⟨withNext (.ref [(c!"$ref", .str c!"http://x/a")] (link c!"http://x/a") (refPointer ip c!"http://x/a")), []⟩ := fun _ => rfl
    have D0 : (docsIn ip s2.storage data)[0]? = some ⟨withNext (hopTo c!"http://x/b" e), []⟩ := by
      simp only [docsIn, List.getElem?_mapIdx, dA, Option.map_some, eA, rB, pB, hopTo]
    have De : (docsIn ip s2.storage data)[e]? = some ⟨withNext (hopTo c!"http://x/a" 0), []⟩ := by
      simp only [docsIn, List.getElem?_mapIdx, dB, Option.map_some, eB, rA, pA, hopTo]
    obtain ⟨D, hD, hj⟩ := hj _ rfl
    rw [D0] at hD
    cases hD
    obtain ⟨l, hl⟩ := hop_written D0 De k
    exact ⟨s1, l, h1, hj _ (seen_truthful _ 3) (k + 1) _ hl (hf l)⟩
  obtain ⟨s1, l1, a1, g1, b1⟩ := judged (chain (.dict []) k) (chain_plain _ (by simp [Val.NoBraces, Val.NoBracesD]) k) fun l => fits_chain _ (fun kvs e => by cases e; rfl) k _ (written_depth l k)
  obtain ⟨s2, l2, a2, g2, b2⟩ := judged (chain .null k) (chain_plain _ (by simp [Val.NoBraces]) k) fun l => fits_chain _ (fun kvs e => by cases e) k _ (written_depth l k)
  refine ⟨⟨s1, a1, g1, fun h hh => Prod.ext ((b1 h hh).1.2 (chain_sat k)) (b1 h hh).2.2⟩, s2, a2, g2, fun h hh => ?_⟩
  rcases (b2 h hh).2.1 with e | ⟨e, he⟩
  · obtain ⟨kvs, e⟩ := sat_chain _ k ((b2 h hh).1.1 e)
    cases e
  · exact ⟨e, Prod.ext he (b2 h hh).2.2⟩

/-- Asked for the first, the store makes it; nothing is loaded.  `validate` loads what it needs on its way, and accepts `{"next": {"next": … {}}}` of any length, and rejects those that end
with `null`. -/
theorem C95_hop (ip : Rfc3986.IpRe) (k : Nat) : ∃ s, storeLoad ⟨ip, w1, hopFile⟩ ⟨c!"http", ⟨[], c!"x", []⟩, c!"/a", [], []⟩ voc2 St.empty = (.ok 0, s) ∧ s.docs.map Schema.ready = [false] ∧
    (∃ s1, LoadsSome ⟨ip, w1, hopFile⟩ s s1 ∧ ∃ g, ∀ h, g ≤ h → validateS ⟨ip, w1, hopFile⟩ h 0 (chain (.dict []) k) s = (.ok (), s1)) ∧
    ∃ s1, LoadsSome ⟨ip, w1, hopFile⟩ s s1 ∧ ∃ g, ∀ h, g ≤ h → ∃ e, validateS ⟨ip, w1, hopFile⟩ h 0 (chain .null k) s = (.err (.validation e), s1) :=
  ⟨_, hop_start ip, rfl, hop_any ip k (.nil _)⟩

end Verif.Props
