import Verif.Proofs.EmbeddedRead
import Verif.Props.Linked
/-!
# Property C71: objects with an identifier, where it holds
-/

namespace Verif.Props
open Verif Verif.Spec Verif.Obj

/-- What is read: the object has the identifier, no `$ref` in it outside arrays, and the pointer leads in its data to `x`. -/
def Wanted (ip : Rfc3986.IpRe) (q : Embed) (u : Uri) (ptr : List Str) (x : Node) : Prop :=
  Store.baseText ip u = .ok q.key ∧ Without [c!"$ref"] (.obj q.its) ∧ ptr ≠ [[]] ∧ Reach (unanchored (.obj q.its)) ptr x

/-- C71, where it holds: a document may have objects with identifiers at any depth outside arrays, in full absolute and all different.  It loads.  The objects with
identifiers are then at their places in the document.  In any order, and any number of times, what is in them is read through their identifiers, if there is no `$ref`
in them: the very objects of the document around them are found, and they show the data (`$anchor` is gone).  And each identifier keeps naming its object.
What is missing: objects with `$ref` in them (`C71_violated`), and it is not the same *schema* that has the identifier (`C71_renamed_violated`). -/
theorem C71_reads_partial (E : Env) {voc voc' : List Kw} (hvoc : (voc.filter fun k => !k.isAssertion) = [.ref, .anchor, .id]) {s : St}
    (hst : ∀ (t : Str) (e : Nat), dictGet t s.storage = some e → ∃ x, s.docs[e]? = some x ∧ x.ready = false)
    {kvs : List (Str × Val)} (hf : (wrap (.dict kvs)).RefFree) (hl : NamedRoot E.ip (wrapDict kvs))
    {es : List Embed} (hes : es = embedsD E.ip (nameText (wrapDict kvs)) (wrapDict kvs) []) (hk : (es.map Embed.key).Nodup) :
    ∃ s1 s2 is, newDocument (.dict kvs) voc s = (.ok s.docs.length, s1) ∧ Runs (fun f => (ops E f).load s.docs.length) s1 (.ok ()) s2 ∧
      All2 (fun q i => path s2.mem i = .ok q.path ∧ root s2.mem i = .ok s.mem.length) es is ∧
      ∀ (reads : List (Uri × List Str)), (∀ r ∈ reads, ∃ q ∈ es, ∃ x, Wanted E.ip q r.1 r.2 x) →
        ∃ js s3, Runs (fun f => readAll E f voc' reads) s2 (.ok js) s3 ∧ s3.mem = s2.mem ∧
          All2 (fun r j => ∀ q i x, (q, i) ∈ es.zip is → Wanted E.ip q r.1 r.2 x → Steps s2.mem i r.2 j ∧ Shows s2.mem x j) reads js ∧
          ∀ q i, (q, i) ∈ es.zip is → ∃ e y, dictGet q.key s3.storage = some e ∧ s3.docs[e]? = some y ∧ y.value = i := by
  subst hes
  obtain ⟨ext, ht, e⟩ := newDocument_spec (.inr ⟨kvs, rfl⟩) voc s
  obtain ⟨hi, r, L, s2, x, K, h1, -, h2, h3, h4, h5, h6, h7, h8, h9, h10⟩ := load_named (E := E) hvoc hst e hl
  have h11 := h10
  rw [wrap, Done] at h10
  obtain ⟨ids, L1, L2, -, hd, hc, -⟩ := h10
  have hup : Up s2.mem s.mem.length [] s.mem.length := Up.top hc rfl
  rw [wrap, Node.RefFree] at hf
  generalize hall : embedsAtD E.ip (nameText (wrapDict kvs)) (wrapDict kvs) [] (s.mem.length + 1) = all at h9
  have hfst : all.map Prod.fst = embedsD E.ip (nameText (wrapDict kvs)) (wrapDict kvs) [] := by rw [← hall]; exact embedsAtD_fst ..
  rw [← hfst] at hk ⊢
  have placed : ∀ z ∈ all, Placed E hi s.docs.length (kvs.map Prod.fst) s2.mem s.mem.length (nameText (wrapDict kvs)) z.1 z.2 ∧
      ∀ x ∈ embedsAt E.ip (nameText (wrapDict kvs)) (.obj z.1.its) z.1.path z.2, x ∈ all := by
    intro z hz
    rw [← hall] at hz ⊢
    exact hd.embedded hup (Nat.le_refl _) (by omega) hl.kids hf.2 hz
  have inj : ∀ z ∈ all, ∀ z' ∈ all, z.1.key = z'.1.key → z = z' := by
    clear placed hall hfst h9
    induction all with
    | nil => intro z hz; simp at hz
    | cons a all ih =>
      simp only [List.map_cons, List.nodup_cons] at hk
      intro z hz z' hz' hk'
      rw [List.mem_cons] at hz hz'
      rcases hz with rfl | hz <;> rcases hz' with rfl | hz'
      · rfl
      · exact absurd (List.mem_map.2 ⟨_, List.mem_map.2 ⟨_, hz', rfl⟩, hk'.symm⟩) hk.1
      · exact absurd (List.mem_map.2 ⟨_, List.mem_map.2 ⟨_, hz, rfl⟩, hk'⟩) hk.1
      · exact ih hk.2 z hz z' hz' hk'
  have hbase : BaseAt s2.mem s.mem.length (nameText (wrapDict kvs)) := by
    refine ⟨_, _, hc, rfl, fun b hb => ?_⟩
    have hg : dictGet (nameKey (wrapDict kvs)) (wrapDict kvs) = some (.str b) := by
      unfold nameText at hb
      split at hb
      · next h => cases hb; exact h
      · cases hb
    obtain ⟨j, mid, r', L', g1, -, -, g4⟩ := hd.get hg
    obtain ⟨g5, -⟩ := g4.str
    have hne : nameKey (wrapDict kvs) ≠ c!"$anchor" := by unfold nameKey; split <;> decide
    have hkk : ∀ ids' : List (Str × Nat), (∀ k, k ≠ c!"$anchor" → (k ∈ ids'.map Prod.fst ↔ k ∈ ids.map Prod.fst)) → nameKey ids' = nameKey (wrapDict kvs) := by
      intro ids' h
      have : dictHas c!"$id" ids' = dictHas c!"$id" (wrapDict kvs) := by rw [Bool.eq_iff_iff, dictHas_iff, dictHas_iff, h _ (by decide), hd.keys]
      unfold nameKey; rw [this]
    refine ⟨r', _, _, ?_, g5⟩
    split
    · rw [hkk _ fun _ _ => Iff.rfl]; exact g1
    · rw [hkk _ fun k h => mem_del h _, get_del hne]; exact g1
  have hnames : Names voc s2.mem all s2 := by
    refine ⟨rfl, fun z hz => ?_⟩
    rcases register_cases z.1.key K (s.docs.length + 1) s.storage with ⟨t, y, a1, a2⟩ | ⟨a1, -⟩
    · obtain ⟨z', hz', e', v, hv⟩ := h9.at a1
      have := inj _ hz' _ hz e'
      subst this
      simp only at hv
      subst hv
      refine ⟨_, kid z'.2 voc v, by rw [h7]; exact named_keeps a2 _ _, ?_, rfl, rfl, rfl⟩
      rw [h2, List.getElem?_append_right (by omega), show s.docs.length + 1 + t - s.docs.length = t + 1 by omega]
      simp [a1]
    · obtain ⟨b, hb, e', -⟩ := h9.of hz
      exact absurd (List.mem_map.2 ⟨b, hb, e'.symm⟩) a1
  have hzip : ∀ q i, (q, i) ∈ (all.map Prod.fst).zip (all.map Prod.snd) → (q, i) ∈ all := by
    intro q i h
    rw [List.zip_map'] at h
    simpa using h
  refine ⟨_, s2, all.map Prod.snd, e, h1, ?_, ?_⟩
  · have : ∀ l : List (Embed × Nat), (∀ z ∈ l, z ∈ all) →
        All2 (fun q i => path s2.mem i = .ok q.path ∧ root s2.mem i = .ok s.mem.length) (l.map Prod.fst) (l.map Prod.snd) := by
      intro l
      induction l with
      | nil => intro _; exact .nil
      | cons z l ih =>
        intro h
        have hp := (placed z (h z (by simp))).1
        exact .cons ⟨hp.up.path, hp.up.root⟩ (ih fun z hz => h z (by simp [hz]))
    exact this all fun z hz => hz
  · have go : ∀ (reads : List (Uri × List Str)) (s' : St), Names voc s2.mem all s' → (∀ r ∈ reads, ∃ q ∈ all.map Prod.fst, ∃ x, Wanted E.ip q r.1 r.2 x) →
        ∃ js s3, Runs (fun f => readAll E f voc' reads) s' (.ok js) s3 ∧ Names voc s2.mem all s3 ∧
          All2 (fun r j => ∀ q i x, (q, i) ∈ (all.map Prod.fst).zip (all.map Prod.snd) → Wanted E.ip q r.1 r.2 x → Steps s2.mem i r.2 j ∧ Shows s2.mem x j) reads js := by
      intro reads
      induction reads with
      | nil => intro s' hn _; exact ⟨[], s', .pure, hn, .nil⟩
      | cons r reads ih =>
        intro s' hn hr
        obtain ⟨q, hq, x, w1, w2, w3, w4⟩ := hr r (by simp)
        obtain ⟨z, hz, rfl⟩ := List.mem_map.1 hq
        obtain ⟨j, s4, b1, b2, -, -⟩ := read_again (voc' := voc') hvoc inj hbase hn hz (placed z hz).1 (placed z hz).2 w2 w1 w3 w4
        obtain ⟨js, s3, c1, c2, c3⟩ := ih s4 b2 fun r hr' => hr r (by simp [hr'])
        refine ⟨j :: js, s3, Runs.bind b1 (Runs.bind c1 .pure), c2, .cons (fun q' i' x' hz' hw' => ?_) c3⟩
        obtain ⟨v1, v2, v3, v4⟩ := hw'
        have hz' := hzip _ _ hz'
        obtain ⟨j', s4', d1, -, d3, d4⟩ := read_again (voc' := voc') hvoc inj hbase hn hz' (placed _ hz').1 (placed _ hz').2 v2 v1 v3 v4
        have := Runs.det b1 d1
        obtain ⟨e1, -⟩ := this
        cases e1
        exact ⟨d3, d4⟩
    intro reads hr
    obtain ⟨js, s3, a1, a2, a3⟩ := go reads s2 hnames hr
    refine ⟨js, s3, a1, a2.mem, a3, fun q i hz => ?_⟩
    obtain ⟨e, y, b1, b2, b3, -⟩ := a2.has _ (hzip _ _ hz)
    exact ⟨e, y, b1, b2, b3⟩

/-- A document with two objects with identifiers, one in the other, and an anchor and a reference elsewhere. -/
def nested : List (Str × Val) :=
  [(c!"$id", .str c!"http://a/"),
   (c!"p", .dict [(c!"$id", .str c!"b"), (c!"q", .dict [(c!"$id", .str c!"http://c/d"), (c!"$anchor", .str c!"e"), (c!"x", .list [.bool true])])]),
   (c!"r", .dict [(c!"$ref", .str c!"#/p")])]

/-- It meets the hypotheses of `C71_reads_partial`, and there is something to read in both objects. -/
theorem nested_case (ip : Rfc3986.IpRe) : (wrap (.dict nested)).RefFree ∧ NamedRoot ip (wrapDict nested) ∧
    (embedsD ip (nameText (wrapDict nested)) (wrapDict nested) []).map (fun q => (q.key, q.path)) =
      [(c!"http://c/d", [c!"p", c!"q"]), (c!"http://a/b", [c!"p"])] ∧
    ∃ q ∈ embedsD ip (nameText (wrapDict nested)) (wrapDict nested) [], ∃ u, Uri.parse ip c!"http://a/b" = .ok u ∧
      Wanted ip q u [c!"q", c!"x", c!"0"] (.bool true) := by
  have hb : nameText (wrapDict nested) = some c!"http://a/" := by decide
  have e1 : fullName ip (some c!"http://a/") c!"b" = some c!"http://a/b" := by cbv
  have e2 : fullName ip (some c!"http://a/") c!"http://c/d" = some c!"http://c/d" := by cbv
  have e3 : embedsD ip (nameText (wrapDict nested)) (wrapDict nested) [] =
      [⟨c!"http://c/d", [c!"p", c!"q"], [(c!"$id", .str c!"http://c/d"), (c!"$anchor", .str c!"e"), (c!"x", .arr [.bool true])]⟩,
       ⟨c!"http://a/b", [c!"p"], [(c!"$id", .str c!"b"), (c!"q", .obj [(c!"$id", .str c!"http://c/d"), (c!"$anchor", .str c!"e"), (c!"x", .arr [.bool true])])]⟩] := by cbv
  refine ⟨?_, ⟨?_, ?_, .inr ⟨by decide, _, rfl, ?_⟩⟩, by rw [e3]; rfl, ?_⟩
  · simp [nested, wrap, wrapDict, wrapList, Node.RefFree, Node.RefFreeD, Node.RefFreeL]
  · rw [hb]
    simp only [nested, wrap, wrapDict, wrapList, NamedDocD, NamedDoc, and_true, true_and, List.nil_append, List.cons_append]
    refine ⟨⟨⟨?_, .inr ⟨by decide, c!"b", rfl, ?_⟩⟩, ⟨?_, .inr ⟨by decide, c!"http://c/d", rfl, ?_⟩⟩⟩, ?_, .inl ⟨by decide, by decide⟩⟩
    · exact ⟨fun h => absurd h (by decide), fun h => absurd h (by decide)⟩
    · rw [NameOk, if_neg (by decide)]; exact ⟨_, e1⟩
    · exact ⟨fun h => absurd h (by decide), fun _ => ⟨_, rfl⟩⟩
    · rw [NameOk, if_neg (by decide)]; exact ⟨_, e2⟩
    · refine ⟨fun _ => ⟨by decide, _, rfl, ?_⟩, fun h => absurd h (by decide)⟩
      obtain ⟨u, b, h⟩ := local_fragment ip (fr := c!"/p") (ptr := [c!"p"]) (by decide) rfl
      exact ⟨u, b, _, h⟩
  · exact ⟨fun h => absurd h (by decide), fun h => absurd h (by decide)⟩
  · exact ⟨⟨c!"http", ⟨[], c!"a", []⟩, c!"/", [], []⟩, by cbv, rfl, by cbv⟩
  · rw [e3]
    refine ⟨_, .tail _ (.head _), ⟨c!"http", ⟨[], c!"a", []⟩, c!"/b", [], []⟩, by cbv, by cbv, ?_, by decide, ?_⟩
    · simp [Without, WithoutD]
    · refine .member (x := .obj [(c!"$id", .str c!"http://c/d"), (c!"x", .arr [.bool true])]) rfl (.member (x := .arr [.bool true]) rfl
        (.elem (t := 0) rfl (by decide) (.here _)))

end Verif.Props
