import Verif.Spec.Remembering
import Verif.Proofs.RememberingTree
import Verif.Props.Validating
import Verif.Props.Memory
/-!
# Property C96: schemas keep their validators, half loaded or loaded, while they and others are loaded
-/

namespace Verif.Props
open Verif Verif.Spec Verif.Obj

/-- What holds of the validators schema `d` keeps in the state `s`: they were made for objects that are loaded, and in every state with these and all schemas loaded they are what calls of
`validate` leave that use the trees. -/
def Fresh (E : Env) (s : St) (d : Nat) (m : Kept) : Prop :=
  KeptIn s m ∧ ∀ t docs (x : Schema) D, Keeps s t → Mirrors t docs → t.docs[d]? = some x → docs[d]? = some D → ∃ tm, Used E.w docs x.vocabulary D.root tm ∧ KeptLike t tm m

theorem Fresh.keep {E : Env} {s t : St} {d : Nat} {m : Kept} (h : Fresh E s d m) (hk : Keeps s t) : Fresh E t d m :=
  ⟨h.1.keep hk, fun u docs x D hu => h.2 u docs x D (hk.trans hu)⟩

theorem Fresh.new (E : Env) (s : St) (d : Nat) : Fresh E s d {} := ⟨⟨[], rfl⟩, fun _ _ _ _ _ _ _ _ => ⟨{}, .new, rfl, [], rfl, rfl⟩⟩

/-- A call with all schemas loaded, and the same call that uses the trees. -/
theorem validateM_memo (E : Env) {s : St} {docs : List Doc} (hm : Mirrors s docs) {d : Nat} {x : Schema} {D : Doc} (hx : s.docs[d]? = some x) (hD : docs[d]? = some D) (v : Val)
    {m : Kept} {tm : Memo} (hk : KeptLike s tm m) :
    (∀ g y s', validateM E g d v m s = (y, s') → y ≠ .timeout → ∃ r m' tm', y = .ok (r, m') ∧ s' = s ∧ Ended E.w docs x.vocabulary D.root tm v r tm' ∧ KeptLike s tm' m') ∧
    ∀ r tm', Ended E.w docs x.vocabulary D.root tm v r tm' → ∃ m' g0, KeptLike s tm' m' ∧ ∀ g, g0 ≤ g → validateM E g d v m s = (.ok (r, m'), s) := by
  have h := validateM_sim hm (E := E) hx hD v hk
  have to : ∀ f, packed (tm.validate E.w docs x.vocabulary f D.root v) ≠ .timeout → ∃ r tm' m' g0, tm.validate E.w docs x.vocabulary f D.root v = (r, tm') ∧ r ≠ .timeout ∧ KeptLike s tm' m' ∧
      ∀ g, g0 ≤ g → validateM E g d v m s = (.ok (r, m'), s) := by
    intro f hf
    rcases e : tm.validate E.w docs x.vocabulary f D.root v with ⟨r, tm'⟩
    have hr : r ≠ .timeout := by
      rintro rfl
      rw [e] at hf
      exact hf rfl
    have ep : packed (tm.validate E.w docs x.vocabulary f D.root v) = .ok (r, tm') := by rw [e]; exact packed_ok hr _
    obtain ⟨g0, hg⟩ := h.to f hf
    have hy := hg g0 (Nat.le_refl _)
    obtain ⟨y, e1, ha⟩ := hy
    rw [ep] at ha
    obtain ⟨⟨r', m'⟩, rfl, h1, h2⟩ := ha.of_ok
    cases (show r = r' from h1)
    exact ⟨r, tm', m', g0, rfl, hr, h2, fun g hle => (validateM_mono E hle d v m s (by rw [e1]; simp)).trans e1⟩
  refine ⟨fun g y s' hc hy => ?_, fun r tm' ⟨hr, f, e⟩ => ?_⟩
  · obtain ⟨f, hf⟩ := h.back g (by change (validateM E g d v m s).1 ≠ _; rw [hc]; exact hy)
    obtain ⟨r, tm', m', g0, e, hr, hkl, hh⟩ := to f hf
    have e1 := validateM_mono E (Nat.le_max_left g g0) d v m s (by rw [hc]; exact hy)
    rw [hh _ (Nat.le_max_right g g0), hc] at e1
    cases e1
    exact ⟨r, m', tm', rfl, rfl, ⟨hr, f, e⟩, hkl⟩
  · obtain ⟨r', tm'', m', g0, e', -, hkl, hh⟩ := to f (by rw [e, packed_ok hr]; simp)
    rw [e] at e'
    cases e'
    exact ⟨m', g0, hkl, hh⟩

section
variable (E : Env) (voc : List Kw) (hvoc : (voc.filter fun k => !k.isAssertion) = [.ref, .anchor, .id]) (lib : Str → List (Str × Val) → Prop)
  (hlib : ∀ k kvs, lib k kvs → WebDoc E.ip E.file lib kvs) (ks : List Str) (hks : ∀ k kvs, lib k kvs → k ∈ ks)
include hvoc hlib hks

theorem fresh_loads {made : List (Nat × List (Str × Val))} {s : St} (h : Reached E voc lib made s) {d : Nat} (hd : d < s.docs.length) (v : Val) {m : Kept} (hm : Fresh E s d m) :
    ∃ s1, LoadsSome E s s1 ∧ Reached E voc lib made s1 ∧ ∃ h0, ∀ h, h0 ≤ h → ∀ s2, Keeps s1 s2 →
      validateM E h d v m s = ((validateM E h d v m s2).1, s1) ∧ (validateM E h d v m s2).2 = s2 ∧ ∀ p, (validateM E h d v m s2).1 = .ok p → KeptIn s1 p.2 :=
  loads_keep hvoc hlib _ (fun s hs => reached_bound hvoc hlib hks hs) (fun h => validateM E h d v m) (fun s p => KeptIn s p.2)
    (fun s f => validateMW s E.w f d v m) s
    (fun s' hs' hl f => by
      obtain ⟨data, A, hh⟩ := reached_holds hvoc hlib hs'
      exact validateM_does hh.web.whole d (Nat.lt_of_lt_of_le hd (loadsSome_length hvoc hlib hl h)) v m (hm.1.keep (loadsSome_keeps hvoc hlib hl h).1)) _ s (Nat.le_refl _) h (.nil s)

/-- After a call that ended the validators are as they have to be. -/
theorem fresh_call {made : List (Nat × List (Str × Val))} {s s' : St} (h : Reached E voc lib made s) {d g : Nat} (hd : d < s.docs.length) {v : Val} {m m' : Kept} {r : Res Unit}
    (hm : Fresh E s d m) (call : validateM E g d v m s = (.ok (r, m'), s')) : LoadsSome E s s' ∧ Reached E voc lib made s' ∧ Fresh E s' d m' := by
  obtain ⟨s1, h1, h2, h0, h3⟩ := fresh_loads E voc hvoc lib hlib ks hks h hd v hm
  have call' : ∀ k, g ≤ k → validateM E k d v m s = (.ok (r, m'), s') := fun k hk => (validateM_mono E hk d v m s (by rw [call]; simp)).trans call
  have at' : ∀ t, Keeps s1 t → validateM E (max g h0) d v m t = (.ok (r, m'), t) ∧ s' = s1 := by
    intro t ht
    obtain ⟨a, b, -⟩ := h3 (max g h0) (by omega) t ht
    rw [call' _ (by omega)] at a
    exact ⟨Prod.ext (Prod.mk.inj a).1.symm b, (Prod.mk.inj a).2⟩
  obtain ⟨e, rfl⟩ := at' s1 (.refl _)
  refine ⟨h1, h2, ?_, fun t docs x D ht hmi hx hD => ?_⟩
  · exact (h3 (max g h0) (by omega) s' (.refl _)).2.2 (r, m') (by rw [e])
  · obtain ⟨tm, hu, hk⟩ := hm.2 t docs x D ((loadsSome_keeps hvoc hlib h1 h).1.trans ht) hmi hx hD
    obtain ⟨r', m'', tm', e1, -, he, hk'⟩ := (validateM_memo E hmi hx hD v hk).1 _ _ _ (at' t ht).1 (by simp)
    cases e1
    exact ⟨tm', .call hu he, hk'⟩

theorem lived_holds {made : List (Nat × List (Str × Val))} {s : St} {keeps : Nat → Kept} (h : Lived E voc lib made s keeps) : Reached E voc lib made s ∧ ∀ d, Fresh E s d (keeps d) := by
  induction h with
  | empty => exact ⟨.empty, fun d => .new E _ d⟩
  | create _ fit call ih => exact ⟨.create ih.1 fit call, fun d => (ih.2 d).keep (create_keeps hvoc hlib ih.1 call)⟩
  | find _ name file fit call ih => exact ⟨.find ih.1 name file fit call, fun d => (ih.2 d).keep (find_keeps hvoc hlib ih.1 name file call)⟩
  | load _ there call ih => exact ⟨.load ih.1 there call, fun d => (ih.2 d).keep (load_keeps hvoc hlib ih.1 there call)⟩
  | @validate _ _ _ _ d _ _ _ _ _ there call ih =>
    obtain ⟨h1, h2, h3⟩ := fresh_call E voc hvoc lib hlib ks hks ih.1 there (ih.2 _) call
    refine ⟨h2, fun e => ?_⟩
    by_cases he : e = d
    · subst he; simp only [if_true]; exact h3
    · simp only [if_neg he]; exact (ih.2 e).keep (loadsSome_keeps hvoc hlib h1 ih.1).1

/-- C96: whatever was validated before, with whatever outcome, and whatever was loaded in between, the objects are those of a program that never validated anything, but loaded the
schemas that were loaded on the way. -/
theorem C96_reached {made : List (Nat × List (Str × Val))} {s : St} {keeps : Nat → Kept} (h : Lived E voc lib made s keeps) : Reached E voc lib made s :=
  (lived_holds E voc hvoc lib hlib ks hks h).1

/-- C96: a call of `validate` that uses the validators the schema kept – from calls before, with any outcomes, between which other schemas were made, found, loaded and used – loads some schemas,
those it needs, and changes no other object.  It ends exactly if a call with new validators ends when these, or these and any others, were loaded before, and with the same outcome: it accepts the value
or raises the same exception. -/
theorem C96_validate {made : List (Nat × List (Str × Val))} {s : St} {keeps : Nat → Kept} (h : Lived E voc lib made s keeps) {d : Nat} (hd : d < s.docs.length) (v : Val) :
    ∃ s1, LoadsSome E s s1 ∧ Reached E voc lib made s1 ∧
      (∀ g y s', validateM E g d v (keeps d) s = (y, s') → y ≠ .timeout → s' = s1 ∧ ∃ r m, y = .ok (r, m) ∧ r ≠ .timeout ∧
        ∀ s2, LoadsSome E s1 s2 → ∃ g0, ∀ g, g0 ≤ g → (validateS E g d v s2).1 = r) ∧
      ∀ s2 g r, LoadsSome E s1 s2 → (validateS E g d v s2).1 = r → r ≠ .timeout → ∃ m g0, ∀ g, g0 ≤ g → validateM E g d v (keeps d) s = (.ok (r, m), s1) := by
  obtain ⟨hr, hf⟩ := lived_holds E voc hvoc lib hlib ks hks h
  obtain ⟨s1, h1, h2, h0, h3⟩ := fresh_loads E voc hvoc lib hlib ks hks hr hd v (hf d)
  have k1 := (loadsSome_keeps hvoc hlib h1 hr).1
  -- a state with everything loaded
  have whole : ∀ s2, LoadsSome E s1 s2 → ∃ t docs x D tm, Keeps s1 t ∧ Mirrors t docs ∧ t.docs[d]? = some x ∧ docs[d]? = some D ∧ Used E.w docs x.vocabulary D.root tm ∧ KeptLike t tm (keeps d) ∧
      ∃ g0, ∀ g, g0 ≤ g → (validateS E g d v s2).1 = (validateS E g d v t).1 := by
    intro s2 hs2
    obtain ⟨k2, r2⟩ := loadsSome_keeps hvoc hlib hs2 h2
    have hd2 := Nat.lt_of_lt_of_le hd (Nat.le_trans (loadsSome_length hvoc hlib h1 hr) (loadsSome_length hvoc hlib hs2 h2))
    obtain ⟨s3, g1, g2, g0, g3⟩ := C95_validate E voc hvoc lib hlib ks hks r2 hd2 v
    obtain ⟨t, t1, t2, t3⟩ := C93_completes E voc hvoc lib hlib ks hks g2
    obtain ⟨data, -, -, -, -, d5⟩ := C93_mirrors E voc hvoc lib hlib t2
    obtain ⟨hm, -⟩ := d5 t3
    have kt : Keeps s1 t := k2.trans ((loadsSome_keeps hvoc hlib g1 r2).1.trans (loadsSome_keeps hvoc hlib t1 g2).1)
    have hdt := Nat.lt_of_lt_of_le hd2 (Nat.le_trans (loadsSome_length hvoc hlib g1 r2) (loadsSome_length hvoc hlib t1 g2))
    have hx : t.docs[d]? = some t.docs[d] := List.getElem?_eq_getElem hdt
    obtain ⟨D, hD⟩ : ∃ D, (docsIn E.ip t.storage data)[d]? = some D := ⟨_, List.getElem?_eq_getElem (by rw [hm.length]; exact hdt)⟩
    obtain ⟨tm, hu, hk⟩ := (hf d).2 t _ _ D (k1.trans kt) hm hx hD
    exact ⟨t, _, _, D, tm, kt, hm, hx, hD, hu, hk, g0, fun g hg => by rw [(g3 g hg t t1).1]⟩
  refine ⟨s1, h1, h2, fun g y s' hc hy => ?_, fun s2 g r hs2 hg hne => ?_⟩
  · have call : ∀ k, g ≤ k → validateM E k d v (keeps d) s = (y, s') := fun k hk => (validateM_mono E hk d v (keeps d) s (by rw [hc]; exact hy)).trans hc
    have e1 := (h3 (max g h0) (by omega) s1 (.refl _)).1
    rw [call _ (by omega)] at e1
    refine ⟨(Prod.mk.inj e1).2, ?_⟩
    have key : ∀ s2, LoadsSome E s1 s2 → ∃ r m, y = .ok (r, m) ∧ r ≠ .timeout ∧ ∃ g0, ∀ g, g0 ≤ g → (validateS E g d v s2).1 = r := by
      intro s2 hs2
      obtain ⟨t, docs, x, D, tm, kt, hm, hx, hD, hu, hk, g0, hg⟩ := whole s2 hs2
      obtain ⟨a, b, -⟩ := h3 (max g h0) (by omega) t kt
      rw [call _ (by omega)] at a
      obtain ⟨r, m, tm', e, -, he, -⟩ := (validateM_memo E hm hx hD v hk).1 (max g h0) y t (Prod.ext (Prod.mk.inj a).1.symm b) hy
      obtain ⟨hne, f, hf⟩ := (C31_agrees hu v r).1 ⟨tm', he⟩
      obtain ⟨k0, hk0⟩ := (C95_trees E hm hx hD v).2 f (by rw [hf]; exact hne)
      refine ⟨r, m, e, hne, max g0 k0, fun g hle => ?_⟩
      rw [hg g (by omega), hk0 g (by omega), hf]
    obtain ⟨r, m, rfl, hne, -⟩ := key s1 (.nil _)
    refine ⟨r, m, rfl, hne, fun s2 hs2 => ?_⟩
    obtain ⟨r', m', e, -, hh⟩ := key s2 hs2
    cases e
    exact hh
  · obtain ⟨t, docs, x, D, tm, kt, hm, hx, hD, hu, hk, g0, hgt⟩ := whole s2 hs2
    have e1 : (validateS E (max g g0) d v t).1 = r := by
      rw [← hgt _ (by omega), validateS_mono E (Nat.le_max_left g g0) d v s2 (by rw [hg]; exact hne), hg]
    obtain ⟨f, hf⟩ := (C95_trees E hm hx hD v).1.1 ⟨max g g0, by rw [e1]; exact hne⟩
    obtain ⟨k0, hk0⟩ := (C95_trees E hm hx hD v).2 f hf
    have e2 : schemaValidate E.w docs x.vocabulary f D.root v = r := by
      have := hk0 (max k0 (max g g0)) (by omega)
      rw [validateS_mono E (Nat.le_max_right k0 (max g g0)) d v t (by rw [e1]; exact hne)] at this
      rw [← e1, this]
    obtain ⟨tm', he⟩ := (C31_agrees hu v r).2 ⟨hne, f, e2⟩
    obtain ⟨m, m0, -, hm0⟩ := (validateM_memo E hm hx hD v hk).2 r tm' he
    refine ⟨m, max m0 h0, fun g hle => ?_⟩
    rw [(h3 g (by omega) t kt).1, hm0 g (by omega)]

/-- C96: so schemas judge values as JSON Schema says of the data (C95), however often and for whatever values they were used before.  What `Fits` leaves out is listed at `C36_judged_partial`. -/
theorem C96_judged_partial (hp : VocPaired voc) {made : List (Nat × List (Str × Val))} {s : St} {keeps : Nat → Kept} (h : Lived E voc lib made s keeps) {d : Nat} (hd : d < s.docs.length) (v : Val)
    (hv : v.NoBraces) :
    ∃ s1 s2, LoadsSome E s s1 ∧ LoadsSome E s1 s2 ∧ (∀ x ∈ s2.docs, x.ready = true) ∧ ∃ data : List (List (Str × Val)),
      (∀ d kvs, (d, kvs) ∈ made → data[d]? = some kvs) ∧ (∀ d kvs, data[d]? = some kvs → (d, kvs) ∈ made ∨ ∃ k, dictGet k s2.storage = some d ∧ lib k kvs) ∧
      (∀ k e, dictGet k s2.storage = some e → ∃ kvs, data[e]? = some kvs ∧ lib k kvs) ∧
      (∀ (d : Nat) kvs, data[d]? = some kvs → LinkedRoot E.ip (Known E.ip s2.storage) (wrapDict kvs)) ∧
      ∀ docs, docs = docsIn E.ip s2.storage data → ∃ D, docs[d]? = some D ∧
      ∀ see, Truthful docs see → ∀ k items, unfold see k D.root = .obj items → Fits E.w voc (.obj items) v →
        ∃ r m g0, (∀ g, g0 ≤ g → validateM E g d v (keeps d) s = (.ok (r, m), s1)) ∧ (r = .ok () ↔ Sat E.w voc (.obj items) v) ∧ Decides r := by
  obtain ⟨s1, h1, h2, -, h4⟩ := C96_validate E voc hvoc lib hlib ks hks h hd v
  have hd1 := Nat.lt_of_lt_of_le hd (loadsSome_length hvoc hlib h1 (C96_reached E voc hvoc lib hlib ks hks h))
  obtain ⟨s', s2, a1, a2, a3, data, b1, b2, b3, b4, b5⟩ := C95_judged_partial E voc hvoc lib hlib ks hks hp h2 hd1 v hv
  refine ⟨s1, s2, h1, a1.trans a2, a3, data, b1, b2, b3, b4, fun docs hdocs => ?_⟩
  obtain ⟨D, hD, hj⟩ := b5 docs hdocs
  refine ⟨D, hD, fun see hsee k items hu hf => ?_⟩
  obtain ⟨g, hg⟩ := hj see hsee k items hu hf
  obtain ⟨c1, c2, -⟩ := hg g (Nat.le_refl _)
  obtain ⟨m, g0, hm⟩ := h4 s1 g _ (.nil _) rfl (by rcases c2 with e | ⟨e, he⟩ <;> simp [*])
  exact ⟨_, m, g0, hm, c1, c2⟩

end

/-! ## The two documents of C95, used three times -/

/-- The store makes the first document; nothing is loaded.  The first call rejects `{"next": … null}`; what it leaves is used by the next, which accepts `{"next": … {}}`, and what this
leaves is used by the third, which rejects again – for all lengths. -/
theorem C96_hop (ip : Rfc3986.IpRe) (i j k : Nat) : ∃ s, storeLoad ⟨ip, w1, hopFile⟩ ⟨c!"http", ⟨[], c!"x", []⟩, c!"/a", [], []⟩ voc2 St.empty = (.ok 0, s) ∧
    s.docs.map Schema.ready = [false] ∧ ∃ e1 m1 s1 m2 s2 e3 m3 s3 g0, ∀ g, g0 ≤ g →
      validateM ⟨ip, w1, hopFile⟩ g 0 (chain .null i) {} s = (.ok (.err (.validation e1), m1), s1) ∧
      validateM ⟨ip, w1, hopFile⟩ g 0 (chain (.dict []) j) m1 s1 = (.ok (.ok (), m2), s2) ∧
      validateM ⟨ip, w1, hopFile⟩ g 0 (chain .null k) m2 s2 = (.ok (.err (.validation e3), m3), s3) := by
  have hvoc : (voc2.filter fun k => !k.isAssertion) = [.ref, .anchor, .id] := by decide
  have hks : ∀ k kvs, hopLib k kvs → k ∈ [c!"http://x/a", c!"http://x/b"] := by rintro k kvs (⟨rfl, -⟩ | ⟨rfl, -⟩) <;> simp
  have hready : (hopStart ip).docs.map Schema.ready = [false] := rfl
  have hlen : 0 < (hopStart ip).docs.length := by have := congrArg List.length hready; simp only [List.length_map, List.length_singleton] at this; omega
  have len : ∀ s, LoadsSome ⟨ip, w1, hopFile⟩ (hopStart ip) s → 0 < s.docs.length := fun s hs => Nat.lt_of_lt_of_le hlen (loadsSome_length hvoc (hop_library ip) hs (hop_reached ip))
  have step : ∀ {s : St} {keeps : Nat → Kept} (v : Val) (r : Res Unit), LoadsSome ⟨ip, w1, hopFile⟩ (hopStart ip) s → Lived ⟨ip, w1, hopFile⟩ voc2 hopLib [] s keeps → r ≠ .timeout →
      (∀ s, LoadsSome ⟨ip, w1, hopFile⟩ (hopStart ip) s → ∃ g, Decides (validateS ⟨ip, w1, hopFile⟩ g 0 v s).1 ∧ ((validateS ⟨ip, w1, hopFile⟩ g 0 v s).1 = .ok () ↔ r = .ok ())) →
      ∃ r' m s', Decides r' ∧ (r' = .ok () ↔ r = .ok ()) ∧ LoadsSome ⟨ip, w1, hopFile⟩ (hopStart ip) s' ∧ Lived ⟨ip, w1, hopFile⟩ voc2 hopLib [] s' (fun e => if e = 0 then m else keeps e) ∧
        ∃ g0, ∀ g, g0 ≤ g → validateM ⟨ip, w1, hopFile⟩ g 0 v (keeps 0) s = (.ok (r', m), s') := by
    intro s keeps v r hs hl hr hj
    obtain ⟨s1, h1, -, -, h4⟩ := C96_validate ⟨ip, w1, hopFile⟩ voc2 hvoc hopLib (hop_library ip) _ hks hl (len s hs) v
    obtain ⟨g, hd, hok⟩ := hj s1 (hs.trans h1)
    obtain ⟨m, g0, hm⟩ := h4 s1 g _ (.nil _) rfl (by rcases hd with e | ⟨e, he⟩ <;> simp [*])
    exact ⟨_, m, s1, hd, hok, hs.trans h1, .validate hl (len s hs) (hm g0 (Nat.le_refl _)), g0, hm⟩
  have good : ∀ j s, LoadsSome ⟨ip, w1, hopFile⟩ (hopStart ip) s →
      ∃ g, Decides (validateS ⟨ip, w1, hopFile⟩ g 0 (chain (.dict []) j) s).1 ∧ ((validateS ⟨ip, w1, hopFile⟩ g 0 (chain (.dict []) j) s).1 = .ok () ↔ (Res.ok () : Res Unit) = .ok ()) := by
    intro j s hs
    obtain ⟨⟨s1, -, g, hg⟩, -⟩ := hop_any ip j hs
    have e := congrArg Prod.fst (hg g (Nat.le_refl _))
    exact ⟨g, .inl e, by simp [e]⟩
  have bad : ∀ j s, LoadsSome ⟨ip, w1, hopFile⟩ (hopStart ip) s →
      ∃ g, Decides (validateS ⟨ip, w1, hopFile⟩ g 0 (chain .null j) s).1 ∧ ((validateS ⟨ip, w1, hopFile⟩ g 0 (chain .null j) s).1 = .ok () ↔ (Res.err .keyError : Res Unit) = .ok ()) := by
    intro j s hs
    obtain ⟨-, s1, -, g, hg⟩ := hop_any ip j hs
    obtain ⟨e, he⟩ := hg g (Nat.le_refl _)
    have e := congrArg Prod.fst he
    exact ⟨g, .inr ⟨_, e⟩, by simp [e]⟩
  have start : Lived ⟨ip, w1, hopFile⟩ voc2 hopLib [] (hopStart ip) fun _ => {} := .find .empty (web_name ip) rfl (.inl ⟨rfl, rfl⟩) (hop_start ip)
  obtain ⟨r1, m1, s1, d1, o1, l1, v1, g1, c1⟩ := step (chain .null i) (.err .keyError) (.nil _) start (by simp) (bad i)
  obtain ⟨r2, m2, s2, d2, o2, l2, v2, g2, c2⟩ := step (chain (.dict []) j) (.ok ()) l1 v1 (by simp) (good j)
  obtain ⟨r3, m3, s3, d3, o3, l3, v3, g3, c3⟩ := step (chain .null k) (.err .keyError) l2 v2 (by simp) (bad k)
  obtain ⟨e1, rfl⟩ : ∃ e, r1 = .err (.validation e) := d1.resolve_left fun e => by simpa using o1.1 e
  obtain rfl := o2.2 rfl
  obtain ⟨e3, rfl⟩ : ∃ e, r3 = .err (.validation e) := d3.resolve_left fun e => by simpa using o3.1 e
  exact ⟨_, hop_start ip, hready, e1, m1, s1, m2, s2, e3, m3, s3, max g1 (max g2 g3), fun g hg => ⟨c1 g (by omega), c2 g (by omega), c3 g (by omega)⟩⟩

end Verif.Props
