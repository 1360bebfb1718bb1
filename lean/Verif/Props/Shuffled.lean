import Verif.Proofs.Shuffled
import Verif.Proofs.Complaint
import Verif.Props.Reordered
/-!
# C99: the order of the members of a schema

`Shuffled` of Spec/Shuffled.lean: the same schema, with the members of the objects in it in another order.
-/

namespace Verif.Props
open Verif Spec

/-- A set of schema nodes, closed under subschemas, that use no keyword of the vocabulary that catches errors, name plain members in `required` and
`dependentRequired`, and, unless comparisons may break, list in `enum` nothing that can be written in two orders. -/
def Orderless (p : Prop) (docs : List Doc) (voc : List Kw) (G : Node → Prop) : Prop :=
  ∀ n, G n → ∀ f items, view docs f n = .ok (.obj items) →
    (∀ k ∈ catching, k ∈ voc → dictHas k.key items = false) ∧ NamesPlain voc (view docs f) items ∧
    (p ∨ (.enum ∈ voc → ∀ xs, dictGet c!"enum" items = some (.arr xs) → ∀ x ∈ xs, Rigid x)) ∧
    ∀ m, Offered (view docs f) items m → G m

theorem view_steady (docs : List Doc) (f : Nat) (n m : Node) (h : view docs f n = .ok m) : m.isRef = false ∧ (n.isRef = false → m = n) := by
  constructor
  · cases m with
    | ref a b c => exact absurd rfl (Obj.view_not_ref h a b c)
    | _ => rfl
  · intro hn
    cases f with
    | zero => cases h
    | succ f => cases n <;> first | (cases h; rfl) | cases hn

theorem shuffled_mono {p : Prop} (w : World) (hw : RefsPrinted w) {docs docs' : List Doc} (hd : ShuffledDocs docs docs') {voc : List Kw} {G : Node → Prop}
    (hG : Orderless p docs voc G) (f : Nat) : ∀ n n' v ctx, G n → Shuffled n n' → validateN w docs voc f n v ctx = .ok () →
      Comes p (validateN w docs' voc f n' v ctx) () := by
  induction f with
  | zero => intro n n' v ctx _ _ h; cases h
  | succ f ih =>
    intro n n' v ctx hn hs h
    rw [validateN] at h ⊢
    obtain ⟨m, hm, h⟩ := Res.bind_eq_ok.1 h
    obtain ⟨m', hm', hmm⟩ := view_shuffled hd f n n' hs m hm
    rw [hm', Res.ok_bind]
    have hmm0 := hmm
    cases hmm with
    | bool => exact .inl h
    | obj ha hb hk hx =>
      obtain ⟨hc, hp, he, ho⟩ := hG n hn f _ hm
      simp only at h ⊢
      have calm := loadAll_calm w (view docs f) _ voc hc [] (by simp)
      have subs := loadAll_all w (view docs f) id _ (P := G) (fun n hn => ho n hn) voc [] (by simp [Data.All])
      generalize e : loadAll w (view docs f) id _ voc [] = L at h calm subs
      obtain ⟨d, r⟩ := L
      cases r with
      | ok u =>
        obtain ⟨d', e', hr⟩ := loadAll_shuffled hw (view_shuffled hd f) (view_steady docs f) (.of ha hb hk hx) hp voc (fun _ h => h) .nil e
        rw [e']
        simp only at h calm subs ⊢
        refine runAll_comes (P := G) (fun a a' v c ha hr h => ih a a' v c ha hr h) w f hr calm subs ?_ v ctx h
        refine he.imp id fun he k vals hm => ?_
        obtain ⟨h1, h2⟩ := (loaded_from e).origin k _ hm
        exact he h1 vals h2
      | err e => cases h
      | timeout => cases h
    | null | num | str => exact .inl h
    | arr | ref =>
      simp only at h ⊢
      rw [← loadNonObject_shuffled hmm0]
      exact .inl h

/-- C99, one way: a value accepted under one order of the members of the schemas is accepted under any other, unless a comparison with a member of `enum` breaks. -/
theorem C99_region_partial {p : Prop} (w : World) (hw : RefsPrinted w) {docs docs' : List Doc} (hd : ShuffledDocs docs docs') (voc : List Kw) {G : Node → Prop}
    (hG : Orderless p docs voc G) (f : Nat) {n n' : Node} (hn : G n) (hs : Shuffled n n') (v : Val) (ctx : Ctx) (h : validateN w docs voc f n v ctx = .ok ()) :
    validateN w docs' voc f n' v ctx = .ok () ∨ p ∧ Breaks (validateN w docs' voc f n' v ctx) :=
  shuffled_mono w hw hd hG f n n' v ctx hn hs h

/-- C99 for whole schemas. -/
theorem C99_schema_partial {p : Prop} (w : World) (hw : RefsPrinted w) {docs docs' : List Doc} (hd : ShuffledDocs docs docs') (voc : List Kw) {G : Node → Prop}
    (hG : Orderless p docs voc G) (f : Nat) {root root' : Node} (hn : G root) (hs : Shuffled root root') (v : Val)
    (h : schemaValidate w docs voc f root v = .ok ()) :
    schemaValidate w docs' voc f root' v = .ok () ∨ p ∧ Breaks (schemaValidate w docs' voc f root' v) := by
  unfold schemaValidate at h ⊢
  obtain ⟨m, hm, h⟩ := Res.bind_eq_ok.1 h
  obtain ⟨m', hm', hmm⟩ := view_shuffled hd f root root' hs m hm
  rw [hm', Res.ok_bind]
  cases hmm with
  | obj => exact C99_region_partial w hw hd voc hG f hn hs v [] h
  | _ => exact .inl rfl

/-- C99 in full for vocabularies without `enum`, without the keywords that catch errors, and without `required` and `dependentRequired`. -/
theorem C99_vocabulary_partial (w : World) (hw : RefsPrinted w) {docs docs' : List Doc} (hd : ShuffledDocs docs docs') (voc : List Kw)
    (hc : ∀ k ∈ .enum :: .required :: .dependentRequired :: catching, k ∉ voc) (f : Nat) {root root' : Node} (hs : Shuffled root root') (v : Val) :
    schemaValidate w docs voc f root v = .ok () ↔ schemaValidate w docs' voc f root' v = .ok () := by
  have go : ∀ {docs docs' : List Doc} {root root' : Node}, ShuffledDocs docs docs' → Shuffled root root' → schemaValidate w docs voc f root v = .ok () →
      schemaValidate w docs' voc f root' v = .ok () := by
    intro docs docs' root root' hd hs h
    have hG : Orderless False docs voc fun _ => True := fun _ _ f items _ =>
      ⟨fun k hk hm => absurd hm (hc k (by simp [hk])), ⟨fun hm => absurd hm (hc _ (by simp)), fun hm => absurd hm (hc _ (by simp))⟩,
        .inr fun hm => absurd hm (hc _ (by simp)), fun _ _ => trivial⟩
    exact (C99_schema_partial w hw hd voc hG f trivial hs v h).resolve_right fun h => h.1
  exact ⟨go hd hs, go hd.flip hs.flip⟩

/-- C99 for the library as it ships: what one order of the members of the schemas accepts, another accepts, or it raises `TypeError` in comparing the value with
a member of `enum` (`unmodelled`: if a member of `enum` is a reference). -/
theorem C99_shipped_partial (w : World) (hw : RefsPrinted w) {docs docs' : List Doc} (hd : ShuffledDocs docs docs') (f : Nat) {root root' : Node}
    (hs : Shuffled root root') (v : Val) (h : schemaValidate w docs draft2020Vocabulary f root v = .ok ()) :
    schemaValidate w docs' draft2020Vocabulary f root' v = .ok () ∨ schemaValidate w docs' draft2020Vocabulary f root' v = .err .typeError ∨
      schemaValidate w docs' draft2020Vocabulary f root' v = .err .unmodelled := by
  have hG : Orderless True docs draft2020Vocabulary fun _ => True := fun _ _ f items _ =>
    ⟨fun k hk hm => absurd hm (by revert k; decide), ⟨fun hm => absurd hm (by decide), fun hm => absurd hm (by decide)⟩, .inl trivial, fun _ _ => trivial⟩
  exact (C99_schema_partial w hw hd draft2020Vocabulary hG f trivial hs v h).imp id fun h => h.2

/-- C99 in full for schemas that keep to the conditions in both orders; in particular `enum` may list scalars. -/
theorem C99_both_partial (w : World) (hw : RefsPrinted w) {docs docs' : List Doc} (hd : ShuffledDocs docs docs') (voc : List Kw) {G G' : Node → Prop}
    (hG : Orderless False docs voc G) (hG' : Orderless False docs' voc G') (f : Nat) {root root' : Node} (hn : G root) (hn' : G' root')
    (hs : Shuffled root root') (v : Val) : schemaValidate w docs voc f root v = .ok () ↔ schemaValidate w docs' voc f root' v = .ok () :=
  ⟨fun h => (C99_schema_partial w hw hd voc hG f hn hs v h).resolve_right fun h => h.1,
    fun h => (C99_schema_partial w hw hd.flip voc hG' f hn' hs.flip v h).resolve_right fun h => h.1⟩

/-- The only member may change inside. -/
theorem shuffled_one (k : Str) {x y : Node} (h : Shuffled x y) : Shuffled (.obj [(k, x)]) (.obj [(k, y)]) := by
  refine .obj (by simp) (by simp) (by simp) fun j a b ha hb => ?_
  simp only [List.mem_singleton, Prod.mk.injEq] at ha hb
  obtain ⟨rfl, rfl⟩ := ha
  obtain ⟨_, rfl⟩ := hb
  exact h

/-- Two members may change places. -/
theorem shuffled_two {j k : Str} (hjk : j ≠ k) {x y : Node} (hx : Shuffled x x) (hy : Shuffled y y) : Shuffled (.obj [(j, x), (k, y)]) (.obj [(k, y), (j, x)]) := by
  refine .obj (by simp [hjk]) (by simp [Ne.symm hjk]) (by simp [or_comm]) fun i a b ha hb => ?_
  simp only [List.mem_cons, Prod.mk.injEq, List.not_mem_nil, or_false] at ha hb
  rcases ha with ⟨rfl, rfl⟩ | ⟨rfl, rfl⟩ <;> rcases hb with ⟨h, rfl⟩ | ⟨h, rfl⟩ <;> first | assumption | exact absurd h hjk | exact absurd h.symm hjk

/-- Two items of a list may change inside. -/
theorem shuffled_pair {x x' y y' : Node} (hx : Shuffled x x') (hy : Shuffled y y') : Shuffled (.arr [x, y]) (.arr [x', y']) := by
  refine .arr rfl fun i a b ha hb => ?_
  match i with
  | 0 => cases ha; cases hb; exact hx
  | 1 => cases ha; cases hb; exact hy
  | i + 2 => cases ha

/-- `{type: "object", properties: {a: {maximum: 3}, b: {enum: [1, "x"]}}}` and the same backwards. -/
def forth : Node := .obj [(c!"type", .str c!"object"),
  (c!"properties", .obj [(c!"a", .obj [(c!"maximum", .num (.fin 3))]), (c!"b", .obj [(c!"enum", .arr [.num (.fin 1), .str c!"x"])])])]
def back : Node := .obj [(c!"properties",
  .obj [(c!"b", .obj [(c!"enum", .arr [.num (.fin 1), .str c!"x"])]), (c!"a", .obj [(c!"maximum", .num (.fin 3))])]), (c!"type", .str c!"object")]

theorem forth_back : Shuffled forth back := by
  refine .obj (by decide) (by decide) (by simp [or_comm]) fun i a b ha hb => ?_
  simp only [List.mem_cons, Prod.mk.injEq, List.not_mem_nil, or_false] at ha hb
  rcases ha with ⟨rfl, rfl⟩ | ⟨rfl, rfl⟩ <;> rcases hb with ⟨h, rfl⟩ | ⟨h, rfl⟩
  · cases h
  · exact .str _
  · exact shuffled_two (by decide) (shuffled_one _ (.num _)) (shuffled_one _ (shuffled_pair (.num _) (.str _)))
  · cases h

/-- Both orders accept `{a: 2, b: "x"}`, and neither accepts `{a: 4}`; no two documents are needed. -/
example (w : World) : ShuffledDocs [] [] ∧ schemaValidate w [] draft2020Vocabulary 5 forth (.dict [(c!"a", .int 2), (c!"b", .str c!"x")]) = .ok () ∧
    schemaValidate w [] draft2020Vocabulary 5 back (.dict [(c!"a", .int 2), (c!"b", .str c!"x")]) = .ok () ∧
    schemaValidate w [] draft2020Vocabulary 5 back (.dict [(c!"a", .int 4)]) ≠ .ok () ∧ forth ≠ back := by
  refine ⟨⟨rfl, by simp, by simp, by simp⟩, rfl, rfl, ?_, ?_⟩
  · intro h; cases h
  · intro h; simp [forth, back] at h

/-- The conditions hold of `{enum: [1, "x"], required: ["a"]}`. -/
example : Orderless False [] [.enum, .required, .not]
    (· = .obj [(c!"enum", .arr [.num (.fin 1), .str c!"x"]), (c!"required", .arr [.str c!"a"])]) := by
  rintro n rfl f items h
  cases f with
  | zero => cases h
  | succ f =>
    cases h
    refine ⟨by decide, ⟨?_, by simp⟩, .inr fun _ xs h x hx => ?_, ?_⟩
    · rintro - n xs h1 h2 x hx
      simp [dictGet] at h1
      subst h1
      cases h2
      simp at hx
      subst hx
      trivial
    · simp [dictGet] at h
      subst h
      simp at hx
      rcases hx with rfl | rfl <;> intro n' h' <;> cases h' <;> rfl
    · rintro m ⟨k, x, h1, h2⟩
      have hk : k = c!"enum" ∨ k = c!"required" := by
        simp only [dictGet] at h1
        split at h1
        · rename_i h; exact .inl h.symm
        · split at h1
          · rename_i h; exact .inr h.symm
          · cases h1
      rcases hk with rfl | rfl <;> rcases h2 with ⟨h2, _⟩ | ⟨h2, _⟩ | ⟨h2, _⟩ <;> exact absurd h2 (by decide)

/-- C99 fails with `enum`: of two orders of a member of `enum`, one comes to two strings that differ and goes on to the next member, which is the value; the other
compares a number with a string. -/
theorem C99_violated (w : World) : ∃ root root' v, Shuffled root root' ∧ schemaValidate w [] draft2020Vocabulary 3 root v = .ok () ∧
    schemaValidate w [] draft2020Vocabulary 3 root' v = .err .typeError := by
  refine ⟨.obj [(c!"enum", .arr [.obj [(c!"a", .str c!"x"), (c!"b", .num (.fin 1))], .obj [(c!"a", .str c!"y"), (c!"b", .str c!"z")]])],
    .obj [(c!"enum", .arr [.obj [(c!"b", .num (.fin 1)), (c!"a", .str c!"x")], .obj [(c!"b", .str c!"z"), (c!"a", .str c!"y")]])],
    .dict [(c!"a", .str c!"y"), (c!"b", .str c!"z")], shuffled_one _ (shuffled_pair (shuffled_two (by decide) (.str _) (.num _))
      (shuffled_two (by decide) (.str _) (.str _))), rfl, rfl⟩

/-- C99 fails with the keywords that catch errors: `{not: {dependentSchemas: {a: false, b: {maximum: 3}}}}` on `{a: 1, b: 2}` accepts in this order, and raises
`TypeError` in the other, where `maximum` is asked of the object first. -/
theorem C99_not_violated (w : World) : ∃ root root' v, Shuffled root root' ∧ schemaValidate w [] [.not, .dependentSchemas, .maximum] 5 root v = .ok () ∧
    schemaValidate w [] [.not, .dependentSchemas, .maximum] 5 root' v = .err .typeError := by
  refine ⟨.obj [(c!"not", .obj [(c!"dependentSchemas", .obj [(c!"a", .bool false), (c!"b", .obj [(c!"maximum", .num (.fin 3))])])])],
    .obj [(c!"not", .obj [(c!"dependentSchemas", .obj [(c!"b", .obj [(c!"maximum", .num (.fin 3))]), (c!"a", .bool false)])])],
    .dict [(c!"a", .int 1), (c!"b", .int 2)], shuffled_one _ (shuffled_one _ (shuffled_two (by decide) (.bool _) (shuffled_one _ (.num _)))), rfl, rfl⟩

end Verif.Props
