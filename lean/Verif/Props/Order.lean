import Verif.Model.Vocabulary
import Verif.Proofs.Order
import Verif.Proofs.Satisfies
import Verif.Props.Satisfies
/-!
# C34: the order of the keywords in the vocabulary

Subschemas are reached through references, too; `Region` describes a set of schema nodes closed under that.
-/

namespace Verif.Props
open Verif

/-- The keywords whose validators look at the errors of their subschemas. -/
def catching : List Kw := [.contains, .anyOf, .oneOf, .not, .if]

/-- A set of schema nodes, closed under subschemas, none of which uses a keyword of the vocabulary that catches errors, or
`items` next to `prefixItems`. -/
def Region (docs : List Doc) (voc : List Kw) (G : Node → Prop) : Prop :=
  ∀ n, G n → ∀ f items, view docs f n = .ok (.obj items) →
    (∀ k ∈ catching, k ∈ voc → dictHas k.key items = false) ∧
    (.items ∈ voc → .prefixItems ∈ voc → ¬ (dictHas c!"items" items = true ∧ dictHas c!"prefixItems" items = true)) ∧
    ∀ m, Offered (view docs f) items m → G m

theorem slot_calm (w : World) (vw : Node → Res Node) (items : List (Str × Node)) (k : Kw) (hk : k ∉ catching) (u : Upd Node)
    (h : readKw w vw id items k = .ok u) (s : Str) (φ : Option (V Node) → V Node) (hs : u.slot k.key = some (s, φ))
    (o : Option (V Node)) (ho : ∀ x, o = some x → x.catches = false) : (φ o).catches = false := by
  have hset : Res.All (fun u : Upd Node => ∀ x, u = .set x → x.catches = false) (readKw w vw id items k) := by
    cases k <;> first
      | (exact absurd (by decide) hk)
      | (simp only [readKw] <;>
        repeat' first
          | exact Res.All.err
          | (refine Res.All.ok ?_; simp [V.catches]; done)
          | (refine Res.All.ok ?_; rintro x ⟨⟩; simp only [maxV, minV]; split <;> rfl)
          | (refine Res.All.bind fun _ => ?_)
          | split)
  have hf := readKw_fits' w vw id items k u h
  cases u with
  | set x =>
    simp only [Upd.slot, Option.some.injEq, Prod.mk.injEq] at hs
    obtain ⟨rfl, rfl⟩ := hs
    exact hset _ h x rfl
  | nop => simp [Upd.slot] at hs
  | ifs a =>
    simp only [Upd.fits'] at hf
    subst hf
    exact absurd (by decide) hk
  | thens a | elses a =>
    simp only [Upd.slot, Option.some.injEq, Prod.mk.injEq] at hs
    obtain ⟨rfl, rfl⟩ := hs
    cases o with
    | none => rfl
    | some x =>
      have := ho x rfl
      cases x with
      | cond i t e => cases i <;> simp_all [V.catches, condIn]
      | _ => rfl
  | _ =>
    simp only [Upd.slot, Option.some.injEq, Prod.mk.injEq] at hs
    obtain ⟨rfl, rfl⟩ := hs
    rfl

theorem fold_calm (w : World) (vw : Node → Res Node) (items : List (Str × Node)) (voc : List Kw)
    (h : ∀ k ∈ catching, k ∈ voc → dictHas k.key items = false) (d : Data Node) (hd : ∀ p ∈ d, p.2.catches = false) :
    ∀ p ∈ voc.foldl (stepKw w vw id items) d, p.2.catches = false := by
  induction voc generalizing d with
  | nil => exact hd
  | cons k ks ih =>
    refine ih (fun k' hk' hm => h k' hk' (by simp [hm])) _ ?_
    unfold stepKw
    split
    · rename_i ha
      split
      · rename_i u hu
        have hk : k ∉ catching := by
          intro hk
          have := h k hk (by simp)
          rw [ha.2] at this; cases this
        cases e : u.slot k.key with
        | none => exact hd
        | some q =>
          obtain ⟨s, φ⟩ := q
          intro p hp
          rcases mem_dictSet hp with rfl | hp
          · exact slot_calm w vw items k hk u hu s φ e _ fun x hx => hd _ (dictGet_mem hx)
          · exact hd p hp
      · exact hd
    · exact hd

theorem nonObject_ok (n : Node) (voc : List Kw) : loadNonObject n voc = .ok () ↔
    ∀ k ∈ voc, k.isAssertion = true → match n with
      | .str s => strContains k.key s = false
      | .arr xs => keyInArr k.key xs = .ok false
      | _ => False := by
  induction voc with
  | nil => simp [loadNonObject]
  | cons k ks ih =>
    unfold loadNonObject
    by_cases ha : k.isAssertion = true
    · rw [if_pos ha]
      have hc : ∀ Q : Kw → Prop, (∀ k' ∈ k :: ks, k'.isAssertion = true → Q k') ↔ Q k ∧ ∀ k' ∈ ks, k'.isAssertion = true → Q k' := by
        intro Q; simp [ha]
      cases n with
      | str s =>
        refine Iff.trans ?_ (hc _).symm
        refine Iff.trans ?_ (and_congr Iff.rfl ih)
        show (if strContains k.key s = true then .err .typeError else loadNonObject (.str s) ks) = .ok () ↔ _
        cases e : strContains k.key s <;> simp [e]
      | arr xs =>
        refine Iff.trans ?_ (hc _).symm
        refine Iff.trans ?_ (and_congr Iff.rfl ih)
        show (keyInArr k.key xs >>= fun b => if b = true then .err .typeError else loadNonObject (.arr xs) ks) = .ok () ↔ _
        cases e : keyInArr k.key xs with
        | ok b => cases b <;> simp [e]
        | _ => simp [e]
      | _ => rw [hc]; simp
    · rw [if_neg ha, ih]
      simp [ha]

theorem order_mono (w : World) (docs : List Doc) {voc voc' : List Kw} (hp : voc.Perm voc') {G : Node → Prop}
    (hG : Region docs voc G) (f : Nat) : ∀ n v ctx, G n → validateN w docs voc f n v ctx = .ok () →
      validateN w docs voc' f n v ctx = .ok () := by
  induction f with
  | zero => intro n v ctx _ h; cases h
  | succ f ih =>
    intro n v ctx hn h
    rw [validateN] at h ⊢
    obtain ⟨m, hm, h⟩ := Res.bind_eq_ok.1 h
    rw [hm, Res.ok_bind]
    have non : ∀ x : Node, loadNonObject x voc = .ok () → loadNonObject x voc' = .ok () := by
      intro x hx
      rw [nonObject_ok] at hx ⊢
      exact fun k hk => hx k (hp.mem_iff.2 hk)
    cases m with
    | bool b => exact h
    | obj items =>
      obtain ⟨hc, hi, ho⟩ := hG n hn f items hm
      simp only at h ⊢
      have hpre : ∀ V : List Kw, (∀ k, k ∈ V ↔ k ∈ voc) → .prefixItems ∈ V → Applies items .prefixItems →
          dictHas c!"items" ([] : Data Node) = false ∧ ¬ (.items ∈ V ∧ Applies items .items) := by
        intro V hV h1 h2
        refine ⟨rfl, fun h3 => ?_⟩
        exact hi ((hV _).1 h3.1) ((hV _).1 h1) ⟨h3.2.2, h2.2⟩
      have L := loadAll_fold w (view docs f) id items voc [] (hpre voc fun _ => Iff.rfl)
      have L' := loadAll_fold w (view docs f) id items voc' [] (hpre voc' fun k => hp.mem_iff.symm)
      have hok : (loadAll w (view docs f) id items voc []).2 = .ok () := by
        revert h
        rcases loadAll w (view docs f) id items voc [] with ⟨d, r⟩
        cases r <;> simp
      have hall := L.2 hok
      rw [L.1 hall] at h
      rw [L'.1 fun k hk => hall k (hp.mem_iff.2 hk)]
      simp only at h ⊢
      have hsame := fold_perm w (view docs f) id items hp (d := []) (d' := []) fun _ => rfl
      have nd := fold_nodup w (view docs f) (id : Node → Node) items voc [] (by simp)
      have nd' := fold_nodup w (view docs f) (id : Node → Node) items voc' [] (by simp)
      have calm := fold_calm w (view docs f) items voc hc [] (by simp)
      have subs := loadAll_all w (view docs f) id items (P := G) (fun n hn => ho n hn) voc [] (by simp [Data.All])
      rw [L.1 hall] at subs
      rw [runAll_ok_iff] at h ⊢
      rintro ⟨s, x⟩ hx
      have hx := dictGet_of_mem nd' hx
      rw [← hsame s] at hx
      have hx := dictGet_mem hx
      have := h _ hx
      rw [← interp_prog] at this ⊢
      exact Prog.Calm.mono (P := G) (fun a v c ha => ih a v c ha) (prog_calm w f x v ctx (calm _ hx))
        (prog_uses w f x v ctx (subs _ hx)) this
    | _ => exact non _ h

/-- C34 on every region: permuting the vocabulary does not change which instances are accepted. -/
theorem C34_region_partial (w : World) (docs : List Doc) {voc voc' : List Kw} (hp : voc.Perm voc') {G : Node → Prop}
    (hG : Region docs voc G) (f : Nat) (n : Node) (hn : G n) (v : Val) (ctx : Ctx) :
    validateN w docs voc f n v ctx = .ok () ↔ validateN w docs voc' f n v ctx = .ok () := by
  refine ⟨order_mono w docs hp hG f n v ctx hn, order_mono w docs hp.symm (G := G) ?_ f n v ctx hn⟩
  intro n hn f items h
  obtain ⟨h1, h2, h3⟩ := hG n hn f items h
  exact ⟨fun k hk hm => h1 k hk (hp.mem_iff.2 hm), fun a b => h2 (hp.mem_iff.2 a) (hp.mem_iff.2 b), h3⟩

/-- C34 for the vocabularies without error-catching keywords and without `items` next to `prefixItems`: all schemas, with
references and whether well formed or not, and all values. -/
theorem C34_vocabulary_partial (w : World) (docs : List Doc) {voc voc' : List Kw} (hp : voc.Perm voc')
    (hc : ∀ k ∈ catching, k ∉ voc) (hi : ¬ (Kw.items ∈ voc ∧ Kw.prefixItems ∈ voc)) (f : Nat) (n : Node) (v : Val) (ctx : Ctx) :
    validateN w docs voc f n v ctx = .ok () ↔ validateN w docs voc' f n v ctx = .ok () :=
  C34_region_partial w docs hp (G := fun _ => True)
    (fun _ _ _ _ _ => ⟨fun k hk hm => absurd hm (hc k hk), fun a b => absurd ⟨a, b⟩ hi, fun _ _ => trivial⟩) f n trivial v ctx

/-- C34, in full, for the vocabulary that ships with the library. -/
theorem C34_shipped (w : World) (docs : List Doc) {voc : List Kw} (hp : draft2020Vocabulary.Perm voc) (f : Nat) (root : Node) (v : Val) :
    schemaValidate w docs draft2020Vocabulary f root v = .ok () ↔ schemaValidate w docs voc f root v = .ok () := by
  unfold schemaValidate
  cases view docs f root with
  | ok m =>
    cases m with
    | obj items => exact C34_vocabulary_partial w docs hp (by decide) (by decide) f root v []
    | _ => exact Iff.rfl
  | _ => exact Iff.rfl

mutual
/-- No reference, and nowhere in the tree a member with one of the names, or `items` next to `prefixItems`. -/
def Avoids (names : List Str) : Node → Prop
  | .arr xs => AvoidsL names xs
  | .obj kvs => (∀ s ∈ names, dictHas s kvs = false) ∧
    ¬ (dictHas c!"items" kvs = true ∧ dictHas c!"prefixItems" kvs = true) ∧ AvoidsD names kvs
  | .ref .. => False
  | _ => True
def AvoidsL (names : List Str) : List Node → Prop
  | [] => True
  | x :: xs => Avoids names x ∧ AvoidsL names xs
def AvoidsD (names : List Str) : List (Str × Node) → Prop
  | [] => True
  | (_, x) :: xs => Avoids names x ∧ AvoidsD names xs
end

theorem avoidsL_mem {names : List Str} {xs : List Node} (h : AvoidsL names xs) : ∀ x ∈ xs, Avoids names x := by
  induction xs with
  | nil => simp
  | cons x xs ih =>
    intro y hy
    rcases List.mem_cons.1 hy with rfl | hy
    · exact h.1
    · exact ih h.2 y hy

theorem avoidsD_mem {names : List Str} {xs : List (Str × Node)} (h : AvoidsD names xs) : ∀ p ∈ xs, Avoids names p.2 := by
  induction xs with
  | nil => simp
  | cons x xs ih =>
    intro y hy
    rcases List.mem_cons.1 hy with rfl | hy
    · exact h.1
    · exact ih h.2 y hy

theorem view_plain {docs : List Doc} {f : Nat} {n m : Node} (hr : ∀ o d p, n ≠ .ref o d p) (h : view docs f n = .ok m) : m = n := by
  cases f with
  | zero => cases h
  | succ f => rw [view_of_not_ref docs f n hr] at h; cases h; rfl

theorem avoids_not_ref {names : List Str} {n : Node} (h : Avoids names n) : ∀ o d p, n ≠ .ref o d p := by
  rintro o d p rfl; exact h

theorem avoids_region (docs : List Doc) (voc : List Kw) {names : List Str} (hn : ∀ k ∈ catching, k ∈ voc → k.key ∈ names) :
    Region docs voc (Avoids names) := by
  intro n h f items hv
  cases view_plain (avoids_not_ref h) hv
  refine ⟨fun k hk hm => h.1 _ (hn k hk hm), fun _ _ => h.2.1, ?_⟩
  rintro m ⟨k, x, hg, hm⟩
  have hx : Avoids names x := avoidsD_mem h.2.2 _ (dictGet_mem hg)
  rcases hm with ⟨-, rfl⟩ | ⟨-, xs, hv, hm⟩ | ⟨-, kvs, s, hv, hm⟩
  · exact hx
  · cases view_plain (avoids_not_ref hx) hv
    exact avoidsL_mem hx m hm
  · cases view_plain (avoids_not_ref hx) hv
    exact avoidsD_mem hx.2.2 _ hm

/-- C34 for every vocabulary and the reference-free schemas that nowhere use an error-catching keyword, or `items` next to
`prefixItems`. -/
theorem C34_schema_partial (w : World) (docs : List Doc) {voc voc' : List Kw} (hp : voc.Perm voc') (f : Nat) (n : Node)
    (hn : Avoids (catching.map Kw.key) n) (v : Val) (ctx : Ctx) :
    validateN w docs voc f n v ctx = .ok () ↔ validateN w docs voc' f n v ctx = .ok () :=
  C34_region_partial w docs hp (avoids_region docs voc fun k hk _ => List.mem_map.2 ⟨k, hk, rfl⟩) f n hn v ctx

example : Avoids (catching.map Kw.key) (.obj [(c!"type", .str c!"object"), (c!"properties", .obj [(c!"a", .obj [(c!"items", .bool false)])])]) ∧
    ∃ voc voc' : List Kw, voc.Perm voc' ∧ voc ≠ voc' ∧ Kw.not ∈ voc ∧ Kw.items ∈ voc ∧ Kw.prefixItems ∈ voc :=
  ⟨by simp [Avoids, AvoidsD, catching, Kw.key, Kw.keys, dictHas, dictGet],
   [.type, .not, .items, .prefixItems], [.prefixItems, .type, .not, .items], by decide, by decide, by decide, by decide, by decide⟩

/-- C34 for schemas with all keywords and the instances they apply to by type (`Fits`, see C36). -/
theorem C34_fits_partial (w : World) (docs : List Doc) {voc voc' : List Kw} (hp : voc.Perm voc') (hv : VocPaired voc) (n : Node) (v : Val)
    (hf : Fits w voc n v) (hb : v.NoBraces) (f : Nat) (hd : n.depth + 3 ≤ f) :
    validateN w docs voc f n v [] = .ok () ↔ validateN w docs voc' f n v [] = .ok () := by
  have hr : recognised voc = recognised voc' := by
    funext items
    refine List.filter_congr fun p _ => ?_
    have : ∀ s, s ∈ (voc.filter Kw.isAssertion).map Kw.key ↔ s ∈ (voc'.filter Kw.isAssertion).map Kw.key := by
      intro s
      simp [List.mem_map, List.mem_filter, hp.mem_iff]
    rw [decide_eq_decide, this]
  have hs : ∀ d, SatN w voc d = SatN w voc' d := by
    intro d
    induction d with
    | zero => rfl
    | succ d ih => funext n v; cases n <;> simp [SatN, ih, hr]
  have hF : ∀ d, FitsN w voc d = FitsN w voc' d := by
    intro d
    induction d with
    | zero => rfl
    | succ d ih => funext n v; cases n <;> simp [FitsN, ih, hr, hs]
  have hv' : VocPaired voc' := by
    obtain ⟨a, b⟩ := hv
    exact ⟨by rw [← hp.mem_iff, a, hp.mem_iff], by rw [← hp.mem_iff, b, hp.mem_iff]⟩
  rw [(C36_judged_partial w docs voc hv n v hf hb f hd).1,
    (C36_judged_partial w docs voc' hv' n v (by unfold Fits; rw [← hF]; exact hf) hb f hd).1]
  unfold Sat
  rw [hs]

/-- C34 is false in general: `{"not": {"type": "string", "minLength": 3}}` accepts 5 if `type` comes first, and raises a
`TypeError` otherwise. -/
theorem C34_catching_violated (w : World) : ∃ voc voc' : List Kw, voc.Perm voc' ∧ ∃ n v, ∀ f,
    validateN w [] voc (f + 4) n v [] = .ok () ∧ validateN w [] voc' (f + 4) n v [] = .err .typeError :=
  ⟨[.not, .type, .minLength], [.not, .minLength, .type], by decide,
   .obj [(c!"not", .obj [(c!"type", .str c!"string"), (c!"minLength", .num (.fin 3))])], .int 5, fun _ => ⟨rfl, rfl⟩⟩

/-- C34 is false in general: `{"items": true, "prefixItems": []}` cannot be loaded if `items` comes first. -/
theorem C34_prefix_violated (w : World) : ∃ voc voc' : List Kw, voc.Perm voc' ∧ ∃ n v, ∀ f,
    validateN w [] voc (f + 4) n v [] = .ok () ∧ validateN w [] voc' (f + 4) n v [] = .err .keyError :=
  ⟨[.prefixItems, .items], [.items, .prefixItems], by decide,
   .obj [(c!"items", .bool true), (c!"prefixItems", .arr [])], .list [], fun _ => ⟨rfl, rfl⟩⟩

end Verif.Props
