import Verif.Proofs.Multi
import Verif.Spec.Validate
/-! # Lemmas for the applicator keywords -/

namespace Verif

variable {α : Type} (rec : α → Val → Ctx → Res Unit)

theorem firstFail_cons (r : Res Unit) (rs : List (Res Unit)) :
    firstFail (r :: rs) = r >>= fun _ => firstFail rs := by cases r <;> rfl

theorem firstFail_ok (rs : List (Res Unit)) : firstFail rs = .ok () ↔ ∀ r ∈ rs, r = .ok () := by
  induction rs with
  | nil => simp [firstFail]
  | cons r rs ih =>
    rw [firstFail_cons, List.forall_mem_cons, ← ih]
    cases r <;> simp

theorem firstFail_map_ok {β : Type} (g : β → Res Unit) (xs : List β) :
    firstFail (xs.map g) = .ok () ↔ ∀ x ∈ xs, g x = .ok () := by
  rw [firstFail_ok]; exact List.forall_mem_map

theorem firstFail_decides (rs : List (Res Unit)) (h : ∀ r ∈ rs, Decides r) : Decides (firstFail rs) := by
  induction rs with
  | nil => exact .inl rfl
  | cons r rs ih =>
    rw [firstFail_cons]
    rcases h r (by simp) with h1 | ⟨e, h1⟩
    · rw [h1]; exact ih fun r hr => h r (by simp [hr])
    · rw [h1]; exact .inr ⟨e, rfl⟩

theorem firstFail_append (rs ss : List (Res Unit)) :
    firstFail (rs ++ ss) = firstFail rs >>= fun _ => firstFail ss := by
  induction rs with
  | nil => rfl
  | cons r rs ih =>
    rw [List.cons_append, firstFail_cons, firstFail_cons, ih]
    cases r <;> rfl

theorem Decides.not_ok {r : Res Unit} (h : Decides r) (hn : r ≠ .ok ()) : ∃ e, r = .err (.validation e) := by
  rcases h with h | h
  · exact absurd h hn
  · exact h

theorem allOfLoop_eq (v : Val) (ctx : Ctx) (xs : List α) :
    allOfLoop rec v ctx xs = firstFail (xs.map fun a => rec a v ctx) := by
  induction xs with
  | nil => rfl
  | cons a xs ih => rw [allOfLoop, ih, List.map_cons, firstFail_cons]

theorem anyOfLoop_spec (v : Val) (ctx : Ctx) (xs : List α) (last : Option VErr)
    (h : ∀ a ∈ xs, Decides (rec a v ctx)) (hne : xs ≠ [] ∨ last ≠ none) :
    (anyOfLoop rec v ctx last xs = .ok () ↔ ∃ a ∈ xs, rec a v ctx = .ok ()) ∧
      Decides (anyOfLoop rec v ctx last xs) := by
  induction xs generalizing last with
  | nil =>
    cases last with
    | none => simp at hne
    | some e => simp [anyOfLoop, Decides]
  | cons a xs ih =>
    rw [anyOfLoop]
    rcases h a (by simp) with h1 | ⟨e, h1⟩
    · simp [h1, attempt, Decides]
    · have := ih (some e) (fun b hb => h b (by simp [hb])) (.inr (by simp))
      simp only [h1, attempt, Res.ok_bind]
      refine ⟨?_, this.2⟩
      rw [this.1]; simp [h1]

theorem oneOfLoop_spec (v : Val) (ctx : Ctx) (xs : List α) (n : Nat) (last : Option VErr)
    (h : ∀ a ∈ xs, Decides (rec a v ctx)) :
    ∃ last', oneOfLoop rec v ctx n last xs = .ok (n + countOk (xs.map fun a => rec a v ctx), last') ∧
      (last' = none → last = none ∧ countOk (xs.map fun a => rec a v ctx) = xs.length) := by
  induction xs generalizing n last with
  | nil => exact ⟨last, rfl, fun h => ⟨h, rfl⟩⟩
  | cons a xs ih =>
    rw [oneOfLoop]
    rcases h a (by simp) with h1 | ⟨e, h1⟩
    · obtain ⟨l', hl, hx⟩ := ih (n + 1) last fun b hb => h b (by simp [hb])
      refine ⟨l', ?_, fun hn => ?_⟩
      · simp only [h1, attempt, Res.ok_bind, hl, List.map_cons, countOk]
        rw [Nat.add_assoc n 1, Nat.add_comm 1]
      · obtain ⟨a, b⟩ := hx hn
        exact ⟨a, by simp [h1, countOk, b]⟩
    · obtain ⟨l', hl, hx⟩ := ih n (some e) fun b hb => h b (by simp [hb])
      refine ⟨l', ?_, fun hn => ?_⟩
      · simp only [h1, attempt, Res.ok_bind, hl, List.map_cons, countOk]
      · exact absurd (hx hn).1 (by simp)

theorem countOk_le (rs : List (Res Unit)) : countOk rs ≤ rs.length := by
  induction rs with
  | nil => exact Nat.le_refl _
  | cons r rs ih => cases r <;> simp [countOk] <;> omega

theorem runOneOf_spec {ctx : Ctx} (hc : CtxOk ctx) (xs : List α) (v : Val) (hne : xs ≠ [])
    (h : ∀ a ∈ xs, Decides (rec a v ctx)) :
    (runOneOf rec xs v ctx = .ok () ↔ countOk (xs.map fun a => rec a v ctx) = 1) ∧ Decides (runOneOf rec xs v ctx) := by
  obtain ⟨last, hl, hx⟩ := oneOfLoop_spec rec v ctx xs 0 none h
  simp only [runOneOf, hl, Res.ok_bind, Nat.zero_add] at *
  have hpos : 0 < xs.length := List.length_pos_iff.2 hne
  generalize countOk (xs.map fun a => rec a v ctx) = n at *
  by_cases h1 : n < 1
  · rw [if_pos h1]
    cases last with
    | none => have := (hx rfl).2; omega
    | some e => exact ⟨by simp; omega, .inr ⟨e, rfl⟩⟩
  · rw [if_neg h1]
    by_cases h2 : n > 1
    · rw [if_pos h2, raise_ctx hc (by simp [ErrClass.all])]
      exact ⟨by simp; omega, .inr ⟨_, rfl⟩⟩
    · rw [if_neg h2]; exact ⟨by simp; omega, .inl rfl⟩

theorem strItemsMap_strings (w : World) (m : List (Str × List Str)) :
    strItemsMap w (m.map fun p => (p.1, .arr (p.2.map .str))) = .ok m := by
  induction m with
  | nil => rfl
  | cons p m ih =>
    have e : (p.2.map Node.str).map (nodeStr w) = p.2 := by
      rw [List.map_map, show nodeStr w ∘ Node.str = id from rfl, List.map_id]
    simp only [List.map_cons, strItemsMap, strItems, e, Res.ok_bind, ih]

theorem containsLoop_spec (c : α) (xs : List Val) (n : Nat) (h : ∀ x ∈ xs, Decides (rec c x [])) :
    containsLoop rec c n xs = .ok (n + countOk (xs.map fun x => rec c x [])) := by
  induction xs generalizing n with
  | nil => rfl
  | cons x xs ih =>
    rw [containsLoop]
    have ih' := fun n => ih n fun b hb => h b (by simp [hb])
    rcases h x (by simp) with h1 | ⟨e, h1⟩
    · simp only [h1, attempt, Res.ok_bind, ih', List.map_cons, countOk]
      rw [Nat.add_assoc n 1, Nat.add_comm 1]
    · simp only [h1, attempt, Res.ok_bind, ih', List.map_cons, countOk]

theorem itemsLoop_eq (it : α) (ctx : Ctx) (xs : List Val) (i : Nat) :
    itemsLoop rec it ctx i xs = firstFail ((xs.zipIdx i).map fun p => rec it p.1 (ctx ++ [natStr p.2])) := by
  induction xs generalizing i with
  | nil => rfl
  | cons x xs ih => rw [itemsLoop, ih, List.zipIdx_cons, List.map_cons, firstFail_cons]

theorem arrayLoop_eq (f : Nat) (its : Option α) (ctx : Ctx) (ps : List α) (xs : List Val) (i : Nat)
    (hl : ps.length ≤ xs.length) :
    arrayLoop rec f its ctx i ps xs =
      firstFail (((ps.zip (xs.zipIdx i)).map fun p => rec p.1 p.2.1 (ctx ++ [natStr p.2.2])) ++
        match its with
        | none => []
        | some it => ((xs.zipIdx i).drop ps.length).map fun p => rec it p.1 (ctx ++ [natStr p.2])) := by
  induction ps generalizing xs i with
  | nil =>
    cases its with
    | none => simp [arrayLoop, firstFail]
    | some it => simp [arrayLoop, itemsLoop_eq]
  | cons p ps ih =>
    cases xs with
    | nil => simp at hl
    | cons x xs =>
      rw [arrayLoop, ih xs (i + 1) (by simpa using hl)]
      simp only [List.zipIdx_cons, List.zip_cons_cons, List.map_cons, List.cons_append, firstFail_cons,
        List.length_cons, List.drop_succ_cons]

theorem objectLoop_eq (w : World) (o : ObjV α) (ctx : Ctx) (kvs : List (Str × Val)) :
    objectLoop rec w o ctx kvs = firstFail (kvs.map fun p => objectItem rec w o p.1 p.2 ctx) := by
  induction kvs with
  | nil => rfl
  | cons p kvs ih =>
    obtain ⟨k, x⟩ := p
    rw [objectLoop, ih, List.map_cons, firstFail_cons]

theorem runObject_empty (w : World) (v : Val) (ctx : Ctx) : runObject rec w {} v ctx = .ok () := by
  cases v <;> simp only [runObject]
  rw [objectLoop_eq, firstFail_ok]
  intro r hr
  obtain ⟨p, _, rfl⟩ := List.mem_map.1 hr
  simp [objectItem, dictGet]

theorem depSchemasLoop_eq (kvs : List (Str × Val)) (ctx : Ctx) (m : List (Str × α)) :
    depSchemasLoop rec kvs ctx m =
      firstFail ((m.filter fun p => dictHas p.1 kvs).map fun p => rec p.2 (.dict kvs) ctx) := by
  induction m with
  | nil => rfl
  | cons p m ih =>
    obtain ⟨k, a⟩ := p
    rw [depSchemasLoop, ih]
    by_cases h : dictHas k kvs = true
    · rw [List.filter_cons_of_pos (by simpa using h), List.map_cons, firstFail_cons, if_pos h]
    · rw [List.filter_cons_of_neg (by simpa using h), if_neg h]

theorem patternLoop_spec (w : World) (k : Str) (x : Val) (ctx : Ctx) (ps : List (Str × α)) (ev : Bool)
    (hc : ∀ p ∈ ps, ∃ m, w.search p.1 = some m) :
    patternLoop rec w k x ctx ev ps =
      (firstFail ((ps.filter fun p => (w.search p.1).any (· k)).map fun p => rec p.2 x ctx) >>= fun _ =>
        .ok (ev || ps.any fun p => (w.search p.1).any (· k))) := by
  induction ps generalizing ev with
  | nil => simp [patternLoop, firstFail]
  | cons p ps ih =>
    obtain ⟨p, a⟩ := p
    obtain ⟨m, hm⟩ := hc (p, a) (by simp)
    simp only at hm
    have ih' := fun ev => ih ev fun q hq => hc q (by simp [hq])
    by_cases hk : m k = true
    · simp only [patternLoop, hm, hk, if_true, ih']
      rw [List.filter_cons_of_pos (by simp [hm, hk]), List.map_cons, firstFail_cons]
      simp [hm, hk]
      cases rec a x ctx <;> simp
    · simp only [patternLoop, hm, hk, ih']
      rw [List.filter_cons_of_neg (by simp [hm, hk])]
      simp [hm, hk]

/-- What is done with a member that is neither named nor matched by a pattern. -/
def extraItem (o : ObjV α) (k : Str) (x : Val) (ctx : Ctx) : Res Unit :=
  match o.additional with
  | some .fail => .err (raisePlain (Ctx.path (ctx ++ [k])))
  | some (.lazy a) => rec a x (ctx ++ [k])
  | none => if o.unevaluated then .err (raisePlain (Ctx.path (ctx ++ [k]))) else .ok ()

/-- The patterns found in a name. -/
def matching (w : World) (k : Str) (ps : List (Str × α)) : List (Str × α) :=
  ps.filter fun p => (w.search p.1).any (· k)

theorem objectItem_eq (w : World) (o : ObjV α) (k : Str) (x : Val) (ctx : Ctx)
    (hc : ∀ p ∈ o.patterns.getD [], ∃ m, w.search p.1 = some m) :
    objectItem rec w o k x ctx = (do
      (match o.names with
      | some n => rec n (.str k) (ctx ++ [k])
      | none => .ok ())
      match dictGet k o.props with
      | some p => rec p x (ctx ++ [k])
      | none => do
        firstFail ((matching w k (o.patterns.getD [])).map fun p => rec p.2 x (ctx ++ [k]))
        if (matching w k (o.patterns.getD [])).isEmpty then extraItem rec o k x ctx else .ok () : Res Unit) := by
  have key : (do
      let evaluated ← match o.patterns with
        | some ps => patternLoop rec w k x (ctx ++ [k]) false ps
        | none => .ok false
      if evaluated then .ok () else extraItem rec o k x ctx) = (do
        firstFail ((matching w k (o.patterns.getD [])).map fun p => rec p.2 x (ctx ++ [k]))
        if (matching w k (o.patterns.getD [])).isEmpty then extraItem rec o k x ctx else .ok () : Res Unit) := by
    revert hc
    generalize o.patterns = pats
    intro hc
    cases pats with
    | none => simp [matching, firstFail]
    | some ps =>
      simp only [Option.getD] at hc ⊢
      rw [patternLoop_spec rec w k x (ctx ++ [k]) ps false hc, Res.bind_assoc]
      apply Res.bind_congr; intro _
      simp only [Res.ok_bind, Bool.false_or]
      have e : (matching w k ps).isEmpty = !(ps.any fun p => (w.search p.1).any (· k)) := by
        unfold matching
        rw [Bool.eq_iff_iff]; simp
      simp only [e]
      cases (ps.any fun p => (w.search p.1).any (· k)) <;> simp
  unfold objectItem
  cases hn : o.names with
  | none =>
    simp only [Res.ok_bind]
    cases hp : dictGet k o.props with
    | some p => rfl
    | none => exact key
  | some n =>
    apply Res.bind_congr; intro _
    cases hp : dictGet k o.props with
    | some p => rfl
    | none => exact key

theorem runRequired_spec (kvs : List (Str × Val)) (ctx : Ctx) (ks : List Str) :
    runRequired (.dict kvs) ctx ks = match ks.find? (fun k => !dictHas k kvs) with
      | none => .ok ()
      | some k => .err (raiseErr .required ctx.path k) := by
  induction ks with
  | nil => rfl
  | cons k ks ih =>
    simp only [runRequired, pyIn, Res.ok_bind, List.find?_cons]
    cases h : dictHas k kvs <;> simp [ih]

theorem depRequiredItems_spec (kvs : List (Str × Val)) (ctx : Ctx) (ks : List Str) :
    depRequiredItems kvs ctx ks = match ks.find? (fun k => !dictHas k kvs) with
      | none => .ok ()
      | some k => .err (raiseErr .dependent ctx.path k) := by
  induction ks with
  | nil => rfl
  | cons k ks ih =>
    simp only [depRequiredItems, List.find?_cons]
    cases h : dictHas k kvs <;> simp [ih]

theorem depRequiredLoop_spec (kvs : List (Str × Val)) (ctx : Ctx) (m : List (Str × List Str)) :
    depRequiredLoop kvs ctx m = match ((m.filter fun p => dictHas p.1 kvs).flatMap Prod.snd).find?
        (fun k => !dictHas k kvs) with
      | none => .ok ()
      | some k => .err (raiseErr .dependent ctx.path k) := by
  induction m with
  | nil => rfl
  | cons p m ih =>
    obtain ⟨k, is⟩ := p
    rw [depRequiredLoop, ih]
    by_cases h : dictHas k kvs = true
    · rw [List.filter_cons_of_pos (by simpa using h), List.flatMap_cons, List.find?_append, if_pos h,
        depRequiredItems_spec]
      cases hf : is.find? (fun k => !dictHas k kvs) <;> simp
    · rw [List.filter_cons_of_neg (by simpa using h), if_neg h]

end Verif
