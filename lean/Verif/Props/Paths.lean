import Verif.Proofs.Satisfies
/-!
# C32: the path of a `ValidationError`

`Blames … n v p y S`: while the schema node `n` is applied to `v`, a keyword of the schema `S`, applied to what is found at the
path `p` of `v` (namely `y`), raises the error.
-/

namespace Verif.Props
open Verif

/-- What a validator can be applied to in an instance: a location (object keys and list indices), the name of a member (for
`propertyNames`), and the `null` that stands for the first missing element of a list. -/
inductive Site : Val → List Str → Val → Prop
  | here (v : Val) : Site v [] v
  | item {xs : List Val} {i : Nat} {x y : Val} {p : List Str} (h : xs[i]? = some x) (s : Site x p y) : Site (.list xs) (natStr i :: p) y
  | member {kvs : List (Str × Val)} {k : Str} {x y : Val} {p : List Str} (h : (k, x) ∈ kvs) (s : Site x p y) : Site (.dict kvs) (k :: p) y
  | name {kvs : List (Str × Val)} {k : Str} {x : Val} (h : (k, x) ∈ kvs) : Site (.dict kvs) [k] (.str k)
  | missing (xs : List Val) : Site (.list xs) [natStr xs.length] .null

/-- Where the subschemas of a validator apply: subschema, value, and the keys that lead to it. -/
inductive Child {α : Type} : V α → Val → α → Val → List Str → Prop
  | allOf {xs : List α} {a : α} (v : Val) (h : a ∈ xs) : Child (.allOf xs) v a v []
  | anyOf {xs : List α} {a : α} (v : Val) (h : a ∈ xs) : Child (.anyOf xs) v a v []
  | oneOf {xs : List α} {a : α} (v : Val) (h : a ∈ xs) : Child (.oneOf xs) v a v []
  | then {i e : Option α} {a : α} (v : Val) : Child (.cond i (some a) e) v a v []
  | else {i t : Option α} {a : α} (v : Val) : Child (.cond i t (some a)) v a v []
  | dependent {m : List (Str × α)} {kvs : List (Str × Val)} {k : Str} {a : α} (h : (k, a) ∈ m) (hk : dictHas k kvs = true) :
    Child (.dependentSchemas m) (.dict kvs) a (.dict kvs) []
  | prefix {pre : List α} {it : Option α} {xs : List Val} {i : Nat} {a : α} {x : Val} (h : pre[i]? = some a) (hx : xs[i]? = some x) :
    Child (.array (some pre) it) (.list xs) a x [natStr i]
  | missing {pre : List α} {it : Option α} {xs : List Val} {a : α} (h : pre[xs.length]? = some a) :
    Child (.array (some pre) it) (.list xs) a .null [natStr xs.length]
  | items {pre : Option (List α)} {xs : List Val} {i : Nat} {a : α} {x : Val} (h : (pre.getD []).length ≤ i) (hx : xs[i]? = some x) :
    Child (.array pre (some a)) (.list xs) a x [natStr i]
  | name {o : ObjV α} {kvs : List (Str × Val)} {k : Str} {x : Val} {a : α} (h : o.names = some a) (hk : (k, x) ∈ kvs) :
    Child (.object o) (.dict kvs) a (.str k) [k]
  | prop {o : ObjV α} {kvs : List (Str × Val)} {k : Str} {x : Val} {a : α} (h : dictGet k o.props = some a) (hk : (k, x) ∈ kvs) :
    Child (.object o) (.dict kvs) a x [k]
  | pattern {o : ObjV α} {kvs : List (Str × Val)} {k : Str} {x : Val} {ps : List (Str × α)} {p : Str} {a : α} (h : o.patterns = some ps)
    (hp : (p, a) ∈ ps) (hk : (k, x) ∈ kvs) : Child (.object o) (.dict kvs) a x [k]
  | additional {o : ObjV α} {kvs : List (Str × Val)} {k : Str} {x : Val} {a : α} (h : o.additional = some (.lazy a)) (hk : (k, x) ∈ kvs) :
    Child (.object o) (.dict kvs) a x [k]

/-- The validators that only hand on what their subschemas raise. -/
def handsOn {α : Type} : V α → Bool
  | .allOf _ => true
  | .anyOf _ => true
  | .cond .. => true
  | .dependentSchemas _ => true
  | .array .. => true
  | .object _ => true
  | _ => false

/-- The validator `x` itself raises `e` for `v`: path and keys that lead to the location it complains about. -/
inductive Own {α : Type} (raises : Prop) (e : VErr) (ctx : Ctx) : V α → Val → List Str → Val → Prop
  | here {x : V α} {v : Val} (hx : handsOn x = false) (hu : x ≠ .uniqueItems) (hr : raises) (hp : e.path = ctx.path) : Own raises e ctx x v [] v
  | unexpected {o : ObjV α} {kvs : List (Str × Val)} {k : Str} {y : Val} (hk : (k, y) ∈ kvs) (hn : dictGet k o.props = none)
    (ho : o.additional = some .fail ∨ o.unevaluated = true) (hp : e.path = Ctx.path (ctx ++ [k])) : Own raises e ctx (.object o) (.dict kvs) [k] y
  /-- The index is added to the path without a dot. -/
  | unique {v : Val} {xs : List Val} {i : Nat} {y : Val} (hv : pyIter v = .ok xs) (hi : xs[i]? = some y) (hr : raises)
    (hp : e.path = ctx.path ++ natStr i) (hc : e.code = c!"unique_items_error") : Own raises e ctx .uniqueItems v [natStr i] y
  /-- The path is missing. -/
  | notList {pre : Option (List α)} {it : Option α} {v : Val} (hv : ∀ xs, v ≠ .list xs) (hr : raises) (hp : e.path = [])
    (hc : e.code = c!"type_error") :
    Own raises e ctx (.array pre it) v [] v

variable {α : Type}

theorem bind_err {α β : Type} {x : Res α} {g : α → Res β} {e : PyErr} : (x >>= g) = .err e ↔ x = .err e ∨ ∃ a, x = .ok a ∧ g a = .err e := by
  cases x <;> simp

theorem fmtField_val (known : List Str) (n : Str) (e : VErr) : fmtField known n ≠ some (.validation e) := by
  unfold fmtField
  split
  · rename_i e' he
    rcases fmtInt_errs he with rfl | rfl | rfl <;> simp
  · split <;> simp

theorem fmtGo_val (known : List Str) (a : Option Str) (s : Str) (e : VErr) : fmtGo known a s ≠ some (.validation e) := by
  have ho : ∀ n r, fmtOdd known n r ≠ .validation e := by
    intro n r
    rcases fmtOdd_errs known n r with h | h | h | h <;> simp [h]
  fun_induction fmtGo known a s <;> simp_all [fmtField_val]
  rename_i h; exact fun h' => fmtField_val known _ e (h.trans (congrArg some h'))

theorem raiseErr_path {c : ErrClass} {p d : Str} {e : VErr} (h : raiseErr c p d = .validation e) : e.path = p := by
  unfold raiseErr at h
  split at h
  · rename_i e' he
    exact absurd (h ▸ he) (fmtGo_val _ _ _ e)
  · simp at h; rw [← h]

theorem raiseErr_code {c : ErrClass} {p d : Str} {e : VErr} (h : raiseErr c p d = .validation e) : e.code = c.code := by
  unfold raiseErr at h
  split at h
  · rename_i e' he
    exact absurd (h ▸ he) (fmtGo_val _ _ _ e)
  · simp at h; rw [← h]

theorem typeNoPath_path {e : VErr} (h : raiseTypeNoPath = .validation e) : e.path = [] ∧ e.code = c!"type_error" := by
  unfold raiseTypeNoPath at h
  split at h
  · rename_i e' he
    exact absurd (h ▸ he) (fmtGo_val _ _ _ e)
  · simp at h; rw [← h]; exact ⟨rfl, rfl⟩

theorem raisePlain_path {p : Str} {e : VErr} (h : raisePlain p = .validation e) : e.path = p := by
  simp [raisePlain] at h; rw [← h]

/-- The errors of a computation carry this path. -/
def At {β : Type} (p : Str) (r : Res β) : Prop := ∀ e, r = .err (.validation e) → e.path = p

theorem At.ok {β : Type} {p : Str} (b : β) : At p (.ok b) := by intro e h; cases h
theorem At.timeout {β : Type} {p : Str} : At p (.timeout : Res β) := by intro e h; cases h
theorem At.raise {β : Type} {p : Str} (c : ErrClass) (d : Str) : At p (.err (raiseErr c p d) : Res β) := by
  intro e h; simp at h; exact raiseErr_path h
theorem At.plain {β : Type} {p : Str} : At p (.err (raisePlain p) : Res β) := by
  intro e h; simp at h; exact raisePlain_path h
theorem At.other {β : Type} {p : Str} {x : PyErr} (h : ∀ e, x ≠ .validation e) : At p (.err x : Res β) := by
  intro e h'; simp at h'; exact absurd h' (h e)
theorem At.bind {β γ : Type} {p : Str} {x : Res β} {g : β → Res γ} (hx : NoVal x) (hg : ∀ a, At p (g a)) : At p (x >>= g) := by
  intro e h
  rcases bind_err.1 h with h | ⟨a, _, h⟩
  · exact absurd h (hx e)
  · exact hg a e h

macro "at_tac" : tactic => `(tactic| repeat' (first
  | exact At.ok _
  | exact At.timeout
  | exact At.raise _ _
  | exact At.plain
  | exact At.other (by simp)
  | refine At.bind ?_ fun _ => ?_
  | split))

mutual
theorem nodeEqVal_noVal : ∀ (n : Node) (v : Val), NoVal (nodeEqVal n v)
  | .null, v => by cases v <;> exact NoVal.ok _
  | .bool b, v => by cases v <;> first | exact NoVal.ok _ | exact NoVal.ofErr (by simp)
  | .num b, v => by cases v <;> first | exact NoVal.ok _ | exact NoVal.ofErr (by simp)
  | .str b, v => by cases v <;> exact NoVal.ok _
  | .arr xs, v => by
    cases v <;> simp only [nodeEqVal] <;> try exact NoVal.ok _
    split
    · exact listEqVal_noVal _ _
    · exact NoVal.ok _
  | .obj xs, v => by
    cases v <;> simp only [nodeEqVal] <;> try exact NoVal.ok _
    split
    · exact dictEqVal_noVal _ _
    · exact NoVal.ok _
  | .ref _ _ _, v => by simp only [nodeEqVal]; exact NoVal.ofErr (by simp)
theorem listEqVal_noVal : ∀ (xs : List Node) (ys : List Val), NoVal (listEqVal xs ys)
  | [], _ => by simp only [listEqVal]; exact NoVal.ok _
  | _ :: _, [] => by simp only [listEqVal]; exact NoVal.ok _
  | x :: xs, y :: ys => by
    simp only [listEqVal]
    refine NoVal.bind' (nodeEqVal_noVal x y) fun a => ?_
    split
    · exact listEqVal_noVal xs ys
    · exact NoVal.ok _
theorem dictEqVal_noVal : ∀ (xs : List (Str × Node)) (ys : List (Str × Val)), NoVal (dictEqVal xs ys)
  | [], _ => by simp only [dictEqVal]; exact NoVal.ok _
  | (k, x) :: xs, ys => by
    simp only [dictEqVal]
    split
    · exact NoVal.ok _
    · refine NoVal.bind' (nodeEqVal_noVal x _) fun a => ?_
      split
      · exact dictEqVal_noVal xs ys
      · exact NoVal.ok _
end

theorem rawEqVal_noVal (n : Node) (v : Val) : NoVal (rawEqVal n v) := by
  unfold rawEqVal
  split <;> (try split) <;> first | exact NoVal.ok _ | exact nodeEqVal_noVal _ _

theorem lt_noVal (a b : Num) : NoVal (a.lt b) := by unfold Num.lt; split <;> first | exact NoVal.ok _ | exact NoVal.ofErr (by simp)
theorem le_noVal (a b : Num) : NoVal (a.le b) := by unfold Num.le; split <;> first | exact NoVal.ok _ | exact NoVal.ofErr (by simp)
theorem fix_noVal (q : Rat) : NoVal (Num.fix q) := by unfold Num.fix; simp only; repeat' (first | exact NoVal.ok _ | exact NoVal.ofErr (by simp) | split)
theorem rem_noVal (a b : Num) : NoVal (a.rem b) := by
  unfold Num.rem; simp only
  repeat' (first | exact NoVal.ok _ | exact NoVal.ofErr (by simp) | exact NoVal.bind' (fix_noVal _) fun _ => NoVal.ok _ | split)
theorem pyLen_noVal (v : Val) : NoVal (pyLen v) := by cases v <;> first | exact NoVal.ok _ | exact NoVal.ofErr (by simp)
theorem pyIter_noVal (v : Val) : NoVal (pyIter v) := by cases v <;> first | exact NoVal.ok _ | exact NoVal.ofErr (by simp)
theorem pyIn_noVal (k : Str) (v : Val) : NoVal (pyIn k v) := by cases v <;> first | exact NoVal.ok _ | exact NoVal.ofErr (by simp)
theorem toDecimal_noVal (w : World) (v : Val) : NoVal (toDecimal w v) := by
  unfold toDecimal; repeat' (first | exact NoVal.ok _ | exact NoVal.ofErr (by simp) | split)

theorem at_enum (vals : List Node) (v : Val) (ctx : Ctx) : At ctx.path (runEnum vals v ctx) := by
  have hl : ∀ vals, At ctx.path (enumLoop v ctx vals) := by
    intro vals
    induction vals with
    | nil => exact At.raise _ _
    | cons x xs ih =>
      refine At.bind (rawEqVal_noVal _ _) fun a => ?_
      repeat' (first | exact At.ok _ | exact ih | split)
  have hi : ∀ vals, NoVal (enumIn v vals) := by
    intro vals
    induction vals with
    | nil => exact NoVal.ok _
    | cons x xs ih =>
      refine NoVal.bind' (rawEqVal_noVal _ _) fun a => ?_
      split
      · exact NoVal.ok _
      · exact ih
  unfold runEnum
  simp only
  split
  · exact At.raise _ _
  · split
    · exact hl _
    · refine At.bind (hi _) fun a => ?_
      at_tac

theorem at_required (v : Val) (ctx : Ctx) (ks : List Str) : At ctx.path (runRequired v ctx ks) := by
  induction ks with
  | nil => exact At.ok _
  | cons k ks ih =>
    refine At.bind (pyIn_noVal _ _) fun a => ?_
    split
    · exact ih
    · exact At.raise _ _

theorem at_depRequired (kvs : List (Str × Val)) (ctx : Ctx) (m : List (Str × List Str)) : At ctx.path (depRequiredLoop kvs ctx m) := by
  have hi : ∀ is, At ctx.path (depRequiredItems kvs ctx is) := by
    intro is
    induction is with
    | nil => exact At.ok _
    | cons i is ih =>
      simp only [depRequiredItems]
      split
      · exact ih
      · exact At.raise _ _
  induction m with
  | nil => exact At.ok _
  | cons x m ih =>
    obtain ⟨k, is⟩ := x
    intro e h
    simp only [depRequiredLoop] at h
    split at h
    · rcases bind_err.1 h with h | ⟨_, _, h⟩
      · exact hi is e h
      · exact ih e h
    · exact ih e h

section
variable (rec : α → Val → Ctx → Res Unit) {e : VErr} {v : Val} {ctx : Ctx}

theorem attempt_noVal (r : Res Unit) : NoVal (attempt r) := by
  intro e h
  unfold attempt at h
  split at h <;> simp_all

theorem allOf_err {xs : List α} (h : allOfLoop rec v ctx xs = .err (.validation e)) : ∃ a ∈ xs, rec a v ctx = .err (.validation e) := by
  induction xs with
  | nil => cases h
  | cons a xs ih =>
    rcases bind_err.1 h with h | ⟨_, _, h⟩
    · exact ⟨a, by simp, h⟩
    · obtain ⟨b, hb, h⟩ := ih h
      exact ⟨b, by simp [hb], h⟩

theorem attempt_some {r : Res Unit} (h : attempt r = .ok (some e)) : r = .err (.validation e) := by
  unfold attempt at h
  split at h <;> simp_all

theorem anyOf_err {xs : List α} {last : Option VErr} (h : anyOfLoop rec v ctx last xs = .err (.validation e)) :
    last = some e ∨ ∃ a ∈ xs, rec a v ctx = .err (.validation e) := by
  induction xs generalizing last with
  | nil =>
    left
    simp only [anyOfLoop] at h
    split at h <;> simp_all
  | cons a xs ih =>
    rcases bind_err.1 h with h | ⟨r, hr, h⟩
    · exact absurd h (attempt_noVal _ e)
    · cases r with
      | none => cases h
      | some e' =>
        rcases ih h with h | ⟨b, hb, h⟩
        · simp at h; subst h; exact .inr ⟨a, by simp, attempt_some hr⟩
        · exact .inr ⟨b, by simp [hb], h⟩

theorem oneOf_last {xs : List α} {n m : Nat} {last l : Option VErr} (h : oneOfLoop rec v ctx n last xs = .ok (m, l)) (hl : l = some e) :
    last = some e ∨ ∃ a ∈ xs, rec a v ctx = .err (.validation e) := by
  induction xs generalizing last n with
  | nil => simp [oneOfLoop] at h; left; rw [h.2, hl]
  | cons a xs ih =>
    simp only [oneOfLoop] at h
    obtain ⟨r, hr, h⟩ := Res.bind_eq_ok.1 h
    cases r with
    | none =>
      rcases ih h with h | ⟨b, hb, h⟩
      · exact .inl h
      · exact .inr ⟨b, by simp [hb], h⟩
    | some e' =>
      rcases ih h with h | ⟨b, hb, h⟩
      · simp at h; subst h; exact .inr ⟨a, by simp, attempt_some hr⟩
      · exact .inr ⟨b, by simp [hb], h⟩

theorem oneOf_noVal (xs : List α) (n : Nat) (last : Option VErr) : NoVal (oneOfLoop rec v ctx n last xs) := by
  induction xs generalizing last n with
  | nil => exact NoVal.ok _
  | cons a xs ih =>
    refine NoVal.bind' (attempt_noVal _) fun r => ?_
    cases r <;> exact ih _ _

theorem contains_noVal (c : α) (xs : List Val) (n : Nat) : NoVal (containsLoop rec c n xs) := by
  induction xs generalizing n with
  | nil => exact NoVal.ok _
  | cons a xs ih =>
    refine NoVal.bind' (attempt_noVal _) fun r => ?_
    cases r <;> exact ih _

theorem itemsLoop_err {it : α} {i : Nat} {xs : List Val} (h : itemsLoop rec it ctx i xs = .err (.validation e)) :
    ∃ j x, xs[j]? = some x ∧ rec it x (ctx ++ [natStr (i + j)]) = .err (.validation e) := by
  induction xs generalizing i with
  | nil => cases h
  | cons a xs ih =>
    rcases bind_err.1 h with h | ⟨_, _, h⟩
    · exact ⟨0, a, rfl, h⟩
    · obtain ⟨j, x, hx, h⟩ := ih h
      exact ⟨j + 1, x, by simpa using hx, by rw [show i + (j + 1) = i + 1 + j by omega]; exact h⟩

theorem spin_err {f : Nat} {r : Res Unit} (h : spin f r = .err (.validation e)) : r = .err (.validation e) := by
  induction f with
  | zero => cases h
  | succ f ih =>
    simp only [spin] at h
    split at h
    · exact ih h
    · exact h

/-- What `arrayLoop` applies from position `i` on. -/
theorem arrayLoop_err {f : Nat} {it : Option α} {i : Nat} {ps : List α} {xs : List Val} (h : arrayLoop rec f it ctx i ps xs = .err (.validation e)) :
    (∃ j a x, ps[j]? = some a ∧ xs[j]? = some x ∧ rec a x (ctx ++ [natStr (i + j)]) = .err (.validation e)) ∨
    (∃ a, ps[xs.length]? = some a ∧ rec a .null (ctx ++ [natStr (i + xs.length)]) = .err (.validation e)) ∨
    (∃ j a x, it = some a ∧ ps.length ≤ j ∧ xs[j]? = some x ∧ rec a x (ctx ++ [natStr (i + j)]) = .err (.validation e)) := by
  induction ps generalizing i xs with
  | nil =>
    right; right
    cases it with
    | none => simp [arrayLoop] at h
    | some a =>
      simp only [arrayLoop] at h
      obtain ⟨j, x, hx, h⟩ := itemsLoop_err rec h
      exact ⟨j, a, x, rfl, by simp, hx, h⟩
  | cons p ps ih =>
    cases xs with
    | nil =>
      right; left
      exact ⟨p, rfl, spin_err h⟩
    | cons x xs =>
      rcases bind_err.1 h with h | ⟨_, _, h⟩
      · exact .inl ⟨0, p, x, rfl, rfl, h⟩
      · rcases ih h with ⟨j, a, y, h1, h2, h3⟩ | ⟨a, h1, h3⟩ | ⟨j, a, y, h1, h2, h3, h4⟩
        · exact .inl ⟨j + 1, a, y, by simpa using h1, by simpa using h2, by rw [show i + (j + 1) = i + 1 + j by omega]; exact h3⟩
        · exact .inr (.inl ⟨a, by simpa using h1, by simp only [List.length_cons]; rw [show i + (xs.length + 1) = i + 1 + xs.length by omega]; exact h3⟩)
        · exact .inr (.inr ⟨j + 1, a, y, h1, by simp; exact h2, by simpa using h3, by rw [show i + (j + 1) = i + 1 + j by omega]; exact h4⟩)

theorem patternLoop_err {w : World} {k : Str} {x : Val} {ps : List (Str × α)} {ev : Bool} (h : patternLoop rec w k x ctx ev ps = .err (.validation e)) :
    ∃ p a, (p, a) ∈ ps ∧ rec a x ctx = .err (.validation e) := by
  induction ps generalizing ev with
  | nil => cases h
  | cons q ps ih =>
    obtain ⟨p, a⟩ := q
    simp only [patternLoop] at h
    split at h
    · cases h
    · split at h
      · rcases bind_err.1 h with h | ⟨_, _, h⟩
        · exact ⟨p, a, by simp, h⟩
        · obtain ⟨p', a', hm, h⟩ := ih h
          exact ⟨p', a', by simp [hm], h⟩
      · obtain ⟨p', a', hm, h⟩ := ih h
        exact ⟨p', a', by simp [hm], h⟩

theorem objectItem_err {w : World} {o : ObjV α} {k : Str} {x : Val} {kvs : List (Str × Val)} (hk : (k, x) ∈ kvs)
    (h : objectItem rec w o k x ctx = .err (.validation e)) :
    (dictGet k o.props = none ∧ (o.additional = some .fail ∨ o.unevaluated = true) ∧ e.path = Ctx.path (ctx ++ [k])) ∨
    ∃ a y, Child (.object o) (.dict kvs) a y [k] ∧ rec a y (ctx ++ [k]) = .err (.validation e) := by
  have fin : ∀ ev : Bool, (if ev = true then Res.ok () else match o.additional with
        | some .fail => .err (raisePlain (Ctx.path (ctx ++ [k])))
        | some (.lazy a) => rec a x (ctx ++ [k])
        | none => if o.unevaluated then .err (raisePlain (Ctx.path (ctx ++ [k]))) else .ok ()) = .err (.validation e) →
      (o.additional = some .fail ∨ o.unevaluated = true) ∧ e.path = Ctx.path (ctx ++ [k]) ∨
      ∃ a y, Child (.object o) (.dict kvs) a y [k] ∧ rec a y (ctx ++ [k]) = .err (.validation e) := by
    intro ev h
    split at h
    · cases h
    · cases ha : o.additional with
      | none =>
        rw [ha] at h
        simp only at h
        split at h
        · rename_i hu
          exact .inl ⟨.inr hu, raisePlain_path (by simpa using h)⟩
        · cases h
      | some sb =>
        rw [ha] at h
        cases sb with
        | fail => exact .inl ⟨.inl rfl, raisePlain_path (by simpa using h)⟩
        | lazy a => exact .inr ⟨a, _, .additional ha hk, h⟩
  have main : ∀ g : Res Unit, (g = .ok () ∨ ∃ n, o.names = some n ∧ g = rec n (.str k) (ctx ++ [k])) → (g >>= fun _ => match dictGet k o.props with
      | some p => rec p x (ctx ++ [k])
      | none => (match o.patterns with
        | some ps => patternLoop rec w k x (ctx ++ [k]) false ps
        | none => .ok false) >>= fun ev => if ev = true then Res.ok () else match o.additional with
          | some .fail => .err (raisePlain (Ctx.path (ctx ++ [k])))
          | some (.lazy a) => rec a x (ctx ++ [k])
          | none => if o.unevaluated then .err (raisePlain (Ctx.path (ctx ++ [k]))) else .ok ()) = .err (.validation e) →
      (dictGet k o.props = none ∧ (o.additional = some .fail ∨ o.unevaluated = true) ∧ e.path = Ctx.path (ctx ++ [k])) ∨
      ∃ a y, Child (.object o) (.dict kvs) a y [k] ∧ rec a y (ctx ++ [k]) = .err (.validation e) := by
    intro g hg h
    rcases bind_err.1 h with h | ⟨_, _, h⟩
    · rcases hg with rfl | ⟨n, hn, rfl⟩
      · cases h
      · exact .inr ⟨n, _, .name hn hk, h⟩
    · cases hp : dictGet k o.props with
      | some p => rw [hp] at h; exact .inr ⟨p, _, .prop hp hk, h⟩
      | none =>
        rw [hp] at h
        simp only at h
        rcases bind_err.1 h with h | ⟨ev, _, h⟩
        · cases hps : o.patterns with
          | none => rw [hps] at h; cases h
          | some ps =>
            rw [hps] at h
            obtain ⟨p, a, hm, h⟩ := patternLoop_err rec h
            exact .inr ⟨a, _, .pattern hps hm hk, h⟩
        · rcases fin ev h with h | h
          · exact .inl ⟨rfl, h⟩
          · exact .inr h
  unfold objectItem at h
  cases hn : o.names with
  | none =>
    apply main (.ok ()) (.inl rfl)
    rw [hn] at h
    cases hps : o.patterns <;> rw [hps] at h <;> exact h
  | some n =>
    apply main _ (.inr ⟨n, hn, rfl⟩)
    rw [hn] at h
    cases hps : o.patterns <;> rw [hps] at h <;> exact h

theorem objectLoop_err {w : World} {o : ObjV α} {kvs kvs' : List (Str × Val)} (hs : ∀ p ∈ kvs', p ∈ kvs)
    (h : objectLoop rec w o ctx kvs' = .err (.validation e)) :
    (∃ k y, (k, y) ∈ kvs ∧ dictGet k o.props = none ∧ (o.additional = some .fail ∨ o.unevaluated = true) ∧ e.path = Ctx.path (ctx ++ [k])) ∨
    ∃ a y k, Child (.object o) (.dict kvs) a y [k] ∧ rec a y (ctx ++ [k]) = .err (.validation e) := by
  induction kvs' with
  | nil => cases h
  | cons q r ih =>
    obtain ⟨k, x⟩ := q
    simp only [objectLoop] at h
    have hk := hs (k, x) (by simp)
    rcases bind_err.1 h with h | ⟨_, _, h⟩
    · rcases objectItem_err rec hk h with h | ⟨a, y, h1, h2⟩
      · exact .inl ⟨k, x, hk, h⟩
      · exact .inr ⟨a, y, k, h1, h2⟩
    · exact ih (fun p hp => hs p (by simp [hp])) h

theorem depSchemas_err {kvs : List (Str × Val)} {m : List (Str × α)} (h : depSchemasLoop rec kvs ctx m = .err (.validation e)) :
    ∃ k a, (k, a) ∈ m ∧ dictHas k kvs = true ∧ rec a (.dict kvs) ctx = .err (.validation e) := by
  induction m with
  | nil => cases h
  | cons q r ih =>
    obtain ⟨k, a⟩ := q
    simp only [depSchemasLoop] at h
    split at h
    · rename_i hk
      rcases bind_err.1 h with h | ⟨_, _, h⟩
      · exact ⟨k, a, by simp, hk, h⟩
      · obtain ⟨k, a, h1, h2⟩ := ih h
        exact ⟨k, a, by simp [h1], h2⟩
    · obtain ⟨k, a, h1, h2⟩ := ih h
      exact ⟨k, a, by simp [h1], h2⟩

theorem uniqueLoop_err {seen xs : List Val} {i : Nat} (h : uniqueLoop ctx seen i xs = .err (.validation e)) :
    ∃ j y, xs[j]? = some y ∧ e.path = ctx.path ++ natStr (i + j) ∧ e.code = c!"unique_items_error" := by
  induction xs generalizing seen i with
  | nil => cases h
  | cons x xs ih =>
    simp only [uniqueLoop] at h
    split at h
    · cases h
    · split at h
      · exact ⟨0, x, rfl, raiseErr_path (by simpa using h), raiseErr_code (by simpa using h)⟩
      · obtain ⟨j, y, h1, h2, h3⟩ := ih h
        exact ⟨j + 1, y, by simpa using h1, by rw [h2, show i + (j + 1) = i + 1 + j by omega], h3⟩

theorem operand_noVal (v : Val) : NoVal (Operand.val v).num := by
  intro e; cases v <;> simp [Operand.num]

/-- Format checkers do not raise `ValidationError` themselves (all built-in ones: `C58`). -/
def FormatsPlain (w : World) : Prop := ∀ s check v, w.formats s = some check → NoVal (check v)

/-- Whatever a validator raises it raises itself, or hands on from a subschema. -/
theorem run_err {w : World} (hw : FormatsPlain w) {f : Nat} {x : V α} (h : run rec w f x v ctx = .err (.validation e)) :
    (∃ p y, Own (run rec w f x v ctx = .err (.validation e)) e ctx x v p y) ∨
    ∃ a y q, Child x v a y q ∧ rec a y (ctx ++ q) = .err (.validation e) := by
  have leaf : handsOn x = false → x ≠ .uniqueItems → At ctx.path (run rec w f x v ctx) →
      (∃ p y, Own (run rec w f x v ctx = .err (.validation e)) e ctx x v p y) ∨
      ∃ a y q, Child x v a y q ∧ rec a y (ctx ++ q) = .err (.validation e) :=
    fun h1 h2 h3 => .inl ⟨[], v, .here h1 h2 h (h3 e h)⟩
  cases x with
  | type ts => refine leaf rfl (by simp) ?_; simp only [run, runType]; at_tac
  | enum vals => exact leaf rfl (by simp) (at_enum _ _ _)
  | const n =>
    refine leaf rfl (by simp) ?_
    simp only [run, runConst]
    split
    · exact At.raise _ _
    · refine At.bind (rawEqVal_noVal _ _) fun a => ?_
      at_tac
  | maximum m ex =>
    refine leaf rfl (by simp) ?_
    simp only [run, runMaximum]
    repeat' (first | exact At.ok _ | exact At.raise _ _ | exact At.other (by simp) | refine At.bind (lt_noVal _ _) fun _ => ?_ | refine At.bind (le_noVal _ _) fun _ => ?_ | split)
  | minimum m ex =>
    refine leaf rfl (by simp) ?_
    simp only [run, runMinimum]
    repeat' (first | exact At.ok _ | exact At.raise _ _ | exact At.other (by simp) | refine At.bind (lt_noVal _ _) fun _ => ?_ | refine At.bind (le_noVal _ _) fun _ => ?_ | split)
  | multipleOf m =>
    refine leaf rfl (by simp) ?_
    refine At.bind (toDecimal_noVal _ _) fun _ => At.bind (rem_noVal _ _) fun _ => ?_
    at_tac
  | held y =>
    refine leaf rfl (by simp) ?_
    cases y with
    | maximum m ex =>
      refine At.bind ?_ fun _ => ?_
      · split <;> exact NoVal.bind' (operand_noVal _) fun _ => by first | exact le_noVal _ _ | exact lt_noVal _ _
      · at_tac
    | minimum m ex =>
      refine At.bind ?_ fun _ => ?_
      · split <;> exact NoVal.bind' (operand_noVal _) fun _ => by first | exact le_noVal _ _ | exact lt_noVal _ _
      · at_tac
    | multipleOf => exact At.bind (toDecimal_noVal _ _) fun _ => At.other (by simp)
    | const n =>
      simp only [run, runHeld]
      split
      · exact At.raise _ _
      · refine At.bind (nodeEqVal_noVal _ _) fun a => ?_
        at_tac
  | minLength n => refine leaf rfl (by simp) ?_; refine At.bind (pyLen_noVal _) fun _ => ?_; at_tac
  | maxLength n => refine leaf rfl (by simp) ?_; refine At.bind (pyLen_noVal _) fun _ => ?_; at_tac
  | minItems n => refine leaf rfl (by simp) ?_; refine At.bind (pyLen_noVal _) fun _ => ?_; at_tac
  | maxItems n => refine leaf rfl (by simp) ?_; refine At.bind (pyLen_noVal _) fun _ => ?_; at_tac
  | minProperties n => refine leaf rfl (by simp) ?_; refine At.bind (pyLen_noVal _) fun _ => ?_; at_tac
  | maxProperties n => refine leaf rfl (by simp) ?_; refine At.bind (pyLen_noVal _) fun _ => ?_; at_tac
  | uniqueItems =>
    have h' := h
    simp only [run] at h'
    rcases bind_err.1 h' with h' | ⟨xs, hxs, h'⟩
    · exact absurd h' (pyIter_noVal _ e)
    · obtain ⟨j, y, h1, h2, h3⟩ := uniqueLoop_err h'
      simp only [Nat.zero_add] at h2
      exact .inl ⟨_, _, .unique hxs h1 h h2 h3⟩
  | contains c mn mx =>
    refine leaf rfl (by simp) ?_
    refine At.bind (pyIter_noVal _) fun _ => At.bind (contains_noVal rec _ _ _) fun _ => ?_
    at_tac
  | array pre it =>
    have h' := h
    simp only [run, runArray] at h'
    split at h'
    · rename_i xs
      rcases arrayLoop_err rec h' with ⟨j, a, y, h1, h2, h3⟩ | ⟨a, h1, h3⟩ | ⟨j, a, y, h1, h2, h3, h4⟩
      · cases pre with
        | none => simp at h1
        | some pre => rw [Nat.zero_add] at h3; exact .inr ⟨a, y, _, .prefix h1 h2, h3⟩
      · cases pre with
        | none => simp at h1
        | some pre => rw [Nat.zero_add] at h3; exact .inr ⟨a, _, _, .missing h1, h3⟩
      · subst h1
        rw [Nat.zero_add] at h4
        exact .inr ⟨a, y, _, .items h2 h3, h4⟩
    · rename_i hv
      have := typeNoPath_path (e := e) (by simpa using h')
      exact .inl ⟨[], v, .notList hv h this.1 this.2⟩
  | object o =>
    have h' := h
    simp only [run, runObject] at h'
    split at h'
    · rcases objectLoop_err rec (fun _ hp => hp) h' with ⟨k, y, h1, h2, h3, h4⟩ | ⟨a, y, k, h1, h2⟩
      · exact .inl ⟨_, _, .unexpected h1 h2 h3 h4⟩
      · exact .inr ⟨a, y, _, h1, h2⟩
    · cases h'
  | required ks => exact leaf rfl (by simp) (at_required _ _ _)
  | dependentRequired m =>
    refine leaf rfl (by simp) ?_
    simp only [run]
    split
    · exact at_depRequired _ _ _
    · exact At.ok _
  | dependentSchemas m =>
    simp only [run] at h
    split at h
    · obtain ⟨k, a, h1, h2, h3⟩ := depSchemas_err rec h
      exact .inr ⟨a, _, [], .dependent h1 h2, by simpa using h3⟩
    · cases h
  | allOf xs =>
    obtain ⟨a, h1, h2⟩ := allOf_err rec h
    exact .inr ⟨a, _, [], .allOf v h1, by simpa using h2⟩
  | anyOf xs =>
    rcases anyOf_err rec h with h | ⟨a, h1, h2⟩
    · cases h
    · exact .inr ⟨a, _, [], .anyOf v h1, by simpa using h2⟩
  | oneOf xs =>
    have h' := h
    simp only [run, runOneOf] at h'
    rcases bind_err.1 h' with h' | ⟨⟨n, last⟩, hl, h'⟩
    · exact absurd h' (oneOf_noVal rec _ _ _ e)
    · simp only at h'
      split at h'
      · split at h'
        · simp only [Res.err.injEq, PyErr.validation.injEq] at h'
          subst h'
          rcases oneOf_last rec hl rfl with h | ⟨a, h1, h2⟩
          · cases h
          · exact .inr ⟨a, _, [], .oneOf v h1, by simpa using h2⟩
        · cases h'
      · split at h'
        · exact .inl ⟨[], v, .here rfl (by simp) h (raiseErr_path (by simpa using h'))⟩
        · cases h'
  | not y =>
    refine leaf rfl (by simp) ?_
    refine At.bind (attempt_noVal _) fun r => ?_
    cases r
    · exact At.plain
    · exact At.ok _
  | cond i t e' =>
    have h' := h
    simp only [run, runCond] at h'
    split at h'
    · cases h'
    · rcases bind_err.1 h' with h' | ⟨r, _, h'⟩
      · exact absurd h' (attempt_noVal _ e)
      · cases r with
        | some _ =>
          cases e' with
          | none => cases h'
          | some a => exact .inr ⟨a, _, [], .else v, by simpa using h'⟩
        | none =>
          cases t with
          | none => cases h'
          | some a => exact .inr ⟨a, _, [], .then v, by simpa using h'⟩
  | format s =>
    refine leaf rfl (by simp) ?_
    simp only [run, runFormat]
    split
    · exact At.other (by simp)
    · rename_i check hc
      refine At.bind (hw _ _ _ hc) fun _ => ?_
      at_tac
  | pattern p =>
    refine leaf rfl (by simp) ?_
    simp only [run, runPattern]
    at_tac

end

/-! ## The theorem -/

variable (w : World) (docs : List Doc) (voc : List Kw)

/-- The validators built for a schema object. -/
def Built (f : Nat) (n : Node) (d : Data Node) : Prop :=
  ∃ items, view docs f n = .ok (.obj items) ∧ loadAll w (view docs f) id items voc [] = (d, .ok ())

/-- While `n` is applied to `v`, the schema `S` complains about what is found in `v` at the path `p`. -/
inductive Blames (e : VErr) : Node → Val → Ctx → List Str → Val → Node → Prop
  | never {n : Node} {v : Val} {ctx : Ctx} {f : Nat} (h : view docs f n = .ok (.bool false)) (hp : e.path = ctx.path) : Blames e n v ctx [] v n
  | own {n : Node} {v y : Val} {ctx : Ctx} {p : List Str} {f : Nat} {d : Data Node} {key : Str} {x : V Node} (hb : Built w docs voc f n d)
    (hx : (key, x) ∈ d) (ho : Own (run (validateN w docs voc f) w f x v ctx = .err (.validation e)) e ctx x v p y) : Blames e n v ctx p y n
  | inside {n a S : Node} {v u y : Val} {ctx : Ctx} {q p : List Str} {f : Nat} {d : Data Node} {key : Str} {x : V Node} (hb : Built w docs voc f n d)
    (hx : (key, x) ∈ d) (hc : Child x v a u q) (h : Blames e a u (ctx ++ q) p y S) : Blames e n v ctx (q ++ p) y S

theorem runAll_err {rec : Node → Val → Ctx → Res Unit} {f : Nat} {v : Val} {ctx : Ctx} {d : Data Node} {e : PyErr}
    (h : runAll rec w f v ctx d = .err e) : ∃ key x, (key, x) ∈ d ∧ run rec w f x v ctx = .err e := by
  induction d with
  | nil => cases h
  | cons q d ih =>
    obtain ⟨k, x⟩ := q
    simp only [runAll] at h
    rcases bind_err.1 h with h | ⟨_, _, h⟩
    · exact ⟨k, x, by simp, h⟩
    · obtain ⟨k, x, h1, h2⟩ := ih h
      exact ⟨k, x, by simp [h1], h2⟩

theorem loadNonObject_noVal (n : Node) (ks : List Kw) : NoVal (loadNonObject n ks) := by
  have hk : ∀ k xs, NoVal (keyInArr k xs) := by
    intro k xs
    induction xs with
    | nil => exact NoVal.ok _
    | cons x xs ih =>
      cases x <;> simp only [keyInArr] <;> (try split) <;> first | exact NoVal.ok _ | exact NoVal.ofErr (by simp) | exact ih
  induction ks with
  | nil => exact NoVal.ok _
  | cons k ks ih =>
    simp only [loadNonObject]
    repeat' (first | exact NoVal.ofErr (by simp) | exact ih | refine NoVal.bind' (hk _ _) fun _ => ?_ | split)

/-- C32: every `ValidationError` comes from a keyword that failed for some part of the instance. -/
theorem C32_blamed (hw : FormatsPlain w) {f : Nat} {n : Node} {v : Val} {ctx : Ctx} {e : VErr}
    (h : validateN w docs voc f n v ctx = .err (.validation e)) : ∃ p y S, Blames w docs voc e n v ctx p y S := by
  induction f generalizing n v ctx with
  | zero => cases h
  | succ f ih =>
    simp only [validateN] at h
    rcases bind_err.1 h with h | ⟨x, hx, h⟩
    · exact absurd h (view_noVal _ _ _ e)
    · cases x with
      | bool b =>
        cases b
        · exact ⟨_, _, _, .never hx (raisePlain_path (by simpa using h))⟩
        · cases h
      | obj items =>
        simp only at h
        have hl := loadAll_noVal w docs f items voc ([] : Data Node)
        split at h
        · rename_i d hd
          obtain ⟨key, y, h1, h2⟩ := runAll_err w h
          rcases run_err (validateN w docs voc f) hw h2 with ⟨p, z, ho⟩ | ⟨a, z, q, hc, hr⟩
          · exact ⟨_, _, _, .own ⟨items, hx, hd⟩ h1 ho⟩
          · obtain ⟨p, y', S, hb⟩ := ih hr
            exact ⟨_, _, _, .inside ⟨items, hx, hd⟩ h1 hc hb⟩
        · rename_i e' hd
          rw [hd] at hl
          simp only [Res.err.injEq] at h
          exact absurd rfl (h ▸ hl e)
        · cases h
      | null => exact absurd h (loadNonObject_noVal _ _ e)
      | num m => exact absurd h (loadNonObject_noVal _ _ e)
      | str s => exact absurd h (loadNonObject_noVal _ _ e)
      | arr xs => exact absurd h (loadNonObject_noVal _ _ e)
      | ref a b c => exact absurd h (loadNonObject_noVal _ _ e)

theorem Site.trans {v u y : Val} {q p : List Str} (h1 : Site v q u) (h2 : Site u p y) : Site v (q ++ p) y := by
  induction h1 with
  | here => exact h2
  | item h _ ih => exact .item h (ih h2)
  | member h _ ih => exact .member h (ih h2)
  | name h => cases h2; exact .name h
  | missing xs => cases h2; exact .missing xs

theorem Child.site {x : V α} {v u : Val} {a : α} {q : List Str} (h : Child x v a u q) : Site v q u := by
  cases h <;> first | exact .here _ | exact .name ‹_› | exact .missing _ | exact .item ‹_› (.here _) | exact .member ‹_› (.here _)

/-- A location of the instance. -/
inductive Loc : Val → List Str → Val → Prop
  | here (v : Val) : Loc v [] v
  | item {xs : List Val} {i : Nat} {x y : Val} {p : List Str} (h : xs[i]? = some x) (s : Loc x p y) : Loc (.list xs) (natStr i :: p) y
  | member {kvs : List (Str × Val)} {k : Str} {x y : Val} {p : List Str} (h : (k, x) ∈ kvs) (s : Loc x p y) : Loc (.dict kvs) (k :: p) y

/-- A site is a location, the name of a member at a location, or one past the end of a list at a location. -/
theorem Site.loc {v y : Val} {p : List Str} (h : Site v p y) :
    Loc v p y ∨ (∃ q k z, p = q ++ [k] ∧ y = .str k ∧ Loc v p z) ∨ ∃ q xs, p = q ++ [natStr xs.length] ∧ y = .null ∧ Loc v q (.list xs) := by
  induction h with
  | here => exact .inl (.here _)
  | item h _ ih =>
    rcases ih with h1 | ⟨q, k, z, rfl, rfl, h1⟩ | ⟨q, xs, rfl, rfl, h1⟩
    · exact .inl (.item h h1)
    · exact .inr (.inl ⟨_ :: q, k, z, rfl, rfl, .item h h1⟩)
    · exact .inr (.inr ⟨_ :: q, xs, rfl, rfl, .item h h1⟩)
  | member h _ ih =>
    rcases ih with h1 | ⟨q, k, z, rfl, rfl, h1⟩ | ⟨q, xs, rfl, rfl, h1⟩
    · exact .inl (.member h h1)
    · exact .inr (.inl ⟨_ :: q, k, z, rfl, rfl, .member h h1⟩)
    · exact .inr (.inr ⟨_ :: q, xs, rfl, rfl, .member h h1⟩)
  | name h => exact .inr (.inl ⟨[], _, _, rfl, rfl, .member h (.here _)⟩)
  | missing xs => exact .inr (.inr ⟨[], xs, rfl, rfl, .here _⟩)

theorem blames_path {e : VErr} {n S : Node} {v y : Val} {ctx : Ctx} {p : List Str} (h : Blames w docs voc e n v ctx p y S) :
    Site v p y ∧ e.path = Ctx.path (ctx ++ p) ∨
    e.code = c!"unique_items_error" ∧ (∃ q i z xs, p = q ++ [natStr i] ∧ Site v q z ∧ pyIter z = .ok xs ∧ xs[i]? = some y ∧
      e.path = Ctx.path (ctx ++ q) ++ natStr i) ∨
    e.code = c!"type_error" ∧ e.path = [] ∧ Site v p y ∧ ∀ xs, y ≠ .list xs := by
  induction h with
  | never h hp => exact .inl ⟨.here _, by simpa using hp⟩
  | own hb hx ho =>
    cases ho with
    | here h1 h2 hr hp => exact .inl ⟨.here _, by simpa using hp⟩
    | unexpected hk hn ho hp => exact .inl ⟨.member hk (.here _), hp⟩
    | unique hv hi hr hp hc => exact .inr (.inl ⟨hc, [], _, _, _, rfl, .here _, hv, hi, by simpa using hp⟩)
    | notList hv hr hp hc => exact .inr (.inr ⟨hc, hp, .here _, hv⟩)
  | inside hb hx hc _ ih =>
    rcases ih with ⟨h1, h2⟩ | ⟨h1, q, i, z, xs, rfl, h5, h6, h7, h2⟩ | ⟨h1, h2, h3, h4⟩
    · exact .inl ⟨hc.site.trans h1, by rw [h2, List.append_assoc]⟩
    · exact .inr (.inl ⟨h1, _, i, z, xs, (List.append_assoc _ _ _).symm, hc.site.trans h5, h6, h7, by rw [h2, List.append_assoc]⟩)
    · exact .inr (.inr ⟨h1, h2, hc.site.trans h3, h4⟩)

/-- C32, for all errors but two kinds: the path of the error is the dotted path to what a keyword failed for: a location of the instance, or
one past the end of a list (which is treated as `null` when the list is shorter than `prefixItems`).  The two kinds are those of
`uniqueItems`, where the index of the element that is there twice is added without a dot, and the `type_error` of `items` and
`prefixItems` for what is no list, where the path is empty. -/
theorem C32_path_partial (hw : FormatsPlain w) {f : Nat} {n : Node} {v : Val} {e : VErr}
    (h : validateN w docs voc f n v [] = .err (.validation e)) :
    ∃ p y S, Blames w docs voc e n v [] p y S ∧
      ((e.path = strJoin c!"." p ∧ ((∃ z, Loc v p z) ∨ ∃ q xs, p = q ++ [natStr xs.length] ∧ y = .null ∧ Loc v q (.list xs))) ∨
      e.code = c!"unique_items_error" ∧ (∃ q i z xs, p = q ++ [natStr i] ∧ Site v q z ∧ pyIter z = .ok xs ∧ xs[i]? = some y ∧
        e.path = strJoin c!"." q ++ natStr i) ∨
      e.code = c!"type_error" ∧ e.path = [] ∧ Site v p y ∧ ∀ xs, y ≠ .list xs) := by
  obtain ⟨p, y, S, hb⟩ := C32_blamed w docs voc hw h
  refine ⟨p, y, S, hb, ?_⟩
  rcases blames_path w docs voc hb with ⟨h1, h2⟩ | h1 | h1
  · refine .inl ⟨h2, ?_⟩
    rcases h1.loc with h | ⟨q, k, z, _, _, h⟩ | h
    · exact .inl ⟨_, h⟩
    · exact .inl ⟨_, h⟩
    · exact .inr h
  · exact .inr (.inl h1)
  · exact .inr (.inr h1)

/-- The index is added without a dot: `{properties: {a: {uniqueItems: true}}}` on `{a: [1, 1]}` gives the path `a1`, which is not the path of a
location. -/
theorem C32_unique_violated : ∀ w, ∃ n v e, validateN w [] [.properties, .uniqueItems] 5 n v [] = .err (.validation e) ∧ e.path = c!"a1" ∧
    ¬ ∃ p z, Loc v p z ∧ e.path = strJoin c!"." p := by
  intro w
  refine ⟨.obj [(c!"properties", .obj [(c!"a", .obj [(c!"uniqueItems", .bool true)])])], .dict [(c!"a", .list [.int 1, .int 1])],
    ⟨c!"unique_items_error", c!"a1", []⟩, ?_, rfl, ?_⟩
  · rfl
  · rintro ⟨p, z, h, e⟩
    cases h with
    | here => simp [strJoin] at e
    | member hm h =>
      simp at hm
      obtain ⟨rfl, rfl⟩ := hm
      cases h with
      | here => simp [strJoin] at e
      | item hi h => simp [strJoin] at e

/-- One past the end: `{prefixItems: [{type: "string"}]}` on `[]` gives the path `0`. -/
theorem C32_missing_violated : ∀ w, ∃ n v e, validateN w [] [.prefixItems, .type] 5 n v [] = .err (.validation e) ∧ e.path = c!"0" ∧
    ¬ ∃ p z, Loc v p z ∧ e.path = strJoin c!"." p := by
  intro w
  refine ⟨.obj [(c!"prefixItems", .arr [.obj [(c!"type", .str c!"string")]])], .list [],
    ⟨c!"type_error", c!"0", []⟩, ?_, rfl, ?_⟩
  · rfl
  · rintro ⟨p, z, h, e⟩
    cases h with
    | here => simp [strJoin] at e
    | item hi h => simp at hi

/-- No path: `{properties: {a: {items: {}}}}` on `{a: 1}` fails at `a`, but the error has the path of the whole instance, which the
schema without that keyword accepts. -/
theorem C32_type_violated : ∀ w, ∃ n v e, validateN w [] [.properties, .items] 5 n v [] = .err (.validation e) ∧ e.path = [] ∧
    validateN w [] [.properties] 5 n v [] = .ok () ∧ ∃ S, Blames w [] [.properties, .items] e n v [] [c!"a"] (.int 1) S := by
  intro w
  have h : validateN w [] [.properties, .items] 5 (.obj [(c!"properties", .obj [(c!"a", .obj [(c!"items", .obj [])])])]) (.dict [(c!"a", .int 1)]) []
      = .err (.validation ⟨c!"type_error", [], []⟩) := by rfl
  refine ⟨_, _, _, h, rfl, by rfl, .obj [(c!"items", .obj [])], ?_⟩
  refine .inside (q := [c!"a"]) (p := []) (f := 4) (key := c!"properties") (d := [(c!"properties", .object { props := [(c!"a", .obj [(c!"items", .obj [])])] })])
    ⟨_, rfl, rfl⟩ (List.mem_singleton.2 rfl) (.prop rfl (List.mem_singleton.2 rfl)) ?_
  refine .own (f := 3) (key := c!"items") (d := [(c!"items", .array none (some (.obj [])))]) ⟨_, rfl, rfl⟩ (List.mem_singleton.2 rfl) ?_
  exact .notList (by simp) (by rfl) rfl rfl

/-- `{properties: {a: {items: {type: "string"}}}}` on `{a: ["x", 1]}`: the path is `a.1`. -/
example (w : World) : validateN w [] [.properties, .items, .type] 6
    (.obj [(c!"properties", .obj [(c!"a", .obj [(c!"items", .obj [(c!"type", .str c!"string")])])])])
    (.dict [(c!"a", .list [.str c!"x", .int 1])]) [] = .err (.validation ⟨c!"type_error", c!"a.1", []⟩) := by rfl

end Verif.Props
