import Verif.Spec.Complaint
import Verif.Proofs.Refs
import Verif.Proofs.Bridge
import Verif.Proofs.EnumAll
import Verif.Props.Paths
/-!
# Where the validators of a schema come from, and what they say (C98)
-/

namespace Verif.Spec
open Verif Props

theorem getKey_ok {items : List (Str × Node)} {s : Str} {n : Node} (h : getKey items s = .ok n) : dictGet s items = some n := by
  unfold getKey at h
  split at h
  · rename_i e; cases h; exact e
  · cases h

theorem iterRef_all {xs : List Node} : ∀ {rest ys : List Node} {i : Nat}, iterRef xs i rest = .ok ys → ys = rest
  | [], ys, i, h => by
    unfold iterRef at h
    obtain ⟨b, _, h⟩ := Res.bind_eq_ok.1 h
    cases b <;> simp at h
    exact h
  | x :: rest, ys, i, h => by
    unfold iterRef at h
    obtain ⟨b, _, h⟩ := Res.bind_eq_ok.1 h
    cases b
    · simp at h
    · simp only [if_true] at h
      obtain ⟨r, hr, h⟩ := Res.bind_eq_ok.1 h
      cases h
      rw [iterRef_all hr]

theorem seqOf_all {n : Node} {xs ys : List Node} (h : seqOf n xs = .ok ys) : ys = xs := by
  unfold seqOf at h
  split at h
  · exact iterRef_all h
  · cases h; rfl

section
variable {vw : Node → Res Node} {items : List (Str × Node)} {s : Str}

theorem numKey_ok {n : Node} {m : Num} (h : numKey vw items s = .ok (n, m)) : dictGet s items = some n ∧ vw n = .ok (.num m) := by
  unfold numKey at h
  obtain ⟨a, ha, h⟩ := Res.bind_eq_ok.1 h
  obtain ⟨b, hb, h⟩ := Res.bind_eq_ok.1 h
  split at h
  · cases h; exact ⟨getKey_ok ha, hb⟩
  · cases h

theorem toInt_ok {m : Num} {i : Int} (h : m.toInt = .ok i) : ∃ q : Rat, m = .fin q ∧ i = q.num.tdiv q.den := by
  cases m <;> simp [Num.toInt] at h
  exact ⟨_, rfl, h.symm⟩

theorem intKey_ok {i : Int} (h : intKey vw items s = .ok i) : ∃ n q, dictGet s items = some n ∧ vw n = .ok (.num (.fin q)) ∧ i = q.num.tdiv q.den := by
  unfold intKey at h
  obtain ⟨a, ha, h⟩ := Res.bind_eq_ok.1 h
  obtain ⟨b, hb, h⟩ := Res.bind_eq_ok.1 h
  split at h
  · split at h
    · cases h
    · obtain ⟨q, rfl, e⟩ := toInt_ok h
      exact ⟨a, q, getKey_ok ha, hb, e⟩
  · cases h

theorem intValueKey_ok {i : Int} (h : intValueKey vw items s = .ok i) : ∃ n q, dictGet s items = some n ∧ vw n = .ok (.num (.fin q)) ∧ i = q.num.tdiv q.den := by
  unfold intValueKey at h
  obtain ⟨a, ha, h⟩ := Res.bind_eq_ok.1 h
  obtain ⟨b, hb, h⟩ := Res.bind_eq_ok.1 h
  split at h
  · split at h
    · cases h
    · obtain ⟨q, rfl, e⟩ := toInt_ok h
      exact ⟨a, q, getKey_ok ha, hb, e⟩
  · cases h

theorem subKey_ok {a : Node} (h : subKey vw id items s = .ok a) : dictGet s items = some a := by
  unfold subKey at h
  obtain ⟨n, hn, h⟩ := Res.bind_eq_ok.1 h
  obtain ⟨b, hb, h⟩ := Res.bind_eq_ok.1 h
  split at h
  · cases h; exact getKey_ok hn
  · cases h

theorem subsKey_ok {xs : List Node} (h : subsKey vw id items s = .ok xs) : ∃ n, dictGet s items = some n ∧ vw n = .ok (.arr xs) := by
  unfold subsKey at h
  obtain ⟨n, hn, h⟩ := Res.bind_eq_ok.1 h
  obtain ⟨b, hb, h⟩ := Res.bind_eq_ok.1 h
  split at h
  · obtain ⟨ys, hy, h⟩ := Res.bind_eq_ok.1 h
    cases h
    rw [seqOf_all hy, List.map_id]
    exact ⟨n, getKey_ok hn, hb⟩
  · cases h

theorem subMapKey_ok {kvs : List (Str × Node)} (h : subMapKey vw id items s = .ok kvs) : ∃ n, dictGet s items = some n ∧ vw n = .ok (.obj kvs) := by
  unfold subMapKey at h
  obtain ⟨n, hn, h⟩ := Res.bind_eq_ok.1 h
  obtain ⟨b, hb, h⟩ := Res.bind_eq_ok.1 h
  split at h
  · rename_i l
    cases h
    refine ⟨n, getKey_ok hn, hb.trans ?_⟩
    simp
  · cases h

end

theorem nodeStr_type {w : World} {n : Node} (h : nodeStr w n ∈ validTypes) : n = .str (nodeStr w n) := by
  have e : ∀ s ∈ validTypes, s.getLast? ≠ some ')' := by decide
  cases n with
  | str s => rfl
  | null => exact absurd rfl (e _ h)
  | bool b => cases b <;> exact absurd rfl (e _ h)
  | _ => exact absurd (by simp [nodeStr]) (e _ h)

section
variable (w : World) (voc : List Kw) (sees : Node → Node → Prop) (its : List (Str × Node))

/-- Where a bound comes from; `ref` if it was given by reference. -/
def FromBound (key excl : Kw) (ref : Bool) (m : Num) (e : Bool) : Prop :=
  ∃ n, sees n (.num m) ∧ n.isRef = ref ∧
    (HasKw voc its key n ∧ (e = true → ∃ x, dictGet excl.key its = some x ∧ (sees x (.bool true) ∨ sees x (.num (.fin 1)))) ∨
      HasKw voc its excl n ∧ e = true)

/-- Where a limit comes from. -/
def FromLimit (k : Kw) (i : Int) : Prop := ∃ n q, HasKw voc its k n ∧ sees n (.num (.fin q)) ∧ i = q.num.tdiv q.den

/-- Where a limit of `contains` comes from. -/
def FromCount (s : Str) (i : Int) : Prop := ∃ n q, dictGet s its = some n ∧ sees n (.num (.fin q)) ∧ i = q.num.tdiv q.den

def FromList (k : Kw) (xs : List Node) : Prop := ∃ n, HasKw voc its k n ∧ sees n (.arr xs)
def FromMap (k : Kw) (m : List (Str × Node)) : Prop := ∃ n, HasKw voc its k n ∧ sees n (.obj m)

/-- Where the `ObjectValidator` comes from. -/
structure FromObj (o : ObjV Node) : Prop where
  props : ∀ k a, (k, a) ∈ o.props → ∃ m, FromMap voc sees its .properties m ∧ (k, a) ∈ m
  patterns : ∀ m, o.patterns = some m → FromMap voc sees its .patternProperties m
  fail : o.additional = some .fail → ∃ n, HasKw voc its .additionalProperties n ∧ sees n (.bool false)
  lazy : ∀ a, o.additional = some (.lazy a) → HasKw voc its .additionalProperties a
  unevaluated : o.unevaluated = true → ∃ n, HasKw voc its .unevaluatedProperties n ∧ sees n (.bool false)
  names : ∀ a, o.names = some a → HasKw voc its .propertyNames a

/-- Where a validator stored under a key comes from. -/
def FromV (key : Str) : V Node → Prop
  | .type ts => ∃ n, HasKw voc its .type n ∧ ((∃ t, n = .str t ∧ ts = [t]) ∨ sees n (.arr (ts.map .str))) ∧ ∀ t ∈ ts, t ∈ validTypes
  | .enum xs => HasKw voc its .enum (.arr xs)
  | .const x => HasKw voc its .const x ∧ x.Scalar ∧ sees x x
  | .maximum m e => FromBound voc sees its .maximum .exclusiveMaximum false m e
  | .minimum m e => FromBound voc sees its .minimum .exclusiveMinimum false m e
  | .multipleOf m => ∃ n, HasKw voc its .multipleOf n ∧ sees n (.num m)
  | .minLength i => FromLimit voc sees its .minLength i
  | .maxLength i => FromLimit voc sees its .maxLength i
  | .minItems i => FromLimit voc sees its .minItems i
  | .maxItems i => FromLimit voc sees its .maxItems i
  | .minProperties i => FromLimit voc sees its .minProperties i
  | .maxProperties i => FromLimit voc sees its .maxProperties i
  | .uniqueItems => ∃ n, HasKw voc its .uniqueItems n ∧ sees n (.bool true)
  | .contains c mn mx => HasKw voc its .contains c ∧ (dictGet c!"minContains" its = none ∧ mn = 1 ∨ FromCount sees its c!"minContains" mn) ∧
    ∀ i, mx = some i → FromCount sees its c!"maxContains" i
  | .array pre it => (∃ n, HasKw voc its .prefixItems n ∨ HasKw voc its .items n) ∧
    (∀ ps, pre = some ps → FromList voc sees its .prefixItems ps ∨ FromList voc sees its .items ps) ∧
    (key = c!"prefixItems" → it = none) ∧
    ∀ s, it = some s → (HasKw voc its .items s ∧ ∀ xs, ¬ sees s (.arr xs)) ∨
      ∃ ps, pre = some ps ∧ FromList voc sees its .items ps ∧ dictGet c!"additionalItems" its = some s
  | .object o => key = c!"properties" ∧ FromObj voc sees its o
  | .required ks => ∃ xs, FromList voc sees its .required xs ∧ ks = xs.map (nodeStr w)
  | .dependentRequired m => ∃ l, FromMap voc sees its .dependentRequired l ∧ ∀ k ds, (k, ds) ∈ m → ∃ x, (k, x) ∈ l ∧ ∀ d ∈ ds, Lists x d
  | .dependentSchemas m => FromMap voc sees its .dependentSchemas m
  | .allOf xs => FromList voc sees its .allOf xs
  | .anyOf xs => FromList voc sees its .anyOf xs
  | .oneOf xs => FromList voc sees its .oneOf xs
  | .not s => HasKw voc its .not s
  | .cond i t e => (∀ s, i = some s → HasKw voc its .if s) ∧ (∀ s, t = some s → HasKw voc its .then s) ∧ ∀ s, e = some s → HasKw voc its .else s
  | .format d => ∃ n, HasKw voc its .format n ∧ (n = .str d ∨ n.isRef = true)
  | .pattern d => ∃ n, HasKw voc its .pattern n ∧ (n = .str d ∨ n.isRef = true)
  | .held (.maximum m e) => FromBound voc sees its .maximum .exclusiveMaximum true m e
  | .held (.minimum m e) => FromBound voc sees its .minimum .exclusiveMinimum true m e
  | .held .multipleOf => True
  | .held (.const x) => ∃ n, HasKw voc its .const n ∧ n.isRef = true ∧ sees n x ∧ x.Scalar

/-- Where a change to the validators comes from. -/
def FromU (k : Kw) : Upd Node → Prop
  | .nop => True
  | .set x => FromV w voc sees its k.key x ∧ k.key ≠ c!"properties" ∧ ∀ o, x ≠ .object o
  | .props m => FromMap voc sees its .properties m
  | .patterns m => FromMap voc sees its .patternProperties m
  | .additional s => (s = some .fail → ∃ n, HasKw voc its .additionalProperties n ∧ sees n (.bool false)) ∧
    ∀ a, s = some (.lazy a) → HasKw voc its .additionalProperties a
  | .unevaluated b => b = true → ∃ n, HasKw voc its .unevaluatedProperties n ∧ sees n (.bool false)
  | .names a => HasKw voc its .propertyNames a
  | .ifs a => HasKw voc its .if a
  | .thens a => HasKw voc its .then a
  | .elses a => HasKw voc its .else a
  | .itemsArr ps it => FromList voc sees its .items ps ∧ ∀ s, it = some s → dictGet c!"additionalItems" its = some s
  | .itemsOne it => (∃ n, HasKw voc its .items n) ∧ ∀ s, it = some s → HasKw voc its .items s ∧ ∀ xs, ¬ sees s (.arr xs)
  | .pre ps => FromList voc sees its .prefixItems ps

end

/-- The node is this, or refers to it. -/
def Sees (docs : List Doc) (n m : Node) : Prop := ∃ f, view docs f n = .ok m

theorem Sees.fun {docs : List Doc} {n a b : Node} (ha : Sees docs n a) (hb : Sees docs n b) : a = b := by
  obtain ⟨f, hf⟩ := ha
  obtain ⟨g, hg⟩ := hb
  have := view_agree hf (g := g) (by rw [hg]; simp)
  rw [hg] at this
  cases this; rfl

section
variable {w : World} {docs : List Doc} {voc : List Kw} {items : List (Str × Node)} {f : Nat}

theorem eqTrue_ok {n : Node} (h : eqTrue (view docs f) n = .ok true) : Sees docs n (.bool true) ∨ Sees docs n (.num (.fin 1)) := by
  unfold eqTrue at h
  obtain ⟨b, hb, h⟩ := Res.bind_eq_ok.1 h
  split at h
  · cases h; exact .inl ⟨f, hb⟩
  · rename_i m
    cases m <;> simp [Num.eq] at h
    subst h
    exact .inr ⟨f, hb⟩
  · cases h

theorem bound_from {key excl : Kw} {e : Bool} (hk : key ∈ voc) {n : Node} {m : Num}
    (h1 : numKey (view docs f) items key.key = .ok (n, m))
    (h2 : (match dictGet excl.key items with | some x => eqTrue (view docs f) x | none => .ok false) = .ok e) :
    FromBound voc (Sees docs) items key excl n.isRef m e := by
  obtain ⟨h1, h3⟩ := numKey_ok h1
  refine ⟨n, ⟨f, h3⟩, rfl, .inl ⟨⟨hk, h1⟩, ?_⟩⟩
  rintro rfl
  split at h2
  · rename_i x hx
    exact ⟨x, hx, eqTrue_ok h2⟩
  · cases h2

theorem maxV_from {k : Str} {n : Node} {m : Num} {e : Bool} (h : FromBound voc (Sees docs) items .maximum .exclusiveMaximum n.isRef m e) :
    FromV w voc (Sees docs) items k (maxV n m e) := by
  unfold maxV
  split
  · rename_i hr; rw [hr] at h; exact h
  · rename_i hr; simp only [Bool.not_eq_true] at hr; rw [hr] at h; exact h

theorem minV_from {k : Str} {n : Node} {m : Num} {e : Bool} (h : FromBound voc (Sees docs) items .minimum .exclusiveMinimum n.isRef m e) :
    FromV w voc (Sees docs) items k (minV n m e) := by
  unfold minV
  split
  · rename_i hr; rw [hr] at h; exact h
  · rename_i hr; simp only [Bool.not_eq_true] at hr; rw [hr] at h; exact h

theorem view_isRef {n m : Node} (hr : n.isRef = false) (h : view docs f n = .ok m) : n = m := by
  cases n with
  | ref => cases hr
  | _ => cases f <;> simp [view] at h <;> exact h

theorem strItemsMap_from : ∀ {l : List (Str × Node)} {m : List (Str × List Str)}, strItemsMap w l = .ok m →
    ∀ k ds, (k, ds) ∈ m → ∃ x, (k, x) ∈ l ∧ ∀ d ∈ ds, Lists x d
  | [], m, h, k, ds, hm => by
    cases h; cases hm
  | (k', x) :: l, m, h, k, ds, hm => by
    unfold strItemsMap at h
    obtain ⟨xs, hx, h⟩ := Res.bind_eq_ok.1 h
    obtain ⟨r, hr, h⟩ := Res.bind_eq_ok.1 h
    cases h
    rcases List.mem_cons.1 hm with e | hm
    · cases e
      refine ⟨x, .head _, ?_⟩
      rintro d hd ss rfl
      simp only [strItems, Res.ok.injEq] at hx
      subst hx
      simpa using hd
    · obtain ⟨y, h1, h2⟩ := strItemsMap_from hr k ds hm
      exact ⟨y, .tail _ h1, h2⟩

theorem readKw_from {k : Kw} (hk : k ∈ voc) {u : Upd Node} (h : readKw w (view docs f) id items k = .ok u) :
    FromU w voc (Sees docs) items k u := by
  cases k with
  | type =>
    simp only [readKw] at h
    obtain ⟨n, hn, h⟩ := Res.bind_eq_ok.1 h
    obtain ⟨m, hm, h⟩ := Res.bind_eq_ok.1 h
    split at h
    · simp only [Res.ok_bind] at h
      split at h
      · rename_i hall
        cases h
        simp only [List.all_eq_true, decide_eq_true_eq] at hall
        exact ⟨⟨n, ⟨hk, getKey_ok hn⟩, .inl ⟨_, nodeStr_type (hall _ (by simp)), rfl⟩, hall⟩, by decide, by simp⟩
      · cases h
    · rename_i xs
      obtain ⟨ys, hy, h⟩ := Res.bind_eq_ok.1 h
      simp only [Res.ok_bind] at h
      rw [seqOf_all hy] at h
      split at h
      · rename_i hall
        cases h
        simp only [List.all_eq_true, decide_eq_true_eq] at hall
        refine ⟨⟨n, ⟨hk, getKey_ok hn⟩, .inr ⟨f, hm.trans ?_⟩, hall⟩, by decide, by simp⟩
        rw [List.map_map]
        have : xs.map (Node.str ∘ nodeStr w) = xs.map id := by
          apply List.map_congr_left
          intro x hx
          exact (nodeStr_type (hall _ (List.mem_map.2 ⟨x, hx, rfl⟩))).symm
        rw [this, List.map_id]
      · cases h
    · cases h
  | enum =>
    simp only [readKw] at h
    obtain ⟨n, hn, h⟩ := Res.bind_eq_ok.1 h
    obtain ⟨m, hm, h⟩ := Res.bind_eq_ok.1 h
    split at h
    · split at h
      · cases h
      · rename_i hr
        cases h
        have : n = _ := view_isRef (by cases n <;> first | rfl | exact absurd rfl (hr _ _ _)) hm
        subst this
        exact ⟨⟨hk, getKey_ok hn⟩, by decide, by simp⟩
    · cases h
  | const =>
    simp only [readKw] at h
    obtain ⟨n, hn, h⟩ := Res.bind_eq_ok.1 h
    obtain ⟨m, hm, h⟩ := Res.bind_eq_ok.1 h
    have hs : m.Scalar ∧ u = .set (if n.isRef then .held (.const m) else .const m) := by
      have := Obj.view_not_ref hm
      cases m <;> first | (cases h; done) | (cases h; exact ⟨trivial, rfl⟩) | exact absurd rfl (this _ _ _)
    obtain ⟨hs, rfl⟩ := hs
    cases hr : n.isRef
    · have := view_isRef hr hm
      subst this
      exact ⟨⟨⟨hk, getKey_ok hn⟩, hs, ⟨f, hm⟩⟩, by decide, by simp⟩
    · exact ⟨⟨n, ⟨hk, getKey_ok hn⟩, hr, ⟨f, hm⟩, hs⟩, by decide, by simp⟩
  | maximum =>
    simp only [readKw] at h
    obtain ⟨⟨n, m⟩, hn, h⟩ := Res.bind_eq_ok.1 h
    split at h
    · rename_i x hx
      obtain ⟨e, he, h⟩ := Res.bind_eq_ok.1 h
      cases h
      exact ⟨maxV_from (bound_from (excl := .exclusiveMaximum) hk hn (by change (match dictGet _ items with | some x => _ | none => _) = _; rw [show dictGet (Kw.exclusiveMaximum).key items = some x from hx]; exact he)), by decide, by unfold maxV; split <;> simp⟩
    · rename_i hx
      cases h
      exact ⟨maxV_from (bound_from (excl := .exclusiveMaximum) hk hn (by rw [show dictGet (Kw.exclusiveMaximum).key items = none from hx])), by decide, by unfold maxV; split <;> simp⟩
  | minimum =>
    simp only [readKw] at h
    obtain ⟨⟨n, m⟩, hn, h⟩ := Res.bind_eq_ok.1 h
    split at h
    · rename_i x hx
      obtain ⟨e, he, h⟩ := Res.bind_eq_ok.1 h
      cases h
      exact ⟨minV_from (bound_from (excl := .exclusiveMinimum) hk hn (by change (match dictGet _ items with | some x => _ | none => _) = _; rw [show dictGet (Kw.exclusiveMinimum).key items = some x from hx]; exact he)), by decide, by unfold minV; split <;> simp⟩
    · rename_i hx
      cases h
      exact ⟨minV_from (bound_from (excl := .exclusiveMinimum) hk hn (by rw [show dictGet (Kw.exclusiveMinimum).key items = none from hx])), by decide, by unfold minV; split <;> simp⟩
  | exclusiveMaximum =>
    simp only [readKw] at h
    obtain ⟨n, hn, h⟩ := Res.bind_eq_ok.1 h
    obtain ⟨m, hm, h⟩ := Res.bind_eq_ok.1 h
    split at h
    · split at h
      · cases h; exact trivial
      · cases h
    · cases h
      exact ⟨maxV_from ⟨n, ⟨f, hm⟩, rfl, .inr ⟨⟨hk, getKey_ok hn⟩, rfl⟩⟩, by decide, by unfold maxV; split <;> simp⟩
    · cases h
  | exclusiveMinimum =>
    simp only [readKw] at h
    obtain ⟨n, hn, h⟩ := Res.bind_eq_ok.1 h
    obtain ⟨m, hm, h⟩ := Res.bind_eq_ok.1 h
    split at h
    · split at h
      · cases h; exact trivial
      · cases h
    · cases h
      exact ⟨minV_from ⟨n, ⟨f, hm⟩, rfl, .inr ⟨⟨hk, getKey_ok hn⟩, rfl⟩⟩, by decide, by unfold minV; split <;> simp⟩
    · cases h
  | multipleOf =>
    simp only [readKw] at h
    obtain ⟨⟨n, m⟩, hn, h⟩ := Res.bind_eq_ok.1 h
    cases h
    obtain ⟨h1, h2⟩ := numKey_ok hn
    refine ⟨?_, by decide, by simp only []; split <;> simp⟩
    simp only []
    split
    · exact trivial
    · exact ⟨n, ⟨hk, h1⟩, ⟨f, h2⟩⟩
  | minLength | maxLength | minItems | maxItems | minProperties | maxProperties =>
    simp only [readKw] at h
    obtain ⟨i, hi, h⟩ := Res.bind_eq_ok.1 h
    cases h
    obtain ⟨n, q, h1, h2, h3⟩ := intKey_ok hi
    exact ⟨⟨n, q, ⟨hk, h1⟩, ⟨f, h2⟩, h3⟩, by decide, by simp⟩
  | uniqueItems =>
    simp only [readKw] at h
    obtain ⟨n, hn, h⟩ := Res.bind_eq_ok.1 h
    obtain ⟨m, hm, h⟩ := Res.bind_eq_ok.1 h
    split at h
    · rename_i b
      cases b
      · cases h; exact trivial
      · cases h; exact ⟨⟨n, ⟨hk, getKey_ok hn⟩, ⟨f, hm⟩⟩, by decide, by simp⟩
    · cases h
  | contains =>
    simp only [readKw] at h
    obtain ⟨c, hc, h⟩ := Res.bind_eq_ok.1 h
    have hc : HasKw voc items .contains c := ⟨hk, subKey_ok hc⟩
    have hmn : ∀ {i}, intValueKey (view docs f) items c!"minContains" = .ok i → FromCount (Sees docs) items c!"minContains" i := by
      intro i hi
      obtain ⟨n, q, h1, h2, h3⟩ := intValueKey_ok hi
      exact ⟨n, q, h1, ⟨f, h2⟩, h3⟩
    have hmx : ∀ {i}, intValueKey (view docs f) items c!"maxContains" = .ok i → FromCount (Sees docs) items c!"maxContains" i := by
      intro i hi
      obtain ⟨n, q, h1, h2, h3⟩ := intValueKey_ok hi
      exact ⟨n, q, h1, ⟨f, h2⟩, h3⟩
    split at h
    · obtain ⟨mn, hm, h⟩ := Res.bind_eq_ok.1 h
      split at h
      · obtain ⟨mx, hx, h⟩ := Res.bind_eq_ok.1 h
        cases h
        exact ⟨⟨hc, .inr (hmn hm), by rintro i ⟨⟩; exact hmx hx⟩, by decide, by simp⟩
      · cases h
        exact ⟨⟨hc, .inr (hmn hm), by rintro i ⟨⟩⟩, by decide, by simp⟩
    · rename_i hd
      have hd : dictGet c!"minContains" items = none := by simpa [dictHas] using hd
      simp only [Res.ok_bind] at h
      split at h
      · obtain ⟨mx, hx, h⟩ := Res.bind_eq_ok.1 h
        cases h
        exact ⟨⟨hc, .inl ⟨hd, rfl⟩, by rintro i ⟨⟩; exact hmx hx⟩, by decide, by simp⟩
      · cases h
        exact ⟨⟨hc, .inl ⟨hd, rfl⟩, by rintro i ⟨⟩⟩, by decide, by simp⟩
  | items =>
    simp only [readKw] at h
    obtain ⟨n, hn, h⟩ := Res.bind_eq_ok.1 h
    obtain ⟨m, hm, h⟩ := Res.bind_eq_ok.1 h
    have hn := getKey_ok hn
    split at h
    · obtain ⟨ys, hy, h⟩ := Res.bind_eq_ok.1 h
      rw [seqOf_all hy] at h
      split at h
      · cases h
        refine ⟨⟨n, ⟨hk, hn⟩, f, hm.trans (by simp)⟩, by simp⟩
      · rename_i a ha
        obtain ⟨b, hb, h⟩ := Res.bind_eq_ok.1 h
        split at h
        · cases h
          exact ⟨⟨n, ⟨hk, hn⟩, f, hm.trans (by simp)⟩, by simp⟩
        · cases h
          refine ⟨⟨n, ⟨hk, hn⟩, f, hm.trans (by simp)⟩, ?_⟩
          rintro s ⟨⟩
          exact ha
    · cases h
      refine ⟨⟨n, hk, hn⟩, ?_⟩
      rintro s ⟨⟩
      refine ⟨⟨hk, hn⟩, fun xs hx => ?_⟩
      cases Sees.fun hx ⟨f, hm⟩
    · rename_i b
      cases h
      refine ⟨⟨n, hk, hn⟩, ?_⟩
      intro s hs
      cases b
      · cases hs
        refine ⟨⟨hk, hn⟩, fun xs hx => ?_⟩
        cases Sees.fun hx ⟨f, hm⟩
      · cases hs
    · cases h
  | prefixItems =>
    simp only [readKw] at h
    obtain ⟨xs, hx, h⟩ := Res.bind_eq_ok.1 h
    cases h
    obtain ⟨n, h1, h2⟩ := subsKey_ok hx
    exact ⟨n, ⟨hk, h1⟩, f, h2⟩
  | properties | patternProperties =>
    simp only [readKw] at h
    obtain ⟨xs, hx, h⟩ := Res.bind_eq_ok.1 h
    cases h
    obtain ⟨n, h1, h2⟩ := subMapKey_ok hx
    exact ⟨n, ⟨hk, h1⟩, f, h2⟩
  | additionalProperties =>
    simp only [readKw] at h
    obtain ⟨n, hn, h⟩ := Res.bind_eq_ok.1 h
    obtain ⟨m, hm, h⟩ := Res.bind_eq_ok.1 h
    have hn := getKey_ok hn
    split at h
    · cases h; exact ⟨by simp, by simp⟩
    · cases h; exact ⟨fun _ => ⟨n, ⟨hk, hn⟩, f, hm⟩, by simp⟩
    · cases h
      refine ⟨by simp, ?_⟩
      rintro a ⟨⟩
      exact ⟨hk, hn⟩
    · cases h
  | unevaluatedProperties =>
    simp only [readKw] at h
    obtain ⟨n, hn, h⟩ := Res.bind_eq_ok.1 h
    obtain ⟨m, hm, h⟩ := Res.bind_eq_ok.1 h
    split at h
    · cases h; exact fun h => absurd h (by simp)
    · cases h; exact fun _ => ⟨n, ⟨hk, getKey_ok hn⟩, f, hm⟩
    · cases h
  | propertyNames | «if» | «then» | «else» =>
    simp only [readKw] at h
    obtain ⟨a, ha, h⟩ := Res.bind_eq_ok.1 h
    cases h
    exact ⟨hk, subKey_ok ha⟩
  | required =>
    simp only [readKw] at h
    obtain ⟨n, hn, h⟩ := Res.bind_eq_ok.1 h
    obtain ⟨m, hm, h⟩ := Res.bind_eq_ok.1 h
    split at h
    · obtain ⟨ys, hy, h⟩ := Res.bind_eq_ok.1 h
      cases h
      rw [seqOf_all hy]
      exact ⟨⟨_, ⟨n, ⟨hk, getKey_ok hn⟩, f, hm⟩, rfl⟩, by decide, by simp⟩
    · cases h
  | dependentRequired =>
    simp only [readKw] at h
    obtain ⟨n, hn, h⟩ := Res.bind_eq_ok.1 h
    obtain ⟨m, hm, h⟩ := Res.bind_eq_ok.1 h
    split at h
    · obtain ⟨ys, hy, h⟩ := Res.bind_eq_ok.1 h
      cases h
      exact ⟨⟨_, ⟨n, ⟨hk, getKey_ok hn⟩, f, hm⟩, strItemsMap_from hy⟩, by decide, by simp⟩
    · cases h
  | dependentSchemas =>
    simp only [readKw] at h
    obtain ⟨xs, hx, h⟩ := Res.bind_eq_ok.1 h
    cases h
    obtain ⟨n, h1, h2⟩ := subMapKey_ok hx
    exact ⟨⟨n, ⟨hk, h1⟩, f, h2⟩, by decide, by simp⟩
  | allOf | anyOf | oneOf =>
    simp only [readKw] at h
    obtain ⟨xs, hx, h⟩ := Res.bind_eq_ok.1 h
    cases h
    obtain ⟨n, h1, h2⟩ := subsKey_ok hx
    exact ⟨⟨n, ⟨hk, h1⟩, f, h2⟩, by decide, by simp⟩
  | not =>
    simp only [readKw] at h
    obtain ⟨a, ha, h⟩ := Res.bind_eq_ok.1 h
    cases h
    exact ⟨⟨hk, subKey_ok ha⟩, by decide, by simp⟩
  | format =>
    simp only [readKw] at h
    obtain ⟨n, hn, h⟩ := Res.bind_eq_ok.1 h
    obtain ⟨m, hm, h⟩ := Res.bind_eq_ok.1 h
    split at h
    · split at h
      · cases h
      · cases h
        refine ⟨⟨n, ⟨hk, getKey_ok hn⟩, ?_⟩, by decide, by simp⟩
        cases hr : n.isRef
        · have := view_isRef hr hm
          subst this
          exact .inl rfl
        · exact .inr rfl
    · cases h
  | pattern =>
    simp only [readKw] at h
    obtain ⟨n, hn, h⟩ := Res.bind_eq_ok.1 h
    obtain ⟨m, hm, h⟩ := Res.bind_eq_ok.1 h
    split at h
    · split at h
      · cases h
      · cases h
        refine ⟨⟨n, ⟨hk, getKey_ok hn⟩, ?_⟩, by decide, by simp⟩
        cases hr : n.isRef
        · have := view_isRef hr hm
          subst this
          exact .inl rfl
        · exact .inr rfl
    · cases h
  | ref | anchor | id => cases h; exact trivial

theorem HasKw.fun {k : Kw} {a b : Node} (ha : HasKw voc items k a) (hb : HasKw voc items k b) : a = b := by
  have := ha.2.symm.trans hb.2
  cases this; rfl

theorem FromMap.fun {k : Kw} {a b : List (Str × Node)} (ha : FromMap voc (Sees docs) items k a) (hb : FromMap voc (Sees docs) items k b) : a = b := by
  obtain ⟨n, h1, h2⟩ := ha
  obtain ⟨m, h3, h4⟩ := hb
  cases HasKw.fun h1 h3
  cases Sees.fun h2 h4
  rfl

theorem FromList.fun {k : Kw} {a b : List Node} (ha : FromList voc (Sees docs) items k a) (hb : FromList voc (Sees docs) items k b) : a = b := by
  obtain ⟨n, h1, h2⟩ := ha
  obtain ⟨m, h3, h4⟩ := hb
  cases HasKw.fun h1 h3
  cases Sees.fun h2 h4
  rfl

variable (w docs voc items) in
/-- What is known of the dictionary of validators after the keywords `done`. -/
structure FromData (done : List Kw) (d : Data Node) : Prop where
  nodup : (d.map Prod.fst).Nodup
  origin : ∀ k x, (k, x) ∈ d → FromV w voc (Sees docs) items k x
  props : ∀ m, .properties ∈ done → FromMap voc (Sees docs) items .properties m →
    ∃ o, dictGet c!"properties" d = some (.object o) ∧ ∀ k ∈ m.map Prod.fst, dictHas k o.props = true
  patterns : ∀ m, .patternProperties ∈ done → FromMap voc (Sees docs) items .patternProperties m →
    ∃ o, dictGet c!"properties" d = some (.object o) ∧ o.patterns = some m

theorem FromData.objOf {done : List Kw} {d : Data Node} (h : FromData w docs voc items done d) : FromObj voc (Sees docs) items (objOf d) := by
  unfold Verif.objOf
  split
  · rename_i o e
    exact (h.origin _ _ (dictGet_mem e)).2
  · exact ⟨by simp, by simp, by simp, by simp, by simp, by simp⟩

theorem FromData.condOf {done : List Kw} {d : Data Node} (h : FromData w docs voc items done d) :
    FromV w voc (Sees docs) items c!"if" (.cond (condOf d).1 (condOf d).2.1 (condOf d).2.2) := by
  unfold Verif.condOf
  split
  · rename_i e
    exact h.origin _ _ (dictGet_mem e)
  · exact ⟨by simp, by simp, by simp⟩

/-- A validator stored under another key. -/
theorem FromData.set {k : Kw} {done : List Kw} {d : Data Node} (h : FromData w docs voc items done d) {key : Str} {x : V Node}
    (hx : FromV w voc (Sees docs) items key x) (hk : key ≠ c!"properties") (h1 : k ≠ .properties) (h2 : k ≠ .patternProperties) :
    FromData w docs voc items (k :: done) (dictSet key x d) := by
  refine ⟨nodup_set _ _ _ h.nodup, ?_, ?_, ?_⟩
  · intro j y hy
    rcases mem_dictSet hy with e | hy
    · cases e; exact hx
    · exact h.origin _ _ hy
  · intro m hm hf
    obtain ⟨o, e, ho⟩ := h.props m ((List.mem_cons.1 hm).resolve_left (Ne.symm h1)) hf
    exact ⟨o, by rw [dictGet_set, if_neg hk, e], ho⟩
  · intro m hm hf
    obtain ⟨o, e, ho⟩ := h.patterns m ((List.mem_cons.1 hm).resolve_left (Ne.symm h2)) hf
    exact ⟨o, by rw [dictGet_set, if_neg hk, e], ho⟩

/-- A change of the `ObjectValidator`. -/
theorem FromData.obj {k : Kw} {done : List Kw} {d : Data Node} (h : FromData w docs voc items done d) {g : ObjV Node → ObjV Node}
    (hg : FromObj voc (Sees docs) items (g (Verif.objOf d)))
    (h1 : ∀ m, FromMap voc (Sees docs) items .properties m → (k = .properties ∨ ∀ j ∈ m.map Prod.fst, dictHas j (Verif.objOf d).props = true) →
      ∀ j ∈ m.map Prod.fst, dictHas j (g (Verif.objOf d)).props = true)
    (h2 : ∀ m, FromMap voc (Sees docs) items .patternProperties m → (k = .patternProperties ∨ (Verif.objOf d).patterns = some m) →
      (g (Verif.objOf d)).patterns = some m) :
    FromData w docs voc items (k :: done) (setObj g d) := by
  refine ⟨nodup_set _ _ _ h.nodup, ?_, ?_, ?_⟩
  · intro j y hy
    rcases mem_dictSet hy with e | hy
    · cases e; exact ⟨rfl, hg⟩
    · exact h.origin _ _ hy
  · intro m hm hf
    refine ⟨_, by rw [setObj, dictGet_set, if_pos rfl], h1 m hf ?_⟩
    rcases List.mem_cons.1 hm with e | hm
    · exact .inl e.symm
    · obtain ⟨o, e, ho⟩ := h.props m hm hf
      exact .inr (by rw [Verif.objOf, e]; exact ho)
  · intro m hm hf
    refine ⟨_, by rw [setObj, dictGet_set, if_pos rfl], h2 m hf ?_⟩
    rcases List.mem_cons.1 hm with e | hm
    · exact .inl e.symm
    · obtain ⟨o, e, ho⟩ := h.patterns m hm hf
      exact .inr (by rw [Verif.objOf, e]; exact ho)

theorem foldl_set_mem {α : Type} {k : Str} {a : α} : ∀ {kvs p : List (Str × α)}, (k, a) ∈ kvs.foldl (fun p x => dictSet x.1 x.2 p) p → (k, a) ∈ kvs ∨ (k, a) ∈ p
  | [], p, h => .inr h
  | x :: kvs, p, h => by
    rcases foldl_set_mem (kvs := kvs) h with h | h
    · exact .inl (.tail _ h)
    · rcases mem_dictSet h with e | h
      · cases x; cases e; exact .inl (.head _)
      · exact .inr h

theorem foldl_set_has {α : Type} {k : Str} : ∀ {kvs p : List (Str × α)}, k ∈ kvs.map Prod.fst ∨ dictHas k p = true →
    dictHas k (kvs.foldl (fun p x => dictSet x.1 x.2 p) p) = true
  | [], p, h => h.resolve_left (by simp)
  | x :: kvs, p, h => by
    refine foldl_set_has (kvs := kvs) ?_
    rw [List.map_cons, List.mem_cons] at h
    have : dictHas k (dictSet x.1 x.2 p) = true ↔ x.1 = k ∨ dictHas k p = true := by
      simp only [dictHas, dictGet_set]
      split <;> simp [*]
    rw [this]
    rcases h with (h | h) | h
    · exact .inr (.inl h.symm)
    · exact .inl h
    · exact .inr (.inr h)

theorem apply_from {k : Kw} {u : Upd Node} (hu : readKw w (view docs f) id items k = .ok u) (hk : k ∈ voc) {done : List Kw} {d d' : Data Node}
    (h : FromData w docs voc items done d) (ha : u.apply k.key d = .ok d') : FromData w docs voc items (k :: done) d' := by
  have hf := readKw_from hk hu
  have hp : k = .properties → ∃ m, u = .props m := by
    rintro rfl
    simp only [readKw] at hu
    obtain ⟨m, _, e⟩ := Res.bind_eq_ok.1 hu
    cases e
    exact ⟨_, rfl⟩
  have hq : k = .patternProperties → ∃ m, u = .patterns m := by
    rintro rfl
    simp only [readKw] at hu
    obtain ⟨m, _, e⟩ := Res.bind_eq_ok.1 hu
    cases e
    exact ⟨_, rfl⟩
  have ho := h.objOf
  have hc := h.condOf
  cases u with
  | nop =>
    cases ha
    refine ⟨h.nodup, h.origin, fun m hm => h.props m ((List.mem_cons.1 hm).resolve_left ?_), fun m hm => h.patterns m ((List.mem_cons.1 hm).resolve_left ?_)⟩
    · rintro rfl; obtain ⟨m, e⟩ := hp rfl; cases e
    · rintro rfl; obtain ⟨m, e⟩ := hq rfl; cases e
  | set x =>
    cases ha
    exact h.set hf.1 hf.2.1 (by rintro rfl; obtain ⟨m, e⟩ := hp rfl; cases e) (by rintro rfl; obtain ⟨m, e⟩ := hq rfl; cases e)
  | props kvs =>
    cases ha
    refine h.obj ⟨?_, ho.patterns, ho.fail, ho.lazy, ho.unevaluated, ho.names⟩ ?_ ?_
    · intro j a hm
      rcases foldl_set_mem hm with hm | hm
      · exact ⟨_, hf, hm⟩
      · exact ho.props j a hm
    · intro m hm _ j hj
      cases FromMap.fun hf hm
      exact foldl_set_has (.inl hj)
    · intro m hm e
      refine e.resolve_left ?_
      intro e; obtain ⟨m, e⟩ := hq e; cases e
  | patterns kvs =>
    cases ha
    refine h.obj ⟨ho.props, ?_, ho.fail, ho.lazy, ho.unevaluated, ho.names⟩ ?_ ?_
    · rintro m ⟨⟩; exact hf
    · intro m hm e
      refine e.resolve_left ?_
      intro e; obtain ⟨m, e⟩ := hp e; cases e
    · intro m hm e
      cases FromMap.fun hf hm
      rfl
  | additional s =>
    cases ha
    refine h.obj ⟨ho.props, ho.patterns, ?_, ?_, ho.unevaluated, ho.names⟩ ?_ ?_
    · intro e
      cases s with
      | none => exact ho.fail e
      | some s => exact hf.1 e
    · intro a e
      cases s with
      | none => exact ho.lazy a e
      | some s => exact hf.2 a e
    · intro m hm e
      refine e.resolve_left ?_
      intro e; obtain ⟨m, e⟩ := hp e; cases e
    · intro m hm e
      refine e.resolve_left ?_
      intro e; obtain ⟨m, e⟩ := hq e; cases e
  | unevaluated b =>
    cases ha
    refine h.obj ⟨ho.props, ho.patterns, ho.fail, ho.lazy, ?_, ho.names⟩ ?_ ?_
    · intro e
      cases b with
      | false => exact ho.unevaluated e
      | true => exact hf rfl
    · intro m hm e
      refine e.resolve_left ?_
      intro e; obtain ⟨m, e⟩ := hp e; cases e
    · intro m hm e
      refine e.resolve_left ?_
      intro e; obtain ⟨m, e⟩ := hq e; cases e
  | names a =>
    cases ha
    refine h.obj ⟨ho.props, ho.patterns, ho.fail, ho.lazy, ho.unevaluated, ?_⟩ ?_ ?_
    · rintro b ⟨⟩; exact hf
    · intro m hm e
      refine e.resolve_left ?_
      intro e; obtain ⟨m, e⟩ := hp e; cases e
    · intro m hm e
      refine e.resolve_left ?_
      intro e; obtain ⟨m, e⟩ := hq e; cases e
  | ifs a =>
    cases ha
    exact h.set ⟨by rintro s ⟨⟩; exact hf, hc.2.1, hc.2.2⟩ (by decide) (by rintro rfl; obtain ⟨m, e⟩ := hp rfl; cases e)
      (by rintro rfl; obtain ⟨m, e⟩ := hq rfl; cases e)
  | thens a =>
    cases ha
    exact h.set ⟨hc.1, by rintro s ⟨⟩; exact hf, hc.2.2⟩ (by decide) (by rintro rfl; obtain ⟨m, e⟩ := hp rfl; cases e)
      (by rintro rfl; obtain ⟨m, e⟩ := hq rfl; cases e)
  | elses a =>
    cases ha
    exact h.set ⟨hc.1, hc.2.1, by rintro s ⟨⟩; exact hf⟩ (by decide) (by rintro rfl; obtain ⟨m, e⟩ := hp rfl; cases e)
      (by rintro rfl; obtain ⟨m, e⟩ := hq rfl; cases e)
  | itemsArr ps it =>
    cases ha
    obtain ⟨hl, hi⟩ := hf
    obtain ⟨n, hn, hs⟩ := id hl
    refine h.set ⟨⟨n, .inr hn⟩, by rintro _ ⟨⟩; exact .inr hl, fun e => absurd e (by decide), ?_⟩ (by decide) (by rintro rfl; obtain ⟨m, e⟩ := hp rfl; cases e)
      (by rintro rfl; obtain ⟨m, e⟩ := hq rfl; cases e)
    intro s e
    cases it with
    | some t => cases e; exact .inr ⟨ps, rfl, hl, hi _ rfl⟩
    | none =>
      simp only [Option.none_or, arrayOf] at e
      split at e
      · rename_i p i eq
        rcases (h.origin _ _ (dictGet_mem eq)).2.2.2 s e with ⟨hs', hx⟩ | ⟨ps', rfl, hl', ha⟩
        · cases HasKw.fun hs' hn
          exact absurd hs (hx _)
        · exact .inr ⟨ps, rfl, hl, ha⟩
      · cases e
  | itemsOne it =>
    cases ha
    obtain ⟨⟨n, hn⟩, hi⟩ := hf
    have hold : FromV w voc (Sees docs) items c!"items" (.array (arrayOf c!"items" d).1 (arrayOf c!"items" d).2) := by
      unfold arrayOf
      split
      · rename_i eq
        exact h.origin _ _ (dictGet_mem eq)
      · exact ⟨⟨n, .inr hn⟩, by simp, by simp, by simp⟩
    refine h.set ⟨⟨n, .inr hn⟩, hold.2.1, fun e => absurd e (by decide), ?_⟩ (by decide) (by rintro rfl; obtain ⟨m, e⟩ := hp rfl; cases e)
      (by rintro rfl; obtain ⟨m, e⟩ := hq rfl; cases e)
    intro s e
    cases it with
    | some t => cases e; exact .inl (hi _ rfl)
    | none => exact hold.2.2.2 s e
  | pre ps =>
    simp only [Upd.apply] at ha
    obtain ⟨n, hn, hs⟩ := id hf
    have key : ∀ it, it = none → FromV w voc (Sees docs) items c!"prefixItems" (.array (some ps) it) := by
      rintro _ rfl
      exact ⟨⟨n, .inl hn⟩, by rintro _ ⟨⟩; exact .inl hf, by simp, by simp⟩
    have none' : k ≠ .properties ∧ k ≠ .patternProperties :=
      ⟨(by rintro rfl; obtain ⟨m, e⟩ := hp rfl; cases e), (by rintro rfl; obtain ⟨m, e⟩ := hq rfl; cases e)⟩
    split at ha
    · split at ha
      · cases ha
        refine h.set (key _ ?_) (by decide) none'.1 none'.2
        unfold arrayOf
        split
        · rename_i eq
          exact (h.origin _ _ (dictGet_mem eq)).2.2.1 rfl
        · rfl
      · cases ha
    · cases ha
      exact h.set (key _ rfl) (by decide) none'.1 none'.2

theorem loadAll_from : ∀ (ks done : List Kw) (d d' : Data Node), (∀ k ∈ ks, k ∈ voc) → FromData w docs voc items done d →
    loadAll w (view docs f) id items ks d = (d', .ok ()) → ∀ all, (∀ k ∈ all, k ∈ ks ∨ k ∈ done) → FromData w docs voc items all d'
  | [], done, d, d', _, h, e, all, hall => by
    cases e
    exact ⟨h.nodup, h.origin, fun m hm => h.props m ((hall _ hm).resolve_left (by simp)), fun m hm => h.patterns m ((hall _ hm).resolve_left (by simp))⟩
  | k :: ks, done, d, d', hks, h, e, all, hall => by
    rw [loadAll] at e
    have hrest : ∀ j ∈ all, j ∈ ks ∨ j ∈ k :: done := by
      intro j hj
      rcases hall j hj with hj | hj
      · rcases List.mem_cons.1 hj with rfl | hj
        · exact .inr (.head _)
        · exact .inl hj
      · exact .inr (.tail _ hj)
    split at e
    · rw [applyKw_eq] at e
      cases hr : readKw w (view docs f) id items k with
      | ok u =>
        simp only [hr, Res.ok_bind] at e
        cases ha : u.apply k.key d with
        | ok d₁ =>
          rw [ha] at e
          exact loadAll_from ks _ _ _ (fun j hj => hks j (.tail _ hj)) (apply_from hr (hks k (.head _)) h ha) e all hrest
        | err _ => rw [ha] at e; cases e
        | timeout => rw [ha] at e; cases e
      | err _ => simp only [hr] at e; cases e
      | timeout => simp only [hr] at e; cases e
    · rename_i hno
      refine loadAll_from ks (k :: done) d d' (fun j hj => hks j (.tail _ hj)) ?_ e all hrest
      have gone : k.isAssertion = true → dictGet k.key items = none := by
        intro ha
        cases hd : dictGet k.key items with
        | none => rfl
        | some n => exact absurd (by simp [dictHas, hd, ha]) hno
      refine ⟨h.nodup, h.origin, fun m hm hf => ?_, fun m hm hf => ?_⟩
      · rcases List.mem_cons.1 hm with e | hm
        · obtain ⟨n, ⟨_, hn⟩, _⟩ := hf
          subst e
          rw [gone rfl] at hn; cases hn
        · exact h.props m hm hf
      · rcases List.mem_cons.1 hm with e | hm
        · obtain ⟨n, ⟨_, hn⟩, _⟩ := hf
          subst e
          rw [gone rfl] at hn; cases hn
        · exact h.patterns m hm hf

theorem loaded_from {d : Data Node} (e : loadAll w (view docs f) id items voc [] = (d, .ok ())) : FromData w docs voc items voc d :=
  loadAll_from voc [] [] d (fun _ h => h) ⟨by simp, by simp, by simp, by simp⟩ e voc (fun _ h => .inl h)

end

end Verif.Spec
