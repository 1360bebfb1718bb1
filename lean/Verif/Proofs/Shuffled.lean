import Verif.Spec.Shuffled
import Verif.Proofs.Refs
import Verif.Proofs.Subs
/-! # The order of the members of a schema: lemmas for C99 -/

namespace Verif.Spec
open Verif

/-! ## Relations on dictionaries, lists and results -/

inductive OptRel {α : Type} (R : α → α → Prop) : Option α → Option α → Prop
  | none : OptRel R none none
  | some {x y : α} (h : R x y) : OptRel R (some x) (some y)

inductive ListRel {α : Type} (R : α → α → Prop) : List α → List α → Prop
  | nil : ListRel R [] []
  | cons {x y : α} {xs ys : List α} (h : R x y) (hs : ListRel R xs ys) : ListRel R (x :: xs) (y :: ys)

/-- The same names, and under each name something related. -/
structure DictRel {α : Type} (R : α → α → Prop) (a b : List (Str × α)) : Prop where
  left : (a.map Prod.fst).Nodup
  right : (b.map Prod.fst).Nodup
  get : ∀ k, OptRel R (dictGet k a) (dictGet k b)

/-- Where the one succeeds the other does, with a related result. -/
def OkRel {α : Type} (R : α → α → Prop) (a b : Res α) : Prop := ∀ x, a = .ok x → ∃ y, b = .ok y ∧ R x y

section
variable {α β : Type} {R : α → α → Prop} {S : β → β → Prop}

theorem OkRel.ok {x y : α} (h : R x y) : OkRel R (.ok x) (.ok y) := by
  rintro _ ⟨⟩
  exact ⟨y, rfl, h⟩

theorem OkRel.err {e : PyErr} {b : Res α} : OkRel R (.err e) b := by
  intro x h
  cases h

theorem OkRel.bind {a b : Res α} {f g : α → Res β} (h : OkRel R a b) (hf : ∀ x y, R x y → OkRel S (f x) (g y)) : OkRel S (a >>= f) (b >>= g) := by
  intro z hz
  obtain ⟨x, hx, hz⟩ := Res.bind_eq_ok.1 hz
  obtain ⟨y, hy, hxy⟩ := h x hx
  obtain ⟨u, hu, hzu⟩ := hf x y hxy z hz
  exact ⟨u, by rw [hy, Res.ok_bind, hu], hzu⟩

theorem OkRel.bindEq {a b : Res α} {f g : α → Res β} (h : OkRel R a b) (hf : ∀ x y, a = .ok x → R x y → OkRel S (f x) (g y)) :
    OkRel S (a >>= f) (b >>= g) := by
  intro z hz
  obtain ⟨x, hx, hz⟩ := Res.bind_eq_ok.1 hz
  obtain ⟨y, hy, hxy⟩ := h x hx
  obtain ⟨u, hu, hzu⟩ := hf x y hx hxy z hz
  exact ⟨u, by rw [hy, Res.ok_bind, hu], hzu⟩

theorem OkRel.refl (a : Res α) : OkRel Eq a a := fun x h => ⟨x, h, rfl⟩

theorem OkRel.same {a b : Res α} (h : OkRel Eq a b) {x : α} (hx : a = .ok x) : b = .ok x := by
  obtain ⟨y, hy, rfl⟩ := h x hx
  exact hy

theorem ListRel.len {xs ys : List α} (h : ListRel R xs ys) : xs.length = ys.length := by
  induction h with
  | nil => rfl
  | cons _ _ ih => simp [ih]

theorem ListRel.get {xs ys : List α} (h : ListRel R xs ys) (i : Nat) : OptRel R xs[i]? ys[i]? := by
  induction h generalizing i with
  | nil => exact .none
  | cons h _ ih =>
    cases i with
    | zero => exact .some h
    | succ i => simpa using ih i

theorem ListRel.of {xs ys : List α} (hl : xs.length = ys.length) (h : ∀ (i : Nat) (x y : α), xs[i]? = some x → ys[i]? = some y → R x y) : ListRel R xs ys := by
  induction xs generalizing ys with
  | nil =>
    cases ys with
    | nil => exact .nil
    | cons => simp at hl
  | cons x xs ih =>
    cases ys with
    | nil => simp at hl
    | cons y ys => exact .cons (h 0 x y rfl rfl) (ih (by simpa using hl) fun i a b ha hb => h (i + 1) a b (by simpa using ha) (by simpa using hb))

theorem ListRel.mono {R' : α → α → Prop} {xs ys : List α} (h : ListRel R xs ys) (hR : ∀ x ∈ xs, ∀ y ∈ ys, R x y → R' x y) : ListRel R' xs ys := by
  induction h with
  | nil => exact .nil
  | cons h _ ih => exact .cons (hR _ (by simp) _ (by simp) h) (ih fun x hx y hy => hR x (by simp [hx]) y (by simp [hy]))

theorem ListRel.map {f g : α → β} {xs ys : List α} (h : ListRel R xs ys) (hf : ∀ x y, R x y → S (f x) (g y)) : ListRel S (xs.map f) (ys.map g) := by
  induction h with
  | nil => exact .nil
  | cons h _ ih => exact .cons (hf _ _ h) ih

theorem ListRel.eq {xs ys : List α} (h : ListRel Eq xs ys) : xs = ys := by
  induction h with
  | nil => rfl
  | cons h _ ih => rw [h, ih]

theorem DictRel.nil : DictRel R [] [] := ⟨by simp, by simp, fun _ => .none⟩

theorem DictRel.of {a b : List (Str × α)} (ha : (a.map Prod.fst).Nodup) (hb : (b.map Prod.fst).Nodup) (hk : ∀ k, k ∈ a.map Prod.fst ↔ k ∈ b.map Prod.fst)
    (h : ∀ k x y, (k, x) ∈ a → (k, y) ∈ b → R x y) : DictRel R a b := by
  refine ⟨ha, hb, fun k => ?_⟩
  cases e : dictGet k a with
  | none =>
    have := Verif.dictGet_none.1 e
    rw [hk] at this
    rw [Verif.dictGet_none.2 this]
    exact .none
  | some x =>
    cases e' : dictGet k b with
    | none =>
      have := Verif.dictGet_none.1 e'
      rw [← hk] at this
      rw [Verif.dictGet_none.2 this] at e
      cases e
    | some y => exact .some (h k x y (dictGet_mem e) (dictGet_mem e'))

theorem DictRel.keys {a b : List (Str × α)} (h : DictRel R a b) (k : Str) : k ∈ a.map Prod.fst ↔ k ∈ b.map Prod.fst := by
  have := h.get k
  rw [← Decidable.not_iff_not, ← Verif.dictGet_none, ← Verif.dictGet_none]
  cases e : dictGet k a <;> cases e' : dictGet k b <;> rw [e, e'] at this <;> cases this <;> simp

theorem DictRel.rel {a b : List (Str × α)} (h : DictRel R a b) {k : Str} {x y : α} (hx : (k, x) ∈ a) (hy : (k, y) ∈ b) : R x y := by
  have := h.get k
  rw [dictGet_of_mem h.left hx, dictGet_of_mem h.right hy] at this
  cases this
  assumption

theorem DictRel.has {a b : List (Str × α)} (h : DictRel R a b) (k : Str) : dictHas k a = dictHas k b := by
  have := h.get k
  unfold dictHas
  cases e : dictGet k a <;> cases e' : dictGet k b <;> rw [e, e'] at this <;> cases this <;> rfl

/-- What is in the second is related to something in the first. -/
theorem DictRel.back {a b : List (Str × α)} (h : DictRel R a b) {k : Str} {y : α} (hy : (k, y) ∈ b) : ∃ x, (k, x) ∈ a ∧ R x y := by
  have := h.get k
  rw [dictGet_of_mem h.right hy] at this
  cases e : dictGet k a with
  | none => rw [e] at this; cases this
  | some x =>
    rw [e] at this
    cases this with
    | some hxy => exact ⟨x, dictGet_mem e, hxy⟩

theorem DictRel.set {a b : List (Str × α)} (h : DictRel R a b) (k : Str) {x y : α} (hxy : R x y) : DictRel R (dictSet k x a) (dictSet k y b) := by
  refine ⟨nodup_set _ _ _ h.left, nodup_set _ _ _ h.right, fun k' => ?_⟩
  rw [dictGet_set, dictGet_set]
  by_cases e : k = k'
  · simp only [e, if_true]
    exact .some hxy
  · simp only [e, if_false]
    exact h.get k'

theorem DictRel.fold {a b p q : List (Str × α)} (h : DictRel R a b) (hp : DictRel R p q) :
    DictRel R (a.foldl (fun d x => dictSet x.1 x.2 d) p) (b.foldl (fun d x => dictSet x.1 x.2 d) q) := by
  refine ⟨fold_set_nodup _ _ hp.left, fold_set_nodup _ _ hp.right, fun k => ?_⟩
  rw [dictGet_fold _ h.left, dictGet_fold _ h.right]
  have h1 := h.get k
  have h2 := hp.get k
  cases e : dictGet k a <;> cases e' : dictGet k b <;> rw [e, e'] at h1
  · simpa using h2
  · cases h1
  · cases h1
  · simpa using h1

theorem DictRel.map {f g : α → β} {a b : List (Str × α)} (h : DictRel R a b) (hf : ∀ x y, R x y → S (f x) (g y)) :
    DictRel S (a.map fun p => (p.1, f p.2)) (b.map fun p => (p.1, g p.2)) := by
  have get : ∀ (f : α → β) (k : Str) (a : List (Str × α)), dictGet k (a.map fun p => (p.1, f p.2)) = (dictGet k a).map f := by
    intro f k a
    induction a with
    | nil => rfl
    | cons p a ih =>
      obtain ⟨k', x⟩ := p
      by_cases e : k' = k
      · simp [dictGet, e]
      · simp only [List.map_cons, dictGet, e, if_false]; exact ih
  refine ⟨by simpa [List.map_map, Function.comp_def] using h.left, by simpa [List.map_map, Function.comp_def] using h.right, fun k => ?_⟩
  rw [get, get]
  have := h.get k
  cases e : dictGet k a <;> cases e' : dictGet k b <;> rw [e, e'] at this <;> cases this
  · exact .none
  · rename_i hxy
    exact .some (hf _ _ hxy)

theorem DictRel.length {a b : List (Str × α)} (h : DictRel R a b) : a.length = b.length := by
  have h1 := (List.perm_ext_iff_of_nodup h.left h.right).2 h.keys
  simpa using h1.length_eq

end

/-! ## What a node shows -/

theorem Shuffled.dict {a b : List (Str × Node)} (h : DictRel Shuffled a b) : Shuffled (.obj a) (.obj b) := .obj h.left h.right h.keys fun _ _ _ => h.rel

theorem Shuffled.list {xs ys : List Node} (h : ListRel Shuffled xs ys) : Shuffled (.arr xs) (.arr ys) :=
  .arr h.len fun i x y hx hy => by
    have := h.get i
    rw [hx, hy] at this
    cases this
    assumption

theorem Shuffled.dict_inv {a b : List (Str × Node)} (h : Shuffled (.obj a) (.obj b)) : DictRel Shuffled a b := by
  cases h with
  | obj ha hb hk h => exact .of ha hb hk h

theorem Shuffled.list_inv {a b : List Node} (h : Shuffled (.arr a) (.arr b)) : ListRel Shuffled a b := by
  cases h with
  | arr hl h => exact .of hl h

theorem Shuffled.flip {n m : Node} (h : Shuffled n m) : Shuffled m n := by
  induction h with
  | null => exact .null
  | bool b => exact .bool b
  | num x => exact .num x
  | str s => exact .str s
  | arr hl _ ih => exact .arr hl.symm fun i x y hx hy => ih i y x hy hx
  | obj ha hb hk _ ih => exact .obj hb ha (fun k => (hk k).symm) fun k x y hx hy => ih k y x hy hx
  | ref ha hb hk _ ih => exact .ref hb ha (fun k => (hk k).symm) fun k x y hx hy => ih k y x hy hx

theorem ShuffledDocs.flip {docs docs' : List Doc} (h : ShuffledDocs docs docs') : ShuffledDocs docs' docs where
  len := h.len.symm
  root i d d' hd hd' := (h.root i d' d hd' hd).flip
  names i d d' hd hd' k := (h.names i d' d hd' hd k).symm
  anchors i d d' hd hd' k x y hx hy := (h.anchors i d' d hd' hd k y x hy hx).flip

theorem intInArr_shuffled {xs ys : List Node} (h : ListRel Shuffled xs ys) (i : Int) : intInArr i xs = intInArr i ys := by
  induction h with
  | nil => rfl
  | cons h _ ih => cases h <;> simp only [intInArr, ih]

theorem keyInArr_shuffled {xs ys : List Node} (h : ListRel Shuffled xs ys) (k : Str) : keyInArr k xs = keyInArr k ys := by
  induction h with
  | nil => rfl
  | cons h _ ih => cases h <;> simp only [keyInArr, ih]

theorem pyIndex_rel {α : Type} {R : α → α → Prop} {xs ys : List α} (h : ListRel R xs ys) (i : Int) : OkRel R (pyIndex xs i) (pyIndex ys i) := by
  unfold pyIndex
  rw [h.len]
  simp only
  generalize (if i < 0 then i + (ys.length : Int) else i) = j
  by_cases hj : j < 0
  · rw [if_pos hj]; exact .err
  · rw [if_neg hj, if_neg hj]
    have := h.get j.toNat
    cases e : xs[j.toNat]? <;> cases e' : ys[j.toNat]? <;> rw [e, e'] at this <;> cases this
    · exact .err
    · exact .ok (by assumption)

theorem queryStep_shuffled {n n' v v' : Node} (hn : Shuffled n n') (hv : Shuffled v v') (k : Str) : OkRel Shuffled (queryStep n v k) (queryStep n' v' k) := by
  have idx : ∀ {xs ys : List Node}, ListRel Shuffled xs ys →
      OkRel Shuffled (if !isAscii k then .err .unmodelled else match pyInt k with
        | none => .err .valueError
        | some i => pyIndex xs i) (if !isAscii k then .err .unmodelled else match pyInt k with
        | none => .err .valueError
        | some i => pyIndex ys i) := by
    intro xs ys h
    split
    · exact .err
    · cases pyInt k with
      | none => exact .err
      | some i => exact pyIndex_rel h i
  cases hv with
  | null | bool | num | str => exact .err
  | ref => exact .err
  | obj ha hb hk h =>
    rename_i a b
    have := (DictRel.of ha hb hk h).get k
    simp only [queryStep]
    cases e : dictGet k a <;> cases e' : dictGet k b <;> rw [e, e'] at this <;> cases this
    · exact .err
    · exact .ok (by assumption)
  | arr hl h =>
    rename_i xs ys
    have hxs : ListRel Shuffled xs ys := .of hl h
    cases hn with
    | ref =>
      simp only [queryStep]
      split
      · exact .err
      · cases pyInt k with
        | none => exact .err
        | some i =>
          simp only [intInArr_shuffled hxs]
          refine (OkRel.refl _).bind ?_
          rintro b _ rfl
          cases b
          · exact .err
          · exact pyIndex_rel hxs i
    | null | bool | num | str | arr | obj => exact idx hxs

theorem queryLoop_shuffled {vw vw' : Node → Res Node} (hw : ∀ n n', Shuffled n n' → OkRel Shuffled (vw n) (vw' n')) (ks : List Str) {n n' : Node}
    (hn : Shuffled n n') : OkRel Shuffled (queryLoop vw n ks) (queryLoop vw' n' ks) := by
  induction ks generalizing n n' with
  | nil => exact .ok hn
  | cons k ks ih => exact (hw _ _ hn).bind fun v v' hv => (queryStep_shuffled hn hv k).bind fun m m' hm => ih hm

variable {docs docs' : List Doc}

theorem queryDoc_shuffled {vw vw' : Node → Res Node} (hw : ∀ n n', Shuffled n n' → OkRel Shuffled (vw n) (vw' n')) {d d' : Doc} (hr : Shuffled d.root d'.root)
    (ha : ∀ k, OptRel Shuffled (dictGet k d.anchors) (dictGet k d'.anchors)) (p : List Str) : OkRel Shuffled (queryDoc vw d p) (queryDoc vw' d' p) := by
  match p with
  | [] => exact queryLoop_shuffled hw [] hr
  | [k] =>
    simp only [queryDoc]
    have := ha k
    cases e : dictGet k d.anchors <;> cases e' : dictGet k d'.anchors <;> rw [e, e'] at this <;> cases this
    · simp only
      split
      · exact .ok hr
      · exact queryLoop_shuffled hw [k] hr
    · exact .ok (by assumption)
  | a :: b :: r => exact queryLoop_shuffled hw _ hr

theorem overlay_shuffled {own own' a b : List (Str × Node)} (ho : DictRel Shuffled own own') (h : DictRel Shuffled a b) :
    DictRel Shuffled (overlay own a) (overlay own' b) := by
  refine h.fold ⟨ho.left.sublist (List.Sublist.map _ List.filter_sublist), ho.right.sublist (List.Sublist.map _ List.filter_sublist), fun k => ?_⟩
  rw [dictGet_filter_key, dictGet_filter_key]
  split
  · exact .none
  · exact ho.get k

theorem view_shuffled (hd : ShuffledDocs docs docs') (f : Nat) : ∀ n n', Shuffled n n' → OkRel Shuffled (view docs f n) (view docs' f n') := by
  induction f with
  | zero => intro n n' _ x h; cases h
  | succ f ih =>
    intro n n' hn
    cases hn with
    | null | bool | num | str => exact .ok (by constructor)
    | arr hl h => exact .ok (.arr hl h)
    | obj ha hb hk h => exact .ok (.obj ha hb hk h)
    | ref ha hb hk h =>
      rename_i a b i p
      simp only [view]
      cases e : docs[i]? with
      | none => exact .err
      | some d =>
        obtain ⟨d', e'⟩ : ∃ d', docs'[i]? = some d' := by
          cases e' : docs'[i]? with
          | some d' => exact ⟨d', rfl⟩
          | none =>
            rw [List.getElem?_eq_none_iff, ← hd.len, ← List.getElem?_eq_none_iff, e] at e'
            cases e'
        rw [e']
        refine (queryDoc_shuffled ih (hd.root i d d' e e') (fun k => ?_) p).bind fun m m' hm => (ih m m' hm).bind fun x x' hx => ?_
        · cases e1 : dictGet k d.anchors with
          | none => rw [(hd.names i d d' e e' k).1 e1]; exact .none
          | some x =>
            cases e2 : dictGet k d'.anchors with
            | none => rw [(hd.names i d d' e e' k).2 e2] at e1; cases e1
            | some y => exact .some (hd.anchors i d d' e e' k x y e1 e2)
        · cases hx with
          | null | bool | num | str => exact .ok (by constructor)
          | arr hl h => exact .ok (.arr hl h)
          | obj ha' hb' hk' h' => exact .ok (.dict (overlay_shuffled (.of ha hb hk h) (.of ha' hb' hk' h')))
          | ref ha' hb' hk' h' => exact .ok (.ref ha' hb' hk' h')

/-! ## What the keywords read -/

section
variable {α : Type} (R : α → α → Prop)

inductive SubRel : Sub α → Sub α → Prop
  | fail : SubRel .fail .fail
  | lazy {a b : α} (h : R a b) : SubRel (.lazy a) (.lazy b)

structure ObjRel (o o' : ObjV α) : Prop where
  props : DictRel R o.props o'.props
  patterns : OptRel (DictRel R) o.patterns o'.patterns
  additional : OptRel (SubRel R) o.additional o'.additional
  unevaluated : o.unevaluated = o'.unevaluated
  names : OptRel R o.names o'.names

/-- The same names, in whatever order. -/
def SameNames (xs ys : List Str) : Prop := ∀ k, k ∈ xs ↔ k ∈ ys

inductive ValidRel : V α → V α → Prop
  | type (ts : List Str) : ValidRel (.type ts) (.type ts)
  | enum {xs ys : List Node} (h : ListRel Shuffled xs ys) : ValidRel (.enum xs) (.enum ys)
  | const (n : Node) : ValidRel (.const n) (.const n)
  | maximum (m : Num) (e : Bool) : ValidRel (.maximum m e) (.maximum m e)
  | minimum (m : Num) (e : Bool) : ValidRel (.minimum m e) (.minimum m e)
  | multipleOf (m : Num) : ValidRel (.multipleOf m) (.multipleOf m)
  | minLength (n : Int) : ValidRel (.minLength n) (.minLength n)
  | maxLength (n : Int) : ValidRel (.maxLength n) (.maxLength n)
  | minItems (n : Int) : ValidRel (.minItems n) (.minItems n)
  | maxItems (n : Int) : ValidRel (.maxItems n) (.maxItems n)
  | minProperties (n : Int) : ValidRel (.minProperties n) (.minProperties n)
  | maxProperties (n : Int) : ValidRel (.maxProperties n) (.maxProperties n)
  | uniqueItems : ValidRel .uniqueItems .uniqueItems
  | contains {c c' : α} (h : R c c') (mn : Int) (mx : Option Int) : ValidRel (.contains c mn mx) (.contains c' mn mx)
  | array {pre pre' : Option (List α)} {its its' : Option α} (hp : OptRel (ListRel R) pre pre') (hi : OptRel R its its') : ValidRel (.array pre its) (.array pre' its')
  | object {o o' : ObjV α} (h : ObjRel R o o') : ValidRel (.object o) (.object o')
  | required (ks : List Str) : ValidRel (.required ks) (.required ks)
  | dependentRequired {m m' : List (Str × List Str)} (h : DictRel SameNames m m') : ValidRel (.dependentRequired m) (.dependentRequired m')
  | dependentSchemas {m m' : List (Str × α)} (h : DictRel R m m') : ValidRel (.dependentSchemas m) (.dependentSchemas m')
  | allOf {xs ys : List α} (h : ListRel R xs ys) : ValidRel (.allOf xs) (.allOf ys)
  | anyOf {xs ys : List α} (h : ListRel R xs ys) : ValidRel (.anyOf xs) (.anyOf ys)
  | oneOf {xs ys : List α} (h : ListRel R xs ys) : ValidRel (.oneOf xs) (.oneOf ys)
  | not {x y : α} (h : R x y) : ValidRel (.not x) (.not y)
  | cond {i i' t t' e e' : Option α} (hi : OptRel R i i') (ht : OptRel R t t') (he : OptRel R e e') : ValidRel (.cond i t e) (.cond i' t' e')
  | format (s : Str) : ValidRel (.format s) (.format s)
  | pattern (s : Str) : ValidRel (.pattern s) (.pattern s)
  | held (h : Held) : ValidRel (.held h) (.held h)

inductive UpdRel : Upd α → Upd α → Prop
  | nop : UpdRel .nop .nop
  | set {x y : V α} (h : ValidRel R x y) : UpdRel (.set x) (.set y)
  | props {a b : List (Str × α)} (h : DictRel R a b) : UpdRel (.props a) (.props b)
  | patterns {a b : List (Str × α)} (h : DictRel R a b) : UpdRel (.patterns a) (.patterns b)
  | additional {a b : Option (Sub α)} (h : OptRel (SubRel R) a b) : UpdRel (.additional a) (.additional b)
  | unevaluated (b : Bool) : UpdRel (.unevaluated b) (.unevaluated b)
  | names {a b : α} (h : R a b) : UpdRel (.names a) (.names b)
  | ifs {a b : α} (h : R a b) : UpdRel (.ifs a) (.ifs b)
  | thens {a b : α} (h : R a b) : UpdRel (.thens a) (.thens b)
  | elses {a b : α} (h : R a b) : UpdRel (.elses a) (.elses b)
  | itemsArr {xs ys : List α} {a b : Option α} (hp : ListRel R xs ys) (hi : OptRel R a b) : UpdRel (.itemsArr xs a) (.itemsArr ys b)
  | itemsOne {a b : Option α} (h : OptRel R a b) : UpdRel (.itemsOne a) (.itemsOne b)
  | pre {xs ys : List α} (h : ListRel R xs ys) : UpdRel (.pre xs) (.pre ys)

/-- Related validators under the same names, in the same order. -/
inductive DataRel : Data α → Data α → Prop
  | nil : DataRel [] []
  | cons (k : Str) {x y : V α} {d d' : Data α} (h : ValidRel R x y) (hs : DataRel d d') : DataRel ((k, x) :: d) ((k, y) :: d')

variable {R}

theorem DataRel.get {d d' : Data α} (h : DataRel R d d') (k : Str) : OptRel (ValidRel R) (dictGet k d) (dictGet k d') := by
  induction h with
  | nil => exact .none
  | cons k' h _ ih =>
    by_cases e : k' = k
    · simp only [dictGet, e, if_true]; exact .some h
    · simp only [dictGet, e, if_false]; exact ih

theorem DataRel.has {d d' : Data α} (h : DataRel R d d') (k : Str) : dictHas k d = dictHas k d' := by
  have := h.get k
  unfold dictHas
  cases e : dictGet k d <;> cases e' : dictGet k d' <;> rw [e, e'] at this <;> cases this <;> rfl

theorem DataRel.set {d d' : Data α} (h : DataRel R d d') (k : Str) {x y : V α} (hx : ValidRel R x y) : DataRel R (dictSet k x d) (dictSet k y d') := by
  induction h with
  | nil => exact .cons k hx .nil
  | cons k' h hs ih =>
    by_cases e : k' = k
    · simp only [dictSet, e, if_true]; exact .cons k hx hs
    · simp only [dictSet, e, if_false]; exact .cons k' h ih

theorem OptRel.or {a a' b b' : Option α} (ha : OptRel R a a') (hb : OptRel R b b') : OptRel R (a.or b) (a'.or b') := by
  cases ha
  · exact hb
  · exact .some (by assumption)

theorem objOf_rel {d d' : Data α} (h : DataRel R d d') : ObjRel R (objOf d) (objOf d') := by
  have := h.get c!"properties"
  have e0 : ObjRel R ({} : ObjV α) {} := ⟨.nil, .none, .none, rfl, .none⟩
  unfold objOf
  cases e : dictGet c!"properties" d <;> cases e' : dictGet c!"properties" d' <;> rw [e, e'] at this <;> cases this
  · exact e0
  · rename_i hv
    cases hv <;> first | exact e0 | assumption

theorem condOf_rel {d d' : Data α} (h : DataRel R d d') :
    OptRel R (condOf d).1 (condOf d').1 ∧ OptRel R (condOf d).2.1 (condOf d').2.1 ∧ OptRel R (condOf d).2.2 (condOf d').2.2 := by
  have := h.get c!"if"
  unfold condOf
  cases e : dictGet c!"if" d <;> cases e' : dictGet c!"if" d' <;> rw [e, e'] at this <;> cases this
  · exact ⟨.none, .none, .none⟩
  · rename_i hv
    cases hv <;> first | exact ⟨.none, .none, .none⟩ | exact ⟨by assumption, by assumption, by assumption⟩

theorem arrayOf_rel {d d' : Data α} (h : DataRel R d d') (k : Str) :
    OptRel (ListRel R) (arrayOf k d).1 (arrayOf k d').1 ∧ OptRel R (arrayOf k d).2 (arrayOf k d').2 := by
  have := h.get k
  unfold arrayOf
  cases e : dictGet k d <;> cases e' : dictGet k d' <;> rw [e, e'] at this <;> cases this
  · exact ⟨.none, .none⟩
  · rename_i hv
    cases hv <;> first | exact ⟨.none, .none⟩ | exact ⟨by assumption, by assumption⟩

theorem apply_rel {u u' : Upd α} (hu : UpdRel R u u') {d d' : Data α} (h : DataRel R d d') (key : Str) :
    OkRel (DataRel R) (u.apply key d) (u'.apply key d') := by
  have ho := objOf_rel h
  obtain ⟨h1, h2, h3⟩ := condOf_rel h
  cases hu with
  | nop => exact .ok h
  | set hx => exact .ok (h.set _ hx)
  | props hp => exact .ok (h.set _ (.object { ho with props := hp.fold ho.props }))
  | patterns hp => exact .ok (h.set _ (.object { ho with patterns := .some hp }))
  | additional ha => exact .ok (h.set _ (.object { ho with additional := ha.or ho.additional }))
  | unevaluated b => exact .ok (h.set _ (.object { ho with unevaluated := by simp [ho.unevaluated] }))
  | names ha => exact .ok (h.set _ (.object { ho with names := .some ha }))
  | ifs ha => exact .ok (h.set _ (.cond (.some ha) h2 h3))
  | thens ha => exact .ok (h.set _ (.cond h1 (.some ha) h3))
  | elses ha => exact .ok (h.set _ (.cond h1 h2 (.some ha)))
  | itemsArr hp hi => exact .ok (h.set _ (.array (.some hp) (hi.or (arrayOf_rel h _).2)))
  | itemsOne hi => exact .ok (h.set _ (.array (arrayOf_rel h _).1 (hi.or (arrayOf_rel h _).2)))
  | pre hp =>
    simp only [Upd.apply, h.has]
    split
    · split
      · exact .ok (h.set _ (.array (.some hp) (arrayOf_rel h _).2))
      · exact .err
    · exact .ok (h.set _ (.array (.some hp) .none))

end

/-- The text of a reference is its URI (ref_keyword.py 78-79) and does not depend on the order of its members. -/
def RefsPrinted (w : World) : Prop :=
  ∀ a b doc ptr, Shuffled (.ref a doc ptr) (.ref b doc ptr) → w.reprBody (.ref a doc ptr) = w.reprBody (.ref b doc ptr)

/-- Neither a list nor an object. -/
def Unbraced : Node → Prop
  | .arr _ => False
  | .obj _ => False
  | _ => True

theorem nodeStr_shuffled {w : World} (hw : RefsPrinted w) {n n' : Node} (h : Shuffled n n') (hn : Unbraced n) : nodeStr w n = nodeStr w n' := by
  cases h with
  | null | bool | num | str => rfl
  | arr | obj => exact hn.elim
  | ref ha hb hk h => simp only [nodeStr, hw _ _ _ _ (.ref ha hb hk h)]

theorem nodeStr_valid {w : World} {n : Node} (h : nodeStr w n ∈ validTypes) : ∃ s, n = .str s := by
  have bad : ∀ s : Str, s ++ c!")" ∉ validTypes := by
    intro s hs
    have : ∀ t ∈ validTypes, t.getLast? ≠ some ')' := by decide
    exact this _ hs (by simp)
  cases n with
  | str s => exact ⟨s, rfl⟩
  | null => simp [nodeStr, validTypes] at h
  | bool b => cases b <;> simp [nodeStr, validTypes] at h
  | num | arr | obj | ref => exact absurd h (bad _)

theorem isRef_shuffled {n n' : Node} (h : Shuffled n n') : n.isRef = n'.isRef := by cases h <;> rfl

theorem iterRef_shuffled {xs ys : List Node} (h : ListRel Shuffled xs ys) {rs ss : List Node} (hr : ListRel Shuffled rs ss) (i : Nat) :
    OkRel (ListRel Shuffled) (iterRef xs i rs) (iterRef ys i ss) := by
  induction hr generalizing i with
  | nil =>
    simp only [iterRef, intInArr_shuffled h]
    refine (OkRel.refl _).bind ?_
    rintro b _ rfl
    cases b
    · exact .err
    · exact .ok .nil
  | cons h1 _ ih =>
    simp only [iterRef, intInArr_shuffled h]
    refine (OkRel.refl _).bind ?_
    rintro b _ rfl
    cases b
    · exact .err
    · exact (ih _).bind fun _ _ h2 => .ok (.cons h1 h2)

theorem seqOf_shuffled {n n' : Node} (hn : Shuffled n n') {xs ys : List Node} (h : ListRel Shuffled xs ys) :
    OkRel (ListRel Shuffled) (seqOf n xs) (seqOf n' ys) := by
  cases hn with
  | ref => exact iterRef_shuffled h h 0
  | null | bool | num | str | arr | obj => exact .ok h

/-- The names listed in `required` and `dependentRequired` are no lists or objects, whose text would name their members in order. -/
structure NamesPlain (voc : List Kw) (vw : Node → Res Node) (items : List (Str × Node)) : Prop where
  required : .required ∈ voc → ∀ n xs, dictGet c!"required" items = some n → vw n = .ok (.arr xs) → ∀ x ∈ xs, Unbraced x
  dependent : .dependentRequired ∈ voc → ∀ n m k xs, dictGet c!"dependentRequired" items = some n → vw n = .ok (.obj m) → (k, .arr xs) ∈ m → ∀ x ∈ xs, Unbraced x

theorem iterRef_mem {xs : List Node} {rs : List Node} {i : Nat} {ys : List Node} (h : iterRef xs i rs = .ok ys) : ∀ y ∈ ys, y ∈ rs := by
  induction rs generalizing i ys with
  | nil =>
    simp only [iterRef] at h
    obtain ⟨b, _, h⟩ := Res.bind_eq_ok.1 h
    cases b <;> cases h
    simp
  | cons r rs ih =>
    simp only [iterRef] at h
    obtain ⟨b, _, h⟩ := Res.bind_eq_ok.1 h
    cases b
    · cases h
    · simp only [if_true] at h
      obtain ⟨zs, hz, h⟩ := Res.bind_eq_ok.1 h
      cases h
      intro y hy
      rcases List.mem_cons.1 hy with rfl | hy
      · simp
      · simp [ih hz y hy]

theorem seqOf_mem {n : Node} {xs ys : List Node} (h : seqOf n xs = .ok ys) : ∀ y ∈ ys, y ∈ xs := by
  cases n with
  | ref => exact iterRef_mem h
  | _ => cases h; exact fun _ h => h

theorem texts_shuffled {w : World} (hw : RefsPrinted w) {xs ys : List Node} (h : ListRel Shuffled xs ys) (hx : ∀ x ∈ xs, Unbraced x) :
    xs.map (nodeStr w) = ys.map (nodeStr w) :=
  ((h.mono (R' := fun x y => nodeStr w x = nodeStr w y) fun x hm _ _ hr => nodeStr_shuffled hw hr (hx x hm)).map (S := Eq) fun _ _ h => h).eq

theorem strItems_shuffled {w : World} (hw : RefsPrinted w) {n n' : Node} (h : Shuffled n n') (hn : ∀ xs, n = .arr xs → ∀ x ∈ xs, Unbraced x) :
    OkRel SameNames (strItems w n) (strItems w n') := by
  cases h with
  | arr hl h => exact .ok fun k => by rw [texts_shuffled hw (.of hl h) (hn _ rfl)]
  | obj ha hb hk h => exact .ok hk
  | str s => exact .ok fun _ => Iff.rfl
  | null | bool | num | ref => exact .err

theorem strItemsMap_ok {w : World} {a : List (Str × Node)} {m : List (Str × List Str)} (h : strItemsMap w a = .ok m) :
    m.map Prod.fst = a.map Prod.fst ∧ ∀ k xs, (k, xs) ∈ m → ∃ n, (k, n) ∈ a ∧ strItems w n = .ok xs := by
  induction a generalizing m with
  | nil => cases h; simp
  | cons p a ih =>
    obtain ⟨k, n⟩ := p
    simp only [strItemsMap] at h
    obtain ⟨xs, hx, h⟩ := Res.bind_eq_ok.1 h
    obtain ⟨rest, hr, h⟩ := Res.bind_eq_ok.1 h
    cases h
    obtain ⟨h1, h2⟩ := ih hr
    refine ⟨by simp [h1], fun k' ys hm => ?_⟩
    rcases List.mem_cons.1 hm with hm | hm
    · cases hm; exact ⟨n, by simp, hx⟩
    · obtain ⟨n', hn', hy⟩ := h2 k' ys hm
      exact ⟨n', by simp [hn'], hy⟩

theorem strItemsMap_all {w : World} {b : List (Str × Node)} (h : ∀ k n, (k, n) ∈ b → ∃ xs, strItems w n = .ok xs) : ∃ m, strItemsMap w b = .ok m := by
  induction b with
  | nil => exact ⟨[], rfl⟩
  | cons p b ih =>
    obtain ⟨k, n⟩ := p
    obtain ⟨xs, hx⟩ := h k n (by simp)
    obtain ⟨m, hm⟩ := ih fun k n hn => h k n (by simp [hn])
    exact ⟨(k, xs) :: m, by simp [strItemsMap, hx, hm]⟩

theorem strItemsMap_shuffled {w : World} (hw : RefsPrinted w) {a b : List (Str × Node)} (h : DictRel Shuffled a b)
    (hn : ∀ k xs, (k, .arr xs) ∈ a → ∀ x ∈ xs, Unbraced x) : OkRel (DictRel SameNames) (strItemsMap w a) (strItemsMap w b) := by
  intro m hm
  obtain ⟨h1, h2⟩ := strItemsMap_ok hm
  have step : ∀ k n', (k, n') ∈ b → ∃ n xs ys, (k, n) ∈ a ∧ strItems w n = .ok xs ∧ strItems w n' = .ok ys ∧ SameNames xs ys := by
    intro k n' hb
    obtain ⟨n, hna, hs⟩ := h.back hb
    have hk : k ∈ m.map Prod.fst := by rw [h1]; exact List.mem_map.2 ⟨_, hna, rfl⟩
    obtain ⟨⟨_, xs⟩, hx, rfl⟩ := List.mem_map.1 hk
    obtain ⟨n2, hn2, hxs⟩ := h2 _ xs hx
    have : n2 = n := by
      have e1 := dictGet_of_mem h.left hn2
      have e2 := dictGet_of_mem h.left hna
      rw [e1] at e2
      exact Option.some.inj e2
    subst this
    obtain ⟨ys, hy, hs⟩ := strItems_shuffled hw hs (fun xs e => hn _ xs (e ▸ hna)) xs hxs
    exact ⟨n2, xs, ys, hna, hxs, hy, hs⟩
  obtain ⟨m', hm'⟩ := strItemsMap_all fun k n hb => let ⟨_, _, ys, _, _, hy, _⟩ := step k n hb; ⟨ys, hy⟩
  obtain ⟨h3, h4⟩ := strItemsMap_ok hm'
  refine ⟨m', hm', .of (h1 ▸ h.left) (h3 ▸ h.right) (fun k => by rw [h1, h3]; exact h.keys k) fun k xs ys hx hy => ?_⟩
  obtain ⟨n1, hn1, e1⟩ := h2 k xs hx
  obtain ⟨n2, hn2, e2⟩ := h4 k ys hy
  obtain ⟨n, xs', ys', hna, e3, e4, hs⟩ := step k n2 hn2
  have : n1 = n := by
    have e1 := dictGet_of_mem h.left hn1
    have e2 := dictGet_of_mem h.left hna
    rw [e1] at e2
    exact Option.some.inj e2
  subst this
  rw [e1] at e3
  rw [e2] at e4
  cases e3
  cases e4
  exact hs

section
variable {w : World} (hw : RefsPrinted w) {vw vw' : Node → Res Node} (hv : ∀ n n', Shuffled n n' → OkRel Shuffled (vw n) (vw' n'))
  {items items' : List (Str × Node)} (hi : DictRel Shuffled items items')
include hi

theorem getKey_shuffled (k : Str) : OkRel Shuffled (getKey items k) (getKey items' k) := by
  have := hi.get k
  unfold getKey
  cases e : dictGet k items <;> cases e' : dictGet k items' <;> rw [e, e'] at this <;> cases this
  · exact .err
  · exact .ok (by assumption)

include hv

theorem intKey_shuffled (k : Str) : OkRel Eq (intKey vw items k) (intKey vw' items' k) := by
  refine (getKey_shuffled hi k).bind fun n n' hn => (hv n n' hn).bind fun m m' hm => ?_
  cases hm <;> first
    | exact .err
    | (cases hn <;> first | exact .err | exact .refl _)

theorem intValueKey_shuffled (k : Str) : OkRel Eq (intValueKey vw items k) (intValueKey vw' items' k) := by
  refine (getKey_shuffled hi k).bind fun n n' hn => (hv n n' hn).bind fun m m' hm => ?_
  cases hm <;> first
    | exact .err
    | (cases hn <;> first | exact .err | exact .refl _)

theorem numKey_shuffled (k : Str) : OkRel (fun p q => Shuffled p.1 q.1 ∧ p.2 = q.2) (numKey vw items k) (numKey vw' items' k) := by
  refine (getKey_shuffled hi k).bind fun n n' hn => (hv n n' hn).bind fun m m' hm => ?_
  cases hm <;> first
    | exact .err
    | exact .ok ⟨hn, rfl⟩

theorem subKey_shuffled (k : Str) : OkRel Shuffled (subKey vw id items k) (subKey vw' id items' k) := by
  refine (getKey_shuffled hi k).bind fun n n' hn => (hv n n' hn).bind fun m m' hm => ?_
  cases hm <;> first
    | exact .err
    | exact .ok hn

theorem subsKey_shuffled (k : Str) : OkRel (ListRel Shuffled) (subsKey vw id items k) (subsKey vw' id items' k) := by
  refine (getKey_shuffled hi k).bind fun n n' hn => (hv n n' hn).bind fun m m' hm => ?_
  cases hm with
  | arr hl h => exact (seqOf_shuffled hn (.of hl h)).bind fun xs ys h => .ok (h.map fun _ _ h => h)
  | _ => exact .err

theorem subMapKey_shuffled (k : Str) : OkRel (DictRel Shuffled) (subMapKey vw id items k) (subMapKey vw' id items' k) := by
  refine (getKey_shuffled hi k).bind fun n n' hn => (hv n n' hn).bind fun m m' hm => ?_
  cases hm with
  | obj ha hb hk h => exact .ok ((DictRel.of ha hb hk h).map fun _ _ h => h)
  | _ => exact .err

omit hi in
theorem eqTrue_shuffled {n n' : Node} (hn : Shuffled n n') : OkRel Eq (eqTrue vw n) (eqTrue vw' n') := by
  refine (hv n n' hn).bind fun m m' hm => ?_
  cases hm <;> exact .ok rfl

theorem optTrue_shuffled (k : Str) {β : Type} {S : β → β → Prop} {g g' : Bool → Res β} (hg : ∀ b, OkRel S (g b) (g' b)) : OkRel S (match dictGet k items with
    | some e => eqTrue vw e >>= g
    | none => .ok false >>= g) (match dictGet k items' with
    | some e => eqTrue vw' e >>= g'
    | none => .ok false >>= g') := by
  have := hi.get k
  cases e : dictGet k items <;> cases e' : dictGet k items' <;> rw [e, e'] at this <;> cases this
  · exact hg false
  · refine (eqTrue_shuffled hv (by assumption)).bind ?_
    rintro b _ rfl
    exact hg b

variable (hs : ∀ n m, vw n = .ok m → m.isRef = false ∧ (n.isRef = false → m = n))
include hw hs

theorem readKw_shuffled {voc : List Kw} (hn : NamesPlain voc vw items) {k : Kw} (hk : k ∈ voc) :
    OkRel (UpdRel Shuffled) (readKw w vw id items k) (readKw w vw' id items' k) := by
  have maxR : ∀ {n n' : Node} (m : Num) (e : Bool), Shuffled n n' → ValidRel Shuffled (maxV n m e) (maxV n' m e) := by
    intro n n' m e h
    unfold maxV
    rw [isRef_shuffled h]
    split
    · exact .held _
    · exact .maximum _ _
  have minR : ∀ {n n' : Node} (m : Num) (e : Bool), Shuffled n n' → ValidRel Shuffled (minV n m e) (minV n' m e) := by
    intro n n' m e h
    unfold minV
    rw [isRef_shuffled h]
    split
    · exact .held _
    · exact .minimum _ _
  have ints : ∀ (s : Str) {g : Int → V Node}, (∀ i, ValidRel Shuffled (g i) (g i)) →
      OkRel (UpdRel Shuffled) (intKey vw items s >>= fun i => .ok (.set (g i))) (intKey vw' items' s >>= fun i => .ok (.set (g i))) := by
    intro s g hg
    refine (intKey_shuffled hv hi s).bind ?_
    rintro i _ rfl
    exact .ok (.set (hg i))
  cases k with
  | ref | anchor | id => exact .ok .nop
  | minLength => exact ints _ (fun i => .minLength i)
  | maxLength => exact ints _ (fun i => .maxLength i)
  | minItems => exact ints _ (fun i => .minItems i)
  | maxItems => exact ints _ (fun i => .maxItems i)
  | minProperties => exact ints _ (fun i => .minProperties i)
  | maxProperties => exact ints _ (fun i => .maxProperties i)
  | not => exact (subKey_shuffled hv hi _).bind fun _ _ h => .ok (.set (.not h))
  | «if» => exact (subKey_shuffled hv hi _).bind fun _ _ h => .ok (.ifs h)
  | «then» => exact (subKey_shuffled hv hi _).bind fun _ _ h => .ok (.thens h)
  | «else» => exact (subKey_shuffled hv hi _).bind fun _ _ h => .ok (.elses h)
  | propertyNames => exact (subKey_shuffled hv hi _).bind fun _ _ h => .ok (.names h)
  | allOf => exact (subsKey_shuffled hv hi _).bind fun _ _ h => .ok (.set (.allOf h))
  | anyOf => exact (subsKey_shuffled hv hi _).bind fun _ _ h => .ok (.set (.anyOf h))
  | oneOf => exact (subsKey_shuffled hv hi _).bind fun _ _ h => .ok (.set (.oneOf h))
  | prefixItems => exact (subsKey_shuffled hv hi _).bind fun _ _ h => .ok (.pre h)
  | properties => exact (subMapKey_shuffled hv hi _).bind fun _ _ h => .ok (.props h)
  | patternProperties => exact (subMapKey_shuffled hv hi _).bind fun _ _ h => .ok (.patterns h)
  | dependentSchemas => exact (subMapKey_shuffled hv hi _).bind fun _ _ h => .ok (.set (.dependentSchemas h))
  | maximum =>
    refine (numKey_shuffled hv hi _).bind ?_
    rintro ⟨n, m⟩ ⟨n', _⟩ ⟨h, rfl⟩
    refine optTrue_shuffled hv hi c!"exclusiveMaximum" fun e => ?_
    exact .ok (.set (maxR m e h))
  | minimum =>
    refine (numKey_shuffled hv hi _).bind ?_
    rintro ⟨n, m⟩ ⟨n', _⟩ ⟨h, rfl⟩
    refine optTrue_shuffled hv hi c!"exclusiveMinimum" fun e => ?_
    exact .ok (.set (minR m e h))
  | exclusiveMaximum =>
    refine (getKey_shuffled hi _).bind fun n n' hn => (hv n n' hn).bind fun m m' hm => ?_
    cases hm with
    | bool b =>
      simp only [hi.has]
      split
      · exact .ok .nop
      · exact .err
    | num x => exact .ok (.set (maxR x true hn))
    | _ => exact .err
  | exclusiveMinimum =>
    refine (getKey_shuffled hi _).bind fun n n' hn => (hv n n' hn).bind fun m m' hm => ?_
    cases hm with
    | bool b =>
      simp only [hi.has]
      split
      · exact .ok .nop
      · exact .err
    | num x => exact .ok (.set (minR x true hn))
    | _ => exact .err
  | multipleOf =>
    refine (numKey_shuffled hv hi _).bind ?_
    rintro ⟨n, m⟩ ⟨n', _⟩ ⟨h, rfl⟩
    simp only [isRef_shuffled h]
    split
    · exact .ok (.set (.held _))
    · exact .ok (.set (.multipleOf _))
  | const =>
    refine (getKey_shuffled hi _).bind fun n n' hn => (hv n n' hn).bindEq fun m m' hm0 hm => ?_
    rw [isRef_shuffled hn]
    cases hm with
    | arr | obj => exact .err
    | null | bool | num | str =>
      simp only
      split
      · exact .ok (.set (.held _))
      · exact .ok (.set (.const _))
    | ref => exact absurd (hs _ _ hm0).1 (by simp [Node.isRef])
  | enum =>
    refine (getKey_shuffled hi _).bind fun n n' hn => (hv n n' hn).bind fun m m' hm => ?_
    cases hm with
    | arr hl h =>
      have : ListRel Shuffled _ _ := .of hl h
      cases hn <;> first
        | exact .err
        | exact .ok (.set (.enum this))
    | _ => exact .err
  | uniqueItems =>
    refine (getKey_shuffled hi _).bind fun n n' hn => (hv n n' hn).bind fun m m' hm => ?_
    cases hm with
    | bool b =>
      cases b
      · exact .ok .nop
      · exact .ok (.set .uniqueItems)
    | _ => exact .err
  | unevaluatedProperties =>
    refine (getKey_shuffled hi _).bind fun n n' hn => (hv n n' hn).bind fun m m' hm => ?_
    cases hm with
    | bool b => cases b <;> exact .ok (.unevaluated _)
    | _ => exact .err
  | additionalProperties =>
    refine (getKey_shuffled hi _).bind fun n n' hn => (hv n n' hn).bind fun m m' hm => ?_
    cases hm with
    | bool b =>
      cases b
      · exact .ok (.additional (.some .fail))
      · exact .ok (.additional .none)
    | obj => exact .ok (.additional (.some (.lazy hn)))
    | _ => exact .err
  | contains =>
    refine (subKey_shuffled hv hi _).bind fun c c' hc => ?_
    simp only [hi.has]
    have mx : ∀ mn : Int, OkRel (UpdRel Shuffled)
        (if dictHas c!"maxContains" items' then do
          let m ← intValueKey vw items c!"maxContains"
          let mx ← Res.ok (some m)
          .ok (.set (.contains c mn mx))
        else do
          let mx ← Res.ok none
          .ok (.set (.contains c mn mx)))
        (if dictHas c!"maxContains" items' then do
          let m ← intValueKey vw' items' c!"maxContains"
          let mx ← Res.ok (some m)
          .ok (.set (.contains c' mn mx))
        else do
          let mx ← Res.ok none
          .ok (.set (.contains c' mn mx))) := by
      intro mn
      split
      · refine (intValueKey_shuffled hv hi _).bind ?_
        rintro i _ rfl
        exact .ok (.set (.contains hc _ _))
      · exact .ok (.set (.contains hc _ _))
    by_cases e : dictHas c!"minContains" items' = true
    · rw [if_pos e, if_pos e]
      refine (intValueKey_shuffled hv hi _).bind ?_
      rintro i _ rfl
      exact mx i
    · rw [if_neg e, if_neg e]
      exact mx 1
  | type =>
    refine (getKey_shuffled hi _).bind fun n n' hn => (hv n n' hn).bind fun m m' hm => ?_
    have main : ∀ ts ts' : List Str, (ts.all (· ∈ validTypes) = true → ts = ts') →
        OkRel (UpdRel Shuffled) (if ts.all (· ∈ validTypes) then .ok (.set (.type ts)) else .err .schemaParse)
          (if ts'.all (· ∈ validTypes) then .ok (.set (.type ts')) else .err .schemaParse) := by
      intro ts ts' h
      by_cases e : ts.all (· ∈ validTypes) = true
      · rw [← h e, if_pos e]; exact .ok (.set (.type _))
      · rw [if_neg e]; exact .err
    cases hm with
    | str s =>
      refine main _ _ fun h => ?_
      obtain ⟨t, rfl⟩ := nodeStr_valid (w := w) (n := n) (by simpa using h)
      cases hn
      rfl
    | arr hl h =>
      refine (seqOf_shuffled hn (.of hl h)).bind fun xs ys hxs => main (xs.map (nodeStr w)) (ys.map (nodeStr w)) fun hall => ?_
      refine ((hxs.mono (R' := fun x y => nodeStr w x = nodeStr w y) fun x hm y _ hr => ?_).map (S := Eq) fun _ _ h => h).eq
      obtain ⟨t, rfl⟩ := nodeStr_valid (w := w) (n := x) (by
        rw [List.all_eq_true] at hall
        simpa using hall (nodeStr w x) (List.mem_map.2 ⟨x, hm, rfl⟩))
      cases hr
      rfl
    | _ => exact .err
  | items =>
    refine (getKey_shuffled hi _).bind fun n n' hn => (hv n n' hn).bind fun m m' hm => ?_
    cases hm with
    | arr hl h =>
      refine (seqOf_shuffled hn (.of hl h)).bind fun xs ys hxs => ?_
      have hx : ListRel Shuffled (xs.map id) (ys.map id) := hxs.map fun _ _ h => h
      have := hi.get c!"additionalItems"
      cases e : dictGet c!"additionalItems" items <;> cases e' : dictGet c!"additionalItems" items' <;> rw [e, e'] at this <;> cases this
      · exact .ok (.itemsArr hx .none)
      · rename_i a a' ha
        refine (hv a a' ha).bind fun m m' hm => ?_
        cases hm with
        | bool b =>
          cases b
          · exact .ok (.itemsArr hx (.some ha))
          · exact .ok (.itemsArr hx .none)
        | _ => exact .ok (.itemsArr hx (.some ha))
    | obj => exact .ok (.itemsOne (.some hn))
    | bool b =>
      cases b
      · exact .ok (.itemsOne (.some hn))
      · exact .ok (.itemsOne .none)
    | _ => exact .err
  | required =>
    simp only [readKw]
    intro u hu
    obtain ⟨n, hn1, hu⟩ := Res.bind_eq_ok.1 hu
    obtain ⟨m, hm1, hu⟩ := Res.bind_eq_ok.1 hu
    obtain ⟨n', hn2, hnn⟩ := getKey_shuffled hi _ n hn1
    obtain ⟨m', hm2, hmm⟩ := hv n n' hnn m hm1
    rw [hn2, Res.ok_bind, hm2, Res.ok_bind]
    have hg : dictGet c!"required" items = some n := by
      unfold getKey at hn1
      cases e : dictGet c!"required" items <;> rw [e] at hn1 <;> cases hn1
      rfl
    cases hmm with
    | arr hl h =>
      obtain ⟨ys, hy, hu⟩ := Res.bind_eq_ok.1 hu
      obtain ⟨zs, hz, hyz⟩ := seqOf_shuffled hnn (.of hl h) ys hy
      simp only
      rw [hz, Res.ok_bind, ← texts_shuffled hw hyz fun y hy' => hn.required hk n _ hg hm1 y (seqOf_mem hy y hy')]
      cases hu
      exact ⟨_, rfl, .set (.required _)⟩
    | _ => cases hu
  | dependentRequired =>
    simp only [readKw]
    intro u hu
    obtain ⟨n, hn1, hu⟩ := Res.bind_eq_ok.1 hu
    obtain ⟨m, hm1, hu⟩ := Res.bind_eq_ok.1 hu
    obtain ⟨n', hn2, hnn⟩ := getKey_shuffled hi _ n hn1
    obtain ⟨m', hm2, hmm⟩ := hv n n' hnn m hm1
    rw [hn2, Res.ok_bind, hm2, Res.ok_bind]
    have hg : dictGet c!"dependentRequired" items = some n := by
      unfold getKey at hn1
      cases e : dictGet c!"dependentRequired" items <;> rw [e] at hn1 <;> cases hn1
      rfl
    cases hmm with
    | obj ha hb hk' h =>
      obtain ⟨q, hq, hu⟩ := Res.bind_eq_ok.1 hu
      obtain ⟨q', hq', hr⟩ := strItemsMap_shuffled hw (.of ha hb hk' h) (fun k xs hx => hn.dependent hk n _ k xs hg hm1 hx) q hq
      simp only
      rw [hq', Res.ok_bind]
      cases hu
      exact ⟨_, rfl, .set (.dependentRequired hr)⟩
    | _ => cases hu
  | format =>
    refine (getKey_shuffled hi _).bind fun n n' hn => (hv n n' hn).bindEq fun m m' hm0 hm => ?_
    cases hm with
    | str s =>
      have : Unbraced n := by
        cases n with
        | arr | obj => exact absurd ((hs _ _ hm0).2 rfl) (by simp)
        | _ => trivial
      simp only [← nodeStr_shuffled hw hn this]
      cases w.formats (nodeStr w n) with
      | none => exact .err
      | some c => exact .ok (.set (.format _))
    | _ => exact .err
  | pattern =>
    refine (getKey_shuffled hi _).bind fun n n' hn => (hv n n' hn).bindEq fun m m' hm0 hm => ?_
    cases hm with
    | str s =>
      have : Unbraced n := by
        cases n with
        | arr | obj => exact absurd ((hs _ _ hm0).2 rfl) (by simp)
        | _ => trivial
      simp only [← nodeStr_shuffled hw hn this]
      cases w.search (nodeStr w n) with
      | none => exact .err
      | some c => exact .ok (.set (.pattern _))
    | _ => exact .err

end

theorem loadAll_shuffled {w : World} (hw : RefsPrinted w) {vw vw' : Node → Res Node} (hv : ∀ n n', Shuffled n n' → OkRel Shuffled (vw n) (vw' n'))
    (hs : ∀ n m, vw n = .ok m → m.isRef = false ∧ (n.isRef = false → m = n)) {items items' : List (Str × Node)} (hi : DictRel Shuffled items items')
    {all : List Kw} (hn : NamesPlain all vw items) (voc : List Kw) (hsub : ∀ k ∈ voc, k ∈ all) {d d' : Data Node} (hd : DataRel Shuffled d d') {r : Data Node}
    (h : loadAll w vw id items voc d = (r, .ok ())) : ∃ r', loadAll w vw' id items' voc d' = (r', .ok ()) ∧ DataRel Shuffled r r' := by
  induction voc generalizing d d' with
  | nil =>
    cases h
    exact ⟨d', rfl, hd⟩
  | cons k ks ih =>
    rw [loadAll] at h ⊢
    rw [← hi.has]
    split
    · rename_i hc
      rw [if_pos hc, applyKw_eq] at h
      rw [applyKw_eq]
      cases e : (readKw w vw id items k >>= Upd.apply k.key d) with
      | ok q =>
        obtain ⟨q', e', hq⟩ := ((readKw_shuffled hw hv hi hs hn (hsub k (by simp))).bind fun u u' hu => apply_rel hu hd k.key) q e
        rw [e] at h
        rw [e']
        exact ih (fun k hk => hsub k (by simp [hk])) hq h
      | err x => rw [e] at h; cases h
      | timeout => rw [e] at h; cases h
    · rename_i hc
      rw [if_neg hc] at h
      exact ih (fun k hk => hsub k (by simp [hk])) hd h

theorem loadNonObject_shuffled {n n' : Node} (h : Shuffled n n') (voc : List Kw) : loadNonObject n voc = loadNonObject n' voc := by
  induction voc with
  | nil => rfl
  | cons k ks ih =>
    simp only [loadNonObject]
    split
    · cases h with
      | arr hl h => simp only [keyInArr_shuffled (.of hl h), ih]
      | str s => rw [ih]
      | _ => rfl
    · exact ih

/-! ## Running the validators -/

/-- A comparison that cannot be made, or that the model leaves out (references inside `enum`). -/
def Breaks {α : Type} (b : Res α) : Prop := b = .err .typeError ∨ b = .err .unmodelled

/-- The result is `x`, unless comparisons may break and one does. -/
def Comes {α : Type} (p : Prop) (b : Res α) (x : α) : Prop := b = .ok x ∨ p ∧ Breaks b

section
variable {α β : Type} {p : Prop}

theorem Comes.bind {b : Res α} {x : α} {g : α → Res β} {y : β} (h : Comes p b x) (hg : Comes p (g x) y) : Comes p (b >>= g) y := by
  rcases h with rfl | ⟨hp, h⟩
  · exact hg
  · exact .inr ⟨hp, by rcases h with rfl | rfl <;> first | exact .inl rfl | exact .inr rfl⟩

theorem Comes.ok {x : α} : Comes p (.ok x) x := .inl rfl

theorem Comes.breaks {b : Res α} {g : α → Res β} {y : β} (hp : p) (h : Breaks b) : Comes p (b >>= g) y :=
  .inr ⟨hp, by rcases h with rfl | rfl <;> first | exact .inl rfl | exact .inr rfl⟩

end

mutual
theorem nodeEqVal_total : (n : Node) → (v : Val) → (∃ c, nodeEqVal n v = .ok c) ∨ Breaks (nodeEqVal n v)
  | .null, v => .inl (by cases v <;> exact ⟨_, rfl⟩)
  | .bool b, v => by cases v <;> first | exact .inl ⟨_, rfl⟩ | exact .inr (.inl rfl)
  | .num b, v => by cases v <;> first | exact .inl ⟨_, rfl⟩ | exact .inr (.inl rfl)
  | .str s, v => .inl (by cases v <;> exact ⟨_, rfl⟩)
  | .ref _ _ _, v => .inr (.inr (by simp [nodeEqVal]))
  | .arr xs, v => by
    cases v with
    | list vs =>
      simp only [nodeEqVal]
      split
      · exact listEqVal_total xs vs
      · exact .inl ⟨_, rfl⟩
    | _ => exact .inl ⟨_, rfl⟩
  | .obj xs, v => by
    cases v with
    | dict vs =>
      simp only [nodeEqVal]
      split
      · exact dictEqVal_total xs vs
      · exact .inl ⟨_, rfl⟩
    | _ => exact .inl ⟨_, rfl⟩
theorem listEqVal_total : (xs : List Node) → (vs : List Val) → (∃ c, listEqVal xs vs = .ok c) ∨ Breaks (listEqVal xs vs)
  | [], _ => .inl ⟨true, by simp [listEqVal]⟩
  | _ :: _, [] => .inl ⟨true, by simp [listEqVal]⟩
  | x :: xs, v :: vs => by
    simp only [listEqVal]
    rcases nodeEqVal_total x v with ⟨c, hc⟩ | hc
    · rw [hc, Res.ok_bind]
      cases c
      · exact .inl ⟨_, rfl⟩
      · exact listEqVal_total xs vs
    · exact .inr (by rcases hc with hc | hc <;> rw [hc] <;> first | exact .inl rfl | exact .inr rfl)
theorem dictEqVal_total : (xs : List (Str × Node)) → (vs : List (Str × Val)) → (∃ c, dictEqVal xs vs = .ok c) ∨ Breaks (dictEqVal xs vs)
  | [], _ => .inl ⟨true, by simp [dictEqVal]⟩
  | (k, x) :: xs, vs => by
    simp only [dictEqVal]
    cases dictGet k vs with
    | none => exact .inl ⟨_, rfl⟩
    | some y =>
      simp only
      rcases nodeEqVal_total x y with ⟨c, hc⟩ | hc
      · rw [hc, Res.ok_bind]
        cases c
        · exact .inl ⟨_, rfl⟩
        · exact dictEqVal_total xs vs
      · exact .inr (by rcases hc with hc | hc <;> rw [hc] <;> first | exact .inl rfl | exact .inr rfl)
end

/-- In which order the members are compared makes no difference for values that are equal; if they are not, a comparison may break. -/
theorem nodeEqVal_shuffled {n n' : Node} (h : Shuffled n n') : ∀ (v : Val) (b : Bool), nodeEqVal n v = .ok b →
    nodeEqVal n' v = .ok b ∨ b = false ∧ Breaks (nodeEqVal n' v) := by
  induction h with
  | null | bool | num | str => exact fun v b h => .inl h
  | ref => intro v b h; simp [nodeEqVal] at h
  | @arr xs ys hl _ ih =>
    intro v b h
    cases v with
    | list vs =>
      simp only [nodeEqVal] at h ⊢
      rw [← hl]
      by_cases e : xs.length = vs.length
      · rw [if_pos e] at h ⊢
        clear e
        induction xs generalizing ys vs with
        | nil =>
          cases ys with
          | nil => exact .inl h
          | cons => simp at hl
        | cons x xs ihx =>
          cases ys with
          | nil => simp at hl
          | cons y ys =>
            cases vs with
            | nil => exact .inl h
            | cons v vs =>
              simp only [listEqVal] at h ⊢
              obtain ⟨c, hc, h⟩ := Res.bind_eq_ok.1 h
              have rest := ihx (by simpa using hl) (fun i a b ha hb => ‹∀ (i : Nat) (x_1 y_1 : Node), _ → _ → Shuffled x_1 y_1› (i + 1) a b (by simpa using ha) (by simpa using hb))
                (fun i a b ha hb => ih (i + 1) a b (by simpa using ha) (by simpa using hb)) vs
              rcases ih 0 x y rfl rfl v c hc with e | ⟨rfl, e⟩
              · rw [e, Res.ok_bind]
                cases c
                · cases h; exact .inl rfl
                · exact rest h
              · cases h
                exact .inr ⟨rfl, by rcases e with e | e <;> rw [e] <;> first | exact .inl rfl | exact .inr rfl⟩
      · rw [if_neg e] at h ⊢; exact .inl h
    | _ => exact .inl h
  | @obj a a' ha hb hk h0 ih =>
    intro v b h
    cases v with
    | dict kws =>
      have hr : DictRel Shuffled a a' := .of ha hb hk h0
      simp only [nodeEqVal] at h ⊢
      rw [← hr.length]
      by_cases e : a.length = kws.length
      · rw [if_pos e] at h ⊢
        have left : ∀ (a : List (Str × Node)) (b : Bool), dictEqVal a kws = .ok b →
            (b = true ∧ ∀ k x, (k, x) ∈ a → ∃ y, dictGet k kws = some y ∧ nodeEqVal x y = .ok true) ∨
            (b = false ∧ ∃ k x, (k, x) ∈ a ∧ (dictGet k kws = none ∨ ∃ y, dictGet k kws = some y ∧ nodeEqVal x y = .ok false)) := by
          intro a
          induction a with
          | nil => intro b h; cases h; exact .inl ⟨rfl, by simp⟩
          | cons q a ih =>
            obtain ⟨k, x⟩ := q
            intro b h
            simp only [dictEqVal] at h
            cases e : dictGet k kws with
            | none => rw [e] at h; cases h; exact .inr ⟨rfl, k, x, by simp, .inl e⟩
            | some y =>
              rw [e] at h
              obtain ⟨c, hc, h⟩ := Res.bind_eq_ok.1 h
              cases c
              · cases h; exact .inr ⟨rfl, k, x, by simp, .inr ⟨y, e, hc⟩⟩
              · rcases ih b h with ⟨rfl, h'⟩ | ⟨rfl, k', x', hm, h'⟩
                · refine .inl ⟨rfl, fun k' x' hm => ?_⟩
                  rcases List.mem_cons.1 hm with hm | hm
                  · cases hm; exact ⟨y, e, hc⟩
                  · exact h' k' x' hm
                · exact .inr ⟨rfl, k', x', by simp [hm], h'⟩
        have all : ∀ a : List (Str × Node), (∀ k x, (k, x) ∈ a → ∃ y, dictGet k kws = some y ∧ nodeEqVal x y = .ok true) → dictEqVal a kws = .ok true := by
          intro a
          induction a with
          | nil => exact fun _ => rfl
          | cons q a ih =>
            obtain ⟨k, x⟩ := q
            intro h
            obtain ⟨y, e, hy⟩ := h k x (by simp)
            simp only [dictEqVal, e, hy, Res.ok_bind, if_true]
            exact ih fun k x hm => h k x (by simp [hm])
        rcases left a b h with ⟨rfl, h1⟩ | ⟨rfl, k, x, hm, h1⟩
        · refine .inl (all a' fun k x' hm' => ?_)
          obtain ⟨x, hm, hs⟩ := hr.back hm'
          obtain ⟨y, e, hy⟩ := h1 k x hm
          rcases ih k x x' hm hm' y true hy with h | ⟨h, _⟩
          · exact ⟨y, e, h⟩
          · cases h
        · rcases dictEqVal_total a' kws with ⟨c, hc⟩ | hc
          · cases c with
            | false => exact .inl hc
            | true =>
              rcases left a' true hc with ⟨_, h2⟩ | ⟨h2, _⟩
              · obtain ⟨⟨_, x'⟩, hm', rfl⟩ := List.mem_map.1 ((hk k).1 (List.mem_map.2 ⟨_, hm, rfl⟩))
                obtain ⟨y, e, hy⟩ := h2 _ x' hm'
                rcases h1 with h1 | ⟨y', e', hy'⟩
                · rw [e] at h1; cases h1
                · rw [e] at e'
                  cases e'
                  rcases ih _ x x' hm hm' y false hy' with h | ⟨_, h | h⟩ <;> rw [h] at hy <;> cases hy
              · cases h2
          · exact .inr ⟨rfl, hc⟩
      · rw [if_neg e] at h ⊢; exact .inl h
    | _ => exact .inl h

theorem rawEqVal_shuffled {n n' : Node} (h : Shuffled n n') (v : Val) (b : Bool) (hb : rawEqVal n v = .ok b) :
    rawEqVal n' v = .ok b ∨ b = false ∧ Breaks (rawEqVal n' v) := by
  have h0 := h
  cases h with
  | null | bool | num | str => exact .inl hb
  | ref => simp [rawEqVal, nodeEqVal] at hb
  | arr => exact nodeEqVal_shuffled h0 v b hb
  | obj => exact nodeEqVal_shuffled h0 v b hb

theorem isBool_shuffled {n n' : Node} (h : Shuffled n n') : n.isBool = n'.isBool := by cases h <;> rfl

/-- There is only one order. -/
def Rigid (n : Node) : Prop := ∀ n', Shuffled n n' → n' = n

section
variable {p : Prop}

theorem rawEqVal_comes {n n' : Node} (h : Shuffled n n') (hp : p ∨ Rigid n) (v : Val) (b : Bool) (hb : rawEqVal n v = .ok b) : Comes p (rawEqVal n' v) b := by
  rcases hp with hp | hp
  · rcases rawEqVal_shuffled h v b hb with h | ⟨_, h⟩
    · exact .inl h
    · exact .inr ⟨hp, h⟩
  · rw [hp n' h]; exact .inl hb

theorem enumLoop_comes {xs ys : List Node} (h : ListRel Shuffled xs ys) (hp : p ∨ ∀ x ∈ xs, Rigid x) (v : Val) (ctx : Ctx)
    (hok : enumLoop v ctx xs = .ok ()) : Comes p (enumLoop v ctx ys) () := by
  induction h with
  | nil => cases hok
  | cons h _ ih =>
    have ih := ih (hp.imp id fun h x hx => h x (by simp [hx]))
    simp only [enumLoop] at hok ⊢
    obtain ⟨b, hb, hok⟩ := Res.bind_eq_ok.1 hok
    refine (rawEqVal_comes h (hp.imp id fun h => h _ (by simp)) v b hb).bind ?_
    rw [← isBool_shuffled h]
    cases b with
    | false => exact ih hok
    | true =>
      simp only [if_true] at hok ⊢
      split
      · rename_i hc
        rw [if_pos hc] at hok
        split
        · exact .ok
        · rename_i hc'
          rw [if_neg hc'] at hok
          exact ih hok
      · exact .ok

theorem enumIn_comes {xs ys : List Node} (h : ListRel Shuffled xs ys) (hp : p ∨ ∀ x ∈ xs, Rigid x) (v : Val) (b : Bool)
    (hok : enumIn v xs = .ok b) : Comes p (enumIn v ys) b := by
  induction h with
  | nil => cases hok; exact .ok
  | cons h _ ih =>
    have ih := ih (hp.imp id fun h x hx => h x (by simp [hx]))
    simp only [enumIn] at hok ⊢
    obtain ⟨c, hc, hok⟩ := Res.bind_eq_ok.1 hok
    refine (rawEqVal_comes h (hp.imp id fun h => h _ (by simp)) v c hc).bind ?_
    cases c with
    | false => exact ih hok
    | true => cases hok; exact .ok

theorem runEnum_comes {xs ys : List Node} (h : ListRel Shuffled xs ys) (hp : p ∨ ∀ x ∈ xs, Rigid x) (v : Val) (ctx : Ctx)
    (hok : runEnum xs v ctx = .ok ()) : Comes p (runEnum ys v ctx) () := by
  have hb : xs.any Node.isBool = ys.any Node.isBool := by
    clear hok hp
    induction h with
    | nil => rfl
    | cons h _ ih => simp only [List.any_cons, isBool_shuffled h, ih]
  simp only [runEnum, hb] at hok ⊢
  split
  · rename_i hc
    rw [if_pos hc] at hok
    cases hok
  · rename_i hc
    rw [if_neg hc] at hok
    split
    · rename_i hc
      rw [if_pos hc] at hok
      exact enumLoop_comes h hp v ctx hok
    · rename_i hc
      rw [if_neg hc] at hok
      obtain ⟨b, hb, hok⟩ := Res.bind_eq_ok.1 hok
      refine (enumIn_comes h hp v b hb).bind ?_
      cases b
      · cases hok
      · exact .ok

variable {α : Type} {rec rec' : α → Val → Ctx → Res Unit} {R : α → α → Prop} {P : α → Prop}
  (hrec : ∀ a a' v ctx, P a → R a a' → rec a v ctx = .ok () → Comes p (rec' a' v ctx) ())
include hrec

theorem allOf_comes {xs ys : List α} (h : ListRel R xs ys) (hp : ∀ a ∈ xs, P a) (v : Val) (ctx : Ctx) (hok : allOfLoop rec v ctx xs = .ok ()) :
    Comes p (allOfLoop rec' v ctx ys) () := by
  induction h with
  | nil => exact .ok
  | cons h _ ih =>
    simp only [allOfLoop] at hok ⊢
    obtain ⟨_, h1, h2⟩ := Res.bind_eq_ok.1 hok
    exact (hrec _ _ _ _ (hp _ (by simp)) h h1).bind (ih (fun a ha => hp a (by simp [ha])) h2)

theorem itemsLoop_comes {a a' : α} (h : R a a') (hp : P a) (ctx : Ctx) (xs : List Val) (i : Nat) (hok : itemsLoop rec a ctx i xs = .ok ()) :
    Comes p (itemsLoop rec' a' ctx i xs) () := by
  induction xs generalizing i with
  | nil => exact .ok
  | cons x xs ih =>
    simp only [itemsLoop] at hok ⊢
    obtain ⟨_, h1, h2⟩ := Res.bind_eq_ok.1 hok
    exact (hrec _ _ _ _ hp h h1).bind (ih _ h2)

omit hrec in
theorem spin_ok {f : Nat} {r : Res Unit} (h : spin f r = .ok ()) : False := by
  induction f with
  | zero => cases h
  | succ f ih =>
    cases r with
    | ok u => exact ih h
    | err e => cases h
    | timeout => cases h

theorem arrayLoop_comes {ps qs : List α} (h : ListRel R ps qs) {its its' : Option α} (hi : OptRel R its its') (hp : ∀ a ∈ ps, P a)
    (hpi : ∀ a, its = some a → P a) (f : Nat) (ctx : Ctx) (i : Nat) (xs : List Val) (hok : arrayLoop rec f its ctx i ps xs = .ok ()) :
    Comes p (arrayLoop rec' f its' ctx i qs xs) () := by
  induction h generalizing i xs with
  | nil =>
    cases hi with
    | none => simp only [arrayLoop]; exact .ok
    | some h =>
      simp only [arrayLoop] at hok ⊢
      exact itemsLoop_comes hrec h (hpi _ rfl) ctx xs i hok
  | cons h _ ih =>
    cases xs with
    | nil =>
      simp only [arrayLoop] at hok
      exact (spin_ok hok).elim
    | cons x xs =>
      simp only [arrayLoop] at hok ⊢
      obtain ⟨_, h1, h2⟩ := Res.bind_eq_ok.1 hok
      exact (hrec _ _ _ _ (hp _ (by simp)) h h1).bind (ih (fun a ha => hp a (by simp [ha])) _ xs h2)

omit hrec in
theorem depSchemasLoop_iff (kvs : List (Str × Val)) (ctx : Ctx) (m : List (Str × α)) : depSchemasLoop rec kvs ctx m = .ok () ↔
    ∀ k a, (k, a) ∈ m → dictHas k kvs = true → rec a (.dict kvs) ctx = .ok () := by
  induction m with
  | nil => simp [depSchemasLoop]
  | cons q m ih =>
    obtain ⟨k, a⟩ := q
    simp only [depSchemasLoop]
    by_cases hk : dictHas k kvs = true
    · simp only [hk, if_true]
      constructor
      · intro h
        obtain ⟨_, h1, h2⟩ := Res.bind_eq_ok.1 h
        intro k' a' hm hk'
        rcases List.mem_cons.1 hm with hm | hm
        · cases hm; exact h1
        · exact ih.1 h2 k' a' hm hk'
      · intro h
        rw [h k a (by simp) hk, Res.ok_bind]
        exact ih.2 fun k a hm => h k a (by simp [hm])
    · simp only [hk]
      constructor
      · intro h k' a' hm hk'
        rcases List.mem_cons.1 hm with hm | hm
        · cases hm; exact absurd hk' hk
        · exact ih.1 h k' a' hm hk'
      · intro h
        exact ih.2 fun k a hm => h k a (by simp [hm])

theorem depSchemas_comes {m m' : List (Str × α)} (h : DictRel R m m') (hp : ∀ k a, (k, a) ∈ m → P a) (kvs : List (Str × Val)) (ctx : Ctx)
    (hok : depSchemasLoop rec kvs ctx m = .ok ()) : Comes p (depSchemasLoop rec' kvs ctx m') () := by
  rw [depSchemasLoop_iff] at hok
  have : ∀ k a, (k, a) ∈ m' → dictHas k kvs = true → Comes p (rec' a (.dict kvs) ctx) () := by
    intro k a' hm hk
    obtain ⟨a, ha, hr⟩ := h.back hm
    exact hrec _ _ _ _ (hp k a ha) hr (hok k a ha hk)
  clear h hok
  induction m' with
  | nil => exact .ok
  | cons q m' ih =>
    obtain ⟨k, a⟩ := q
    have ih := ih fun k a hm => this k a (by simp [hm])
    simp only [depSchemasLoop]
    by_cases hk : dictHas k kvs = true
    · simp only [hk, if_true]
      exact (this k a (by simp) hk).bind ih
    · simp only [hk]
      exact ih

omit hrec in
theorem patternLoop_iff (w : World) (k : Str) (x : Val) (ctx : Ctx) (ps : List (Str × α)) (ev b : Bool) : patternLoop rec w k x ctx ev ps = .ok b →
    (∀ q a, (q, a) ∈ ps → ∃ m, w.search q = some m ∧ (m k = true → rec a x ctx = .ok ())) ∧
      (b = true ↔ ev = true ∨ ∃ q ∈ ps.map Prod.fst, ∃ m, w.search q = some m ∧ m k = true) := by
  induction ps generalizing ev with
  | nil => intro h; cases h; simp
  | cons r ps ih =>
    obtain ⟨q, a⟩ := r
    intro h
    simp only [patternLoop] at h
    cases e : w.search q with
    | none => rw [e] at h; cases h
    | some m =>
      rw [e] at h
      simp only at h
      by_cases hm : m k = true
      · rw [if_pos hm] at h
        obtain ⟨_, h1, h2⟩ := Res.bind_eq_ok.1 h
        obtain ⟨h3, h4⟩ := ih _ h2
        refine ⟨fun q' a' hq => ?_, ?_⟩
        · rcases List.mem_cons.1 hq with hq | hq
          · cases hq; exact ⟨m, e, fun _ => h1⟩
          · exact h3 q' a' hq
        · simp only [true_or, iff_true] at h4
          simp only [h4, true_iff]
          exact .inr ⟨q, by simp, m, e, hm⟩
      · rw [if_neg hm] at h
        obtain ⟨h3, h4⟩ := ih _ h
        refine ⟨fun q' a' hq => ?_, ?_⟩
        · rcases List.mem_cons.1 hq with hq | hq
          · cases hq; exact ⟨m, e, fun h => absurd h hm⟩
          · exact h3 q' a' hq
        · rw [h4]
          refine or_congr Iff.rfl ⟨?_, ?_⟩
          · rintro ⟨q', hq, h⟩
            exact ⟨q', by simp only [List.map_cons, List.mem_cons]; exact .inr hq, h⟩
          · rintro ⟨q', hq, m', hm', hk⟩
            simp only [List.map_cons, List.mem_cons] at hq
            rcases hq with rfl | hq
            · rw [e] at hm'; cases hm'; exact absurd hk hm
            · exact ⟨q', hq, m', hm', hk⟩

omit hrec in
theorem patternLoop_comes' (w : World) (k : Str) (x : Val) (ctx : Ctx) (ps : List (Str × α)) (ev b : Bool)
    (h : ∀ q a, (q, a) ∈ ps → ∃ m, w.search q = some m ∧ (m k = true → Comes p (rec' a x ctx) ()))
    (hb : b = true ↔ ev = true ∨ ∃ q ∈ ps.map Prod.fst, ∃ m, w.search q = some m ∧ m k = true) : Comes p (patternLoop rec' w k x ctx ev ps) b := by
  induction ps generalizing ev with
  | nil =>
    have : b = ev := by cases b <;> cases ev <;> simp_all
    rw [this]
    exact .ok
  | cons r ps ih =>
    obtain ⟨q, a⟩ := r
    obtain ⟨m, e, h1⟩ := h q a (by simp)
    simp only [patternLoop, e]
    by_cases hm : m k = true
    · rw [if_pos hm]
      refine (h1 hm).bind (ih true (fun q a hq => h q a (by simp [hq])) ?_)
      have : b = true := hb.2 (.inr ⟨q, by simp, m, e, hm⟩)
      simp [this]
    · rw [if_neg hm]
      refine ih ev (fun q a hq => h q a (by simp [hq])) ?_
      rw [hb]
      refine or_congr Iff.rfl ⟨?_, ?_⟩
      · rintro ⟨q', hq, m', hm', hk⟩
        simp only [List.map_cons, List.mem_cons] at hq
        rcases hq with rfl | hq
        · rw [e] at hm'; cases hm'; exact absurd hk hm
        · exact ⟨q', hq, m', hm', hk⟩
      · rintro ⟨q', hq, h⟩
        exact ⟨q', by simp only [List.map_cons, List.mem_cons]; exact .inr hq, h⟩

theorem patternLoop_comes (w : World) (k : Str) (x : Val) (ctx : Ctx) {ps qs : List (Str × α)} (h : DictRel R ps qs) (hp : ∀ q a, (q, a) ∈ ps → P a) (b : Bool)
    (hok : patternLoop rec w k x ctx false ps = .ok b) : Comes p (patternLoop rec' w k x ctx false qs) b := by
  obtain ⟨h1, h2⟩ := patternLoop_iff w k x ctx ps false b hok
  refine patternLoop_comes' w k x ctx qs false b (fun q a' hq => ?_) ?_
  · obtain ⟨a, ha, hr⟩ := h.back hq
    obtain ⟨m, e, hm⟩ := h1 q a ha
    exact ⟨m, e, fun hk => hrec _ _ _ _ (hp q a ha) hr (hm hk)⟩
  · rw [h2]
    refine or_congr Iff.rfl ⟨?_, ?_⟩
    · rintro ⟨q, hq, h'⟩; exact ⟨q, (h.keys q).1 hq, h'⟩
    · rintro ⟨q, hq, h'⟩; exact ⟨q, (h.keys q).2 hq, h'⟩

theorem objectItem_comes (w : World) {o o' : ObjV α} (h : ObjRel R o o') (hp : ∀ a ∈ (V.object o).subs, P a) (k : Str) (x : Val) (ctx : Ctx)
    (hok : objectItem rec w o k x ctx = .ok ()) : Comes p (objectItem rec' w o' k x ctx) () := by
  have hprop : ∀ k a, (k, a) ∈ o.props → P a := fun k a e =>
    hp a (by simp only [V.subs, List.mem_append, List.mem_map]; exact .inl (.inl (.inl ⟨_, e, rfl⟩)))
  have hadd : ∀ a, o.additional = some (.lazy a) → P a := fun a e => hp a (by simp [V.subs, e])
  have hpat : ∀ ps, o.patterns = some ps → ∀ q a, (q, a) ∈ ps → P a := fun ps e q a hp' =>
    hp a (by simp only [V.subs, List.mem_append, e, Option.getD_some, List.mem_map]; exact .inl (.inl (.inr ⟨_, hp', rfl⟩)))
  have hname : ∀ a, o.names = some a → P a := fun a e => hp a (by simp [V.subs, e])
  have rest : ∀ ev : Bool, ((if ev = true then .ok ()
      else match o.additional with
        | some .fail => .err (raisePlain (Ctx.path (ctx ++ [k])))
        | some (.lazy a) => rec a x (ctx ++ [k])
        | none => if o.unevaluated then .err (raisePlain (Ctx.path (ctx ++ [k]))) else .ok () : Res Unit)) = .ok () →
      Comes p (if ev = true then .ok ()
      else match o'.additional with
        | some .fail => .err (raisePlain (Ctx.path (ctx ++ [k])))
        | some (.lazy a) => rec' a x (ctx ++ [k])
        | none => if o'.unevaluated then .err (raisePlain (Ctx.path (ctx ++ [k]))) else .ok () : Res Unit) () := by
    intro ev h4
    cases ev with
    | true => exact .ok
    | false =>
      simp only [Bool.false_eq_true, ↓reduceIte] at h4 ⊢
      have ha := h.additional
      cases e : o.additional <;> cases e' : o'.additional <;> rw [e, e'] at ha <;> cases ha
      · rw [e] at h4
        simp only at h4 ⊢
        rw [← h.unevaluated]
        exact .inl h4
      · rename_i hs
        rw [e] at h4
        cases hs with
        | fail => cases h4
        | lazy hr => exact hrec _ _ _ _ (hadd _ e) hr h4
  have main : (match dictGet k o.props with
      | some p => rec p x (ctx ++ [k])
      | none => do
        let evaluated ← match o.patterns with
          | some ps => patternLoop rec w k x (ctx ++ [k]) false ps
          | none => .ok false
        if evaluated then .ok ()
        else match o.additional with
          | some .fail => .err (raisePlain (Ctx.path (ctx ++ [k])))
          | some (.lazy a) => rec a x (ctx ++ [k])
          | none => if o.unevaluated then .err (raisePlain (Ctx.path (ctx ++ [k]))) else .ok ()) = .ok () →
      Comes p (match dictGet k o'.props with
      | some p => rec' p x (ctx ++ [k])
      | none => do
        let evaluated ← match o'.patterns with
          | some ps => patternLoop rec' w k x (ctx ++ [k]) false ps
          | none => .ok false
        if evaluated then .ok ()
        else match o'.additional with
          | some .fail => .err (raisePlain (Ctx.path (ctx ++ [k])))
          | some (.lazy a) => rec' a x (ctx ++ [k])
          | none => if o'.unevaluated then .err (raisePlain (Ctx.path (ctx ++ [k]))) else .ok ()) () := by
    intro h2
    have hg := h.props.get k
    cases e : dictGet k o.props <;> cases e' : dictGet k o'.props <;> rw [e, e'] at hg <;> cases hg
    · rw [e] at h2
      simp only at h2 ⊢
      have hq := h.patterns
      cases f : o.patterns <;> cases f' : o'.patterns <;> rw [f, f'] at hq <;> cases hq
      · rw [f] at h2
        exact rest false h2
      · rename_i hd
        rw [f] at h2
        simp only at h2 ⊢
        obtain ⟨ev, h3, h4⟩ := Res.bind_eq_ok.1 h2
        exact (patternLoop_comes hrec w k x _ hd (hpat _ f) ev h3).bind (rest ev h4)
    · rename_i hr
      rw [e] at h2
      exact hrec _ _ _ _ (hprop _ _ (dictGet_mem e)) hr h2
  rw [objectItem] at hok ⊢
  have hq := h.names
  cases f : o.names <;> cases f' : o'.names <;> rw [f, f'] at hq <;> cases hq
  · rw [f] at hok
    exact main hok
  · rename_i hr
    rw [f] at hok
    obtain ⟨_, h1, h2⟩ := Res.bind_eq_ok.1 hok
    exact (hrec _ _ _ _ (hname _ f) hr h1).bind (main h2)

theorem object_comes (w : World) {o o' : ObjV α} (h : ObjRel R o o') (hp : ∀ a ∈ (V.object o).subs, P a) (ctx : Ctx) (kvs : List (Str × Val))
    (hok : objectLoop rec w o ctx kvs = .ok ()) : Comes p (objectLoop rec' w o' ctx kvs) () := by
  induction kvs with
  | nil => exact .ok
  | cons q kvs ih =>
    obtain ⟨k, x⟩ := q
    rw [objectLoop] at hok ⊢
    obtain ⟨_, h1, h2⟩ := Res.bind_eq_ok.1 hok
    exact (objectItem_comes hrec w h hp k x ctx h1).bind (ih h2)

omit hrec in
theorem depRequiredItems_iff (kvs : List (Str × Val)) (ctx : Ctx) (is : List Str) :
    depRequiredItems kvs ctx is = .ok () ↔ ∀ i ∈ is, dictHas i kvs = true := by
  induction is with
  | nil => simp [depRequiredItems]
  | cons i is ih =>
    simp only [depRequiredItems]
    by_cases h : dictHas i kvs = true
    · simp [h, ih]
    · simp [h]

omit hrec in
theorem depRequiredLoop_iff (kvs : List (Str × Val)) (ctx : Ctx) (m : List (Str × List Str)) :
    depRequiredLoop kvs ctx m = .ok () ↔ ∀ k is, (k, is) ∈ m → dictHas k kvs = true → ∀ i ∈ is, dictHas i kvs = true := by
  induction m with
  | nil => simp [depRequiredLoop]
  | cons q m ih =>
    obtain ⟨k, is⟩ := q
    simp only [depRequiredLoop]
    by_cases hk : dictHas k kvs = true
    · simp only [hk, if_true]
      constructor
      · intro h
        obtain ⟨_, h1, h2⟩ := Res.bind_eq_ok.1 h
        intro k' is' hm
        rcases List.mem_cons.1 hm with hm | hm
        · cases hm; exact fun _ => (depRequiredItems_iff ..).1 h1
        · exact ih.1 h2 k' is' hm
      · intro h
        rw [(depRequiredItems_iff ..).2 (h k is (by simp) hk), Res.ok_bind]
        exact ih.2 fun k is hm => h k is (by simp [hm])
    · simp only [hk]
      constructor
      · intro h k' is' hm
        rcases List.mem_cons.1 hm with hm | hm
        · cases hm; exact fun hk' => absurd hk' hk
        · exact ih.1 h k' is' hm
      · intro h
        exact ih.2 fun k is hm => h k is (by simp [hm])

theorem run_comes (w : World) (f : Nat) {x x' : V α} (h : ValidRel R x x') (hc : x.catches = false) (hp : ∀ a ∈ x.subs, P a)
    (he : p ∨ ∀ vals, x = .enum vals → ∀ n ∈ vals, Rigid n) (v : Val) (ctx : Ctx) (hok : run rec w f x v ctx = .ok ()) : Comes p (run rec' w f x' v ctx) () := by
  cases h with
  | type | const | maximum | minimum | multipleOf | minLength | maxLength | minItems | maxItems | minProperties | maxProperties | uniqueItems | required
  | format | pattern | held => exact .inl hok
  | enum h => exact runEnum_comes h (he.imp id fun h => h _ rfl) v ctx hok
  | contains | anyOf | oneOf | not => simp [V.catches] at hc
  | cond hi ht he =>
    cases hi with
    | none => exact .ok
    | some => simp [V.catches] at hc
  | array hpre hi =>
    simp only [run, runArray] at hok ⊢
    cases v with
    | list xs =>
      simp only at hok ⊢
      refine arrayLoop_comes hrec ?_ hi (fun a ha => hp a (by simp only [V.subs, List.mem_append]; exact .inl ha)) (fun a ha => hp a (by simp [V.subs, ha])) f ctx 0 xs hok
      cases hpre with
      | none => exact .nil
      | some h => exact h
    | _ => cases hok
  | object h =>
    simp only [run, runObject] at hok ⊢
    cases v with
    | dict kvs => exact object_comes hrec w h hp ctx kvs hok
    | _ => exact .ok
  | allOf h => exact allOf_comes hrec h hp v ctx hok
  | dependentSchemas h =>
    cases v with
    | dict kvs => exact depSchemas_comes hrec h (fun k a hm => hp a (List.mem_map.2 ⟨_, hm, rfl⟩)) kvs ctx hok
    | _ => exact .ok
  | dependentRequired h =>
    cases v with
    | dict kvs =>
      simp only [run] at hok ⊢
      rw [depRequiredLoop_iff] at hok
      refine .inl ((depRequiredLoop_iff ..).2 fun k is' hm hk i hi => ?_)
      obtain ⟨is, hm', hs⟩ := h.back hm
      exact hok k is hm' hk i ((hs i).2 hi)
    | _ => exact .ok

theorem runAll_comes (w : World) (f : Nat) {d d' : Data α} (h : DataRel R d d') (hc : ∀ q ∈ d, q.2.catches = false) (hp : ∀ q ∈ d, ∀ a ∈ q.2.subs, P a)
    (he : p ∨ ∀ k vals, (k, .enum vals) ∈ d → ∀ n ∈ vals, Rigid n) (v : Val) (ctx : Ctx) (hok : runAll rec w f v ctx d = .ok ()) :
    Comes p (runAll rec' w f v ctx d') () := by
  induction h with
  | nil => exact .ok
  | cons k h _ ih =>
    rw [runAll] at hok ⊢
    obtain ⟨_, h1, h2⟩ := Res.bind_eq_ok.1 hok
    refine (run_comes hrec w f h (hc _ (List.mem_cons_self ..)) (hp _ (List.mem_cons_self ..)) (he.imp id fun h vals e => h k vals (by simp [e])) v ctx h1).bind ?_
    exact ih (fun q hq => hc q (by simp [hq])) (fun q hq => hp q (by simp [hq])) (he.imp id fun h k vals hm => h k vals (by simp [hm])) h2

end

end Verif.Spec
