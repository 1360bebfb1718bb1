import Verif.Model.Validating
import Verif.Proofs.Lazy
import Verif.Proofs.Bridge
/-! # Looking programs: played on trees, and independent of what the nodes are -/

set_option linter.unusedSimpArgs false

namespace Verif
open Look

section
variable {ν ρ σ τ : Type}

theorem Look.bind_eq (p : Look ν ρ) (g : ρ → Look ν σ) : (p >>= g) = p.bind g := rfl
@[simp] theorem Look.pure_bind (a : ρ) (g : ρ → Look ν σ) : ((pure a : Look ν ρ) >>= g) = g a := rfl
@[simp] theorem Look.raise_bind (e : PyErr) (g : ρ → Look ν σ) : ((raise e : Look ν ρ) >>= g) = raise e := rfl
end

/-! ## On trees -/

/-- What a tree shows that is not a reference. -/
def Node.sight : Node → Sight Node
  | .null => .null
  | .bool b => .bool b
  | .num n => .num n
  | .str s => .str s
  | .arr xs => .arr xs
  | .obj kvs => .obj kvs
  | .ref .. => .null

/-- Play the program on trees. -/
def lookT {ρ : Type} (vw : Node → Res Node) : Look Node ρ → Res ρ
  | .done r => r
  | .sight n k => vw n >>= fun x => lookT vw (k x.sight)
  | .tree n k => lookT vw (k n)

section
variable {ρ σ : Type} (vw : Node → Res Node)

@[simp] theorem lookT_bind (p : Look Node ρ) (g : ρ → Look Node σ) : lookT vw (p >>= g) = lookT vw p >>= fun a => lookT vw (g a) := by
  change lookT vw (p.bind g) = _
  induction p with
  | done r => cases r <;> rfl
  | sight n k ih =>
    simp only [Look.bind, lookT, Res.bind_assoc]
    exact Res.bind_congr _ fun x => ih _
  | tree n k ih => exact ih n

@[simp] theorem lookT_pure (a : ρ) : lookT vw (pure a) = .ok a := rfl
@[simp] theorem lookT_done (r : Res ρ) : lookT vw (.done r) = r := rfl
@[simp] theorem lookT_raise (e : PyErr) : lookT vw (raise e : Look Node ρ) = .err e := rfl
@[simp] theorem lookT_whole (n : Node) : lookT vw (whole n) = .ok n := rfl
theorem lookT_see (n : Node) : lookT vw (see n) = vw n >>= fun x => .ok x.sight := rfl

theorem lookT_seeing (n : Node) (g : Sight Node → Look Node ρ) : lookT vw (see n >>= g) = vw n >>= fun x => lookT vw (g x.sight) := by
  rw [lookT_bind, lookT_see, Res.bind_assoc]; rfl

theorem lookT_wholes (xs : List Node) : lookT vw (wholes xs) = .ok xs := by
  induction xs with
  | nil => rfl
  | cons x xs ih => simp [wholes, ih]

theorem lookT_intIn (i : Int) (xs : List Node) : lookT vw (intInL i xs) = intInArr i xs := by
  induction xs with
  | nil => rfl
  | cons x xs ih =>
    simp only [intInL, lookT_bind, lookT_whole, Res.ok_bind]
    cases x <;> simp only [intInArr] <;> first | exact ih | rfl | (split <;> first | rfl | exact ih)

theorem lookT_iter (xs : List Node) (i : Nat) (rest : List Node) : lookT vw (iterL xs i rest) = iterRef xs i rest := by
  induction rest generalizing i with
  | nil =>
    simp only [iterL, iterRef, lookT_bind, lookT_intIn]
    refine Res.bind_congr _ fun b => ?_
    cases b <;> rfl
  | cons x rest ih =>
    simp only [iterL, iterRef, lookT_bind, lookT_intIn]
    refine Res.bind_congr _ fun b => ?_
    cases b
    · rfl
    · simp [ih]

@[simp] theorem lookT_seq (n : Node) (xs : List Node) : lookT vw (seqL n xs) = seqOf n xs := by
  simp only [seqL, lookT_bind, lookT_whole, Res.ok_bind]
  cases n <;> simp only [seqOf] <;> first | rfl | exact lookT_iter vw xs 0 xs

theorem lookT_strMap (w : World) (kvs : List (Str × Node)) : lookT vw (strMapL w kvs) = strItemsMap w kvs := by
  induction kvs with
  | nil => rfl
  | cons p kvs ih =>
    obtain ⟨k, n⟩ := p
    simp only [strMapL, lookT_bind, lookT_whole, Res.ok_bind, lookT_done, lookT_pure, strItemsMap, ih]

variable (items : List (Str × Node))

@[simp] theorem lookT_get (k : Str) : lookT vw (getL items k) = getKey items k := by
  unfold getL getKey
  cases dictGet k items <;> rfl

variable {vw} (hv : ∀ n x, vw n = .ok x → x.isRef = false)
include hv

theorem seeing_congr {n : Node} {g : Sight Node → Look Node ρ} {g' : Node → Res ρ} (h : ∀ x, x.isRef = false → lookT vw (g x.sight) = g' x) :
    lookT vw (see n >>= g) = vw n >>= g' := by
  rw [lookT_seeing]
  cases e : vw n with
  | ok x => exact h x (hv n x e)
  | err e => rfl
  | timeout => rfl

theorem lookT_eqTrue (n : Node) : lookT vw (eqTrueL n) = eqTrue vw n := by
  refine seeing_congr hv fun x hx => ?_
  cases x <;> rfl

theorem lookT_int (k : Str) : lookT vw (intL items k) = intKey vw items k := by
  unfold intL intKey
  rw [lookT_bind, lookT_get]
  refine Res.bind_congr _ fun n => seeing_congr hv fun x hx => ?_
  cases x <;> first | rfl | (simp only [Node.sight, lookT_bind, lookT_whole, Res.ok_bind]; cases n <;> rfl)

theorem lookT_intValue (k : Str) : lookT vw (intValueL items k) = intValueKey vw items k := by
  unfold intValueL intValueKey
  rw [lookT_bind, lookT_get]
  refine Res.bind_congr _ fun n => seeing_congr hv fun x hx => ?_
  cases x <;> first | rfl | (simp only [Node.sight, lookT_bind, lookT_whole, Res.ok_bind]; split <;> rfl)

theorem lookT_num (k : Str) : lookT vw (numL items k) = numKey vw items k := by
  unfold numL numKey
  rw [lookT_bind, lookT_get]
  refine Res.bind_congr _ fun n => seeing_congr hv fun x hx => ?_
  cases x <;> rfl

section
variable {α : Type} (mk : Node → α)

theorem lookT_sub (k : Str) : lookT vw (subL mk items k) = subKey vw mk items k := by
  unfold subL subKey
  rw [lookT_bind, lookT_get]
  refine Res.bind_congr _ fun n => seeing_congr hv fun x hx => ?_
  cases x <;> rfl

theorem lookT_subs (k : Str) : lookT vw (subsL mk items k) = subsKey vw mk items k := by
  unfold subsL subsKey
  rw [lookT_bind, lookT_get]
  refine Res.bind_congr _ fun n => seeing_congr hv fun x hx => ?_
  cases x <;> simp [Node.sight]

theorem lookT_subMap (k : Str) : lookT vw (subMapL mk items k) = subMapKey vw mk items k := by
  unfold subMapL subMapKey
  rw [lookT_bind, lookT_get]
  refine Res.bind_congr _ fun n => seeing_congr hv fun x hx => ?_
  cases x <;> rfl

/-- What a keyword reads from a tree is what `Model/Keywords` says. -/
theorem readKw_tree (w : World) (k : Kw) : lookT vw (readL w mk items k) = readKw w vw mk items k := by
  cases k with
  | type =>
    simp only [readL, readKw]
    rw [lookT_bind, lookT_get]
    refine Res.bind_congr _ fun n => seeing_congr hv fun x hx => ?_
    cases x <;> simp only [Node.sight, lookT_bind, lookT_whole, lookT_raise, lookT_pure, lookT_seq, lookT_wholes, Res.ok_bind, Res.err_bind, Res.bind_assoc] <;>
      first
      | rfl
      | (split <;> rfl)
      | (refine Res.bind_congr _ fun ys => ?_; split <;> rfl)
  | enum =>
    simp only [readL, readKw]
    rw [lookT_bind, lookT_get]
    refine Res.bind_congr _ fun n => seeing_congr hv fun x hx => ?_
    cases x <;> first | rfl | (simp only [Node.sight, lookT_bind, lookT_whole, Res.ok_bind]; cases n <;> simp [lookT_wholes])
  | const =>
    simp only [readL, readKw]
    rw [lookT_bind, lookT_get]
    refine Res.bind_congr _ fun n => seeing_congr hv fun x hx => ?_
    cases x <;> first | rfl | (cases hx)
  | maximum =>
    simp only [readL, readKw]
    rw [lookT_bind, lookT_num items hv]
    refine Res.bind_congr _ fun ⟨n, m⟩ => ?_
    simp only
    cases dictGet c!"exclusiveMaximum" items with
    | none => rfl
    | some e => rw [lookT_bind, lookT_eqTrue hv]; rfl
  | minimum =>
    simp only [readL, readKw]
    rw [lookT_bind, lookT_num items hv]
    refine Res.bind_congr _ fun ⟨n, m⟩ => ?_
    simp only
    cases dictGet c!"exclusiveMinimum" items with
    | none => rfl
    | some e => rw [lookT_bind, lookT_eqTrue hv]; rfl
  | exclusiveMaximum | exclusiveMinimum =>
    simp only [readL, readKw]
    rw [lookT_bind, lookT_get]
    refine Res.bind_congr _ fun n => seeing_congr hv fun x hx => ?_
    cases x <;> first | rfl | (simp only [Node.sight]; split <;> rfl)
  | uniqueItems =>
    simp only [readL, readKw]
    rw [lookT_bind, lookT_get]
    refine Res.bind_congr _ fun n => seeing_congr hv fun x hx => ?_
    cases x <;> first | rfl | (simp only [Node.sight]; split <;> rfl)
  | contains =>
    simp only [readL, readKw, lookT_bind, lookT_sub items hv]
    refine Res.bind_congr _ fun n => ?_
    split <;> split <;> simp only [lookT_bind, lookT_intValue items hv, lookT_pure]
  | items =>
    simp only [readL, readKw]
    rw [lookT_bind, lookT_get]
    refine Res.bind_congr _ fun n => seeing_congr hv fun x hx => ?_
    cases x with
    | arr xs =>
      simp only [Node.sight, lookT_bind, lookT_seq]
      refine Res.bind_congr _ fun ys => ?_
      cases dictGet c!"additionalItems" items with
      | none => rfl
      | some a =>
        refine seeing_congr hv fun y hy => ?_
        cases y <;> first | rfl | (rename_i b; cases b <;> rfl)
    | _ => rfl
  | additionalProperties | unevaluatedProperties =>
    simp only [readL, readKw]
    rw [lookT_bind, lookT_get]
    refine Res.bind_congr _ fun n => seeing_congr hv fun x hx => ?_
    cases x <;> first | rfl | (rename_i b; cases b <;> rfl)
  | required =>
    simp only [readL, readKw]
    rw [lookT_bind, lookT_get]
    refine Res.bind_congr _ fun n => seeing_congr hv fun x hx => ?_
    cases x <;> first | rfl | simp [Node.sight, lookT_wholes]
  | dependentRequired =>
    simp only [readL, readKw]
    rw [lookT_bind, lookT_get]
    refine Res.bind_congr _ fun n => seeing_congr hv fun x hx => ?_
    cases x <;> first | rfl | simp [Node.sight, lookT_strMap]
  | format =>
    simp only [readL, readKw]
    rw [lookT_bind, lookT_get]
    refine Res.bind_congr _ fun n => seeing_congr hv fun x hx => ?_
    cases x <;> first | rfl | (simp only [Node.sight, lookT_bind, lookT_whole, Res.ok_bind]; cases w.formats (nodeStr w n) <;> rfl)
  | pattern =>
    simp only [readL, readKw]
    rw [lookT_bind, lookT_get]
    refine Res.bind_congr _ fun n => seeing_congr hv fun x hx => ?_
    cases x <;> first | rfl | (simp only [Node.sight, lookT_bind, lookT_whole, Res.ok_bind]; cases w.search (nodeStr w n) <;> rfl)
  | multipleOf =>
    simp only [readL, readKw, lookT_bind, lookT_num items hv]
    rfl
  | ref | anchor | id => rfl
  | _ => simp only [readL, readKw, lookT_bind, lookT_int items hv, lookT_sub items hv, lookT_subs items hv, lookT_subMap items hv, lookT_pure]

/-- All keywords of a vocabulary. -/
theorem loadAll_tree (w : World) (voc : List Kw) (d : Data α) : lookT vw (loadAllL w mk items voc d) = match loadAll w vw mk items voc d with
    | (d', .ok _) => .ok d'
    | (_, .err e) => .err e
    | (_, .timeout) => .timeout := by
  induction voc generalizing d with
  | nil => rfl
  | cons k ks ih =>
    rw [loadAllL, loadAll]
    split
    · rw [applyKw_eq, lookT_bind, readKw_tree items hv]
      cases readKw w vw mk items k with
      | ok u =>
        simp only [Res.ok_bind, lookT_bind, lookT_done]
        cases u.apply k.key d with
        | ok d' => exact ih d'
        | err e => rfl
        | timeout => rfl
      | err e => rfl
      | timeout => rfl
    · exact ih d
end

omit hv in
theorem lookT_keyIn (k : Str) (xs : List Node) : lookT vw (keyInL k xs) = keyInArr k xs := by
  induction xs with
  | nil => rfl
  | cons x xs ih =>
    simp only [keyInL, lookT_bind, lookT_whole, Res.ok_bind]
    cases x <;> simp only [keyInArr] <;> first | exact ih | rfl | (split <;> first | rfl | exact ih)

omit hv in
theorem loadOther_tree (x : Node) (hx : x.isRef = false) (voc : List Kw) : lookT vw (loadOtherL x.sight voc) = loadNonObject x voc := by
  cases x with
  | ref => cases hx
  | str s =>
    induction voc with
    | nil => rfl
    | cons k ks ih =>
      simp only [Node.sight, loadOtherL, loadNonObject] at ih ⊢
      split
      · split
        · rfl
        · exact ih
      · exact ih
  | arr xs =>
    induction voc with
    | nil => rfl
    | cons k ks ih =>
      simp only [Node.sight, loadOtherL, loadNonObject] at ih ⊢
      split
      · rw [lookT_bind, lookT_keyIn]
        refine Res.bind_congr _ fun b => ?_
        cases b
        · exact ih
        · rfl
      · exact ih
  | _ =>
    induction voc with
    | nil => rfl
    | cons k ks ih =>
      simp only [Node.sight, loadOtherL, loadNonObject] at ih ⊢
      split
      · rfl
      · exact ih

end

/-! ## What the nodes are does not matter -/

section
variable {ν ν' : Type} (g : ν → ν')

def Sight.map : Sight ν → Sight ν'
  | .null => .null
  | .bool b => .bool b
  | .num n => .num n
  | .str s => .str s
  | .arr xs => .arr (xs.map g)
  | .obj kvs => .obj (mapD g kvs)

/-- The second program does with the images of the nodes what the first does with the nodes. -/
def Like {ρ ρ' : Type} (h : ρ → ρ') : Look ν ρ → Look ν' ρ' → Prop
  | .done r, .done r' => r' = r.fmap h
  | .sight n k, .sight n' k' => n' = g n ∧ ∀ x, Like h (k x) (k' (x.map g))
  | .tree n k, .tree n' k' => n' = g n ∧ ∀ x, Like h (k x) (k' x)
  | _, _ => False

variable {g} {ρ ρ' σ σ' : Type}

theorem Like.bind {h : ρ → ρ'} {h' : σ → σ'} {p : Look ν ρ} {q : Look ν' ρ'} {f : ρ → Look ν σ} {f' : ρ' → Look ν' σ'} (hp : Like g h p q)
    (hf : ∀ a, Like g h' (f a) (f' (h a))) : Like g h' (p >>= f) (q >>= f') := by
  change Like g h' (p.bind f) (q.bind f')
  induction p generalizing q with
  | done r =>
    cases q with
    | done r' =>
      simp only [Like] at hp
      subst hp
      cases r with
      | ok a => exact hf a
      | err e => exact rfl
      | timeout => exact rfl
    | _ => exact hp.elim
  | sight n k ih =>
    cases q with
    | sight n' k' => exact ⟨hp.1, fun x => ih x (hp.2 x)⟩
    | _ => exact hp.elim
  | tree n k ih =>
    cases q with
    | tree n' k' => exact ⟨hp.1, fun x => ih x (hp.2 x)⟩
    | _ => exact hp.elim

theorem Like.pure {h : ρ → ρ'} {a : ρ} {b : ρ'} (e : b = h a) : Like g h (pure a) (pure b) := by subst e; exact rfl
theorem Like.raise {h : ρ → ρ'} {e : PyErr} : Like g h (raise e) (raise e) := rfl
theorem Like.done {h : ρ → ρ'} {r : Res ρ} {r' : Res ρ'} (e : r' = r.fmap h) : Like g h (.done r) (.done r') := e
theorem Like.same {r : Res ρ} : Like g id (.done r) (.done r) := by cases r <;> exact rfl
theorem Like.see (n : ν) : Like g (Sight.map g) (see n) (see (g n)) := ⟨rfl, fun _ => rfl⟩
theorem Like.whole (n : ν) : Like g id (whole n) (whole (g n)) := ⟨rfl, fun _ => rfl⟩

theorem wholes_like (xs : List ν) : Like g id (wholes xs) (wholes (xs.map g)) := by
  induction xs with
  | nil => exact rfl
  | cons x xs ih => exact (Like.whole x).bind fun t => ih.bind fun ts => .pure rfl

theorem intIn_like (i : Int) (xs : List ν) : Like g id (intInL i xs) (intInL i (xs.map g)) := by
  induction xs with
  | nil => exact rfl
  | cons x xs ih =>
    refine (Like.whole x).bind fun t => ?_
    cases t with
    | num n =>
      simp only [id]
      split
      · exact rfl
      · exact ih
    | bool => exact rfl
    | ref => exact rfl
    | _ => exact ih

theorem iter_like (xs : List ν) (i : Nat) (rest : List ν) : Like g (List.map g) (iterL xs i rest) (iterL (xs.map g) i (rest.map g)) := by
  induction rest generalizing i with
  | nil =>
    refine (intIn_like _ xs).bind fun b => ?_
    cases b <;> exact rfl
  | cons x rest ih =>
    refine (intIn_like _ xs).bind fun b => ?_
    cases b
    · exact rfl
    · exact (ih _).bind fun r => .pure rfl

theorem seq_like (n : ν) (xs : List ν) : Like g (List.map g) (seqL n xs) (seqL (g n) (xs.map g)) := by
  refine (Like.whole n).bind fun t => ?_
  cases t with
  | ref => exact iter_like xs 0 xs
  | _ => exact rfl

theorem eqTrue_like (n : ν) : Like g id (eqTrueL n) (eqTrueL (g n)) := by
  refine (Like.see n).bind fun x => ?_
  cases x <;> exact rfl

theorem strMap_like (w : World) (kvs : List (Str × ν)) : Like g id (strMapL w kvs) (strMapL w (mapD g kvs)) := by
  induction kvs with
  | nil => exact rfl
  | cons p kvs ih => exact (Like.whole p.2).bind fun t => Like.same.bind fun xs => ih.bind fun r => .pure rfl

variable (items : List (Str × ν))

theorem get_like (k : Str) : Like g g (getL items k) (getL (mapD g items) k) := by
  unfold getL
  rw [dictGet_mapD]
  cases dictGet k items <;> exact rfl

theorem int_like (k : Str) : Like g id (intL items k) (intL (mapD g items) k) := by
  refine (get_like items k).bind fun n => (Like.see n).bind fun x => ?_
  cases x with
  | num m =>
    refine (Like.whole n).bind fun t => ?_
    cases t <;> first | exact rfl | exact Like.same
  | _ => exact rfl

theorem intValue_like (k : Str) : Like g id (intValueL items k) (intValueL (mapD g items) k) := by
  refine (get_like items k).bind fun n => (Like.see n).bind fun x => ?_
  cases x with
  | num m =>
    refine (Like.whole n).bind fun t => ?_
    simp only [id]
    split
    · exact rfl
    · exact Like.same
  | _ => exact rfl

theorem num_like (k : Str) : Like g id (numL items k) (numL (mapD g items) k) := by
  refine (get_like items k).bind fun n => (Like.see n).bind fun x => ?_
  cases x with
  | num m => exact (Like.whole n).bind fun t => .pure rfl
  | _ => exact rfl

section
variable {α α' : Type} {mk : ν → α} {mk' : ν' → α'} {g' : α → α'} (hmk : ∀ n, mk' (g n) = g' (mk n))
include hmk

theorem sub_like (k : Str) : Like g g' (subL mk items k) (subL mk' (mapD g items) k) := by
  refine (get_like items k).bind fun n => (Like.see n).bind fun x => ?_
  cases x with
  | obj kvs => exact .pure (hmk n)
  | _ => exact rfl

theorem subs_like (k : Str) : Like g (List.map g') (subsL mk items k) (subsL mk' (mapD g items) k) := by
  refine (get_like items k).bind fun n => (Like.see n).bind fun x => ?_
  cases x with
  | arr xs => exact (seq_like n xs).bind fun ys => .pure (by simp [hmk])
  | _ => exact rfl

theorem subMap_like (k : Str) : Like g (mapD g') (subMapL mk items k) (subMapL mk' (mapD g items) k) := by
  refine (get_like items k).bind fun n => (Like.see n).bind fun x => ?_
  cases x with
  | obj kvs => exact .pure (by simp [mapD, hmk])
  | _ => exact rfl

theorem readL_like (w : World) (k : Kw) : Like g (Upd.map g') (readL w mk items k) (readL w mk' (mapD g items) k) := by
  cases k with
  | type =>
    refine (get_like items _).bind fun n => (Like.see n).bind fun x => ?_
    have last : ∀ ts : List Str, Like g (Upd.map g') (if ts.all (· ∈ validTypes) then Pure.pure (.set (.type ts)) else Look.raise .schemaParse)
        (if ts.all (· ∈ validTypes) then Pure.pure (.set (.type ts)) else Look.raise .schemaParse) := by
      intro ts
      split <;> exact rfl
    cases x with
    | str s => exact (Like.whole n).bind fun t => last _
    | arr xs => exact (seq_like n xs).bind fun ys => (wholes_like ys).bind fun ts => last _
    | _ => exact rfl
  | enum =>
    refine (get_like items _).bind fun n => (Like.see n).bind fun x => ?_
    cases x with
    | arr xs =>
      refine (Like.whole n).bind fun t => ?_
      cases t with
      | ref => exact rfl
      | _ => exact (wholes_like xs).bind fun ts => .pure rfl
    | _ => exact rfl
  | const =>
    refine (get_like items _).bind fun n => (Like.see n).bind fun x => ?_
    have last : ∀ y : Node, Like g (Upd.map g') (Look.whole n >>= fun t => Pure.pure (.set (if t.isRef then .held (.const y) else .const y)))
        (Look.whole (g n) >>= fun t => Pure.pure (.set (if t.isRef then .held (.const y) else .const y))) := fun y =>
      (Like.whole n).bind fun t => .pure (by simp only [id]; split <;> rfl)
    cases x <;> first | exact last _ | exact rfl
  | maximum =>
    refine (num_like items _).bind fun ⟨n, m⟩ => ?_
    have last : ∀ e : Bool, Like g (Upd.map g') (Pure.pure (.set (maxV n m e))) (Pure.pure (.set (maxV n m e))) := fun e => .pure (by simp [Upd.map])
    simp only [id, dictGet_mapD]
    cases dictGet c!"exclusiveMaximum" items with
    | none => exact last _
    | some e => exact (eqTrue_like e).bind last
  | minimum =>
    refine (num_like items _).bind fun ⟨n, m⟩ => ?_
    have last : ∀ e : Bool, Like g (Upd.map g') (Pure.pure (.set (minV n m e))) (Pure.pure (.set (minV n m e))) := fun e => .pure (by simp [Upd.map])
    simp only [id, dictGet_mapD]
    cases dictGet c!"exclusiveMinimum" items with
    | none => exact last _
    | some e => exact (eqTrue_like e).bind last
  | exclusiveMaximum =>
    refine (get_like items _).bind fun n => (Like.see n).bind fun x => ?_
    cases x with
    | bool b =>
      simp only [Sight.map, dictHas_mapD]
      split <;> exact rfl
    | num m => exact (Like.whole n).bind fun t => .pure (by simp [Upd.map])
    | _ => exact rfl
  | exclusiveMinimum =>
    refine (get_like items _).bind fun n => (Like.see n).bind fun x => ?_
    cases x with
    | bool b =>
      simp only [Sight.map, dictHas_mapD]
      split <;> exact rfl
    | num m => exact (Like.whole n).bind fun t => .pure (by simp [Upd.map])
    | _ => exact rfl
  | multipleOf =>
    refine (num_like items _).bind fun ⟨n, m⟩ => .pure ?_
    cases n <;> rfl
  | minLength | maxLength | minItems | maxItems | minProperties | maxProperties => exact (int_like items _).bind fun n => .pure rfl
  | uniqueItems =>
    refine (get_like items _).bind fun n => (Like.see n).bind fun x => ?_
    cases x with
    | bool b => cases b <;> exact rfl
    | _ => exact rfl
  | contains =>
    refine (sub_like items hmk _).bind fun c => ?_
    simp only [dictHas_mapD]
    have last : ∀ (mn : Int) (mx : Option Int), Like g (Upd.map g') (Pure.pure (.set (.contains c mn mx))) (Pure.pure (.set (.contains (g' c) mn mx))) :=
      fun _ _ => .pure rfl
    have mid : ∀ mn : Int, Like g (Upd.map g')
        (if dictHas c!"maxContains" items then do
            let m ← intValueL items c!"maxContains"
            let mx ← Pure.pure (some m)
            Pure.pure (.set (.contains c mn mx))
          else do
            let mx ← Pure.pure none
            Pure.pure (.set (.contains c mn mx)))
        (if dictHas c!"maxContains" items then do
            let m ← intValueL (mapD g items) c!"maxContains"
            let mx ← Pure.pure (some m)
            Pure.pure (.set (.contains (g' c) mn mx))
          else do
            let mx ← Pure.pure none
            Pure.pure (.set (.contains (g' c) mn mx))) := by
      intro mn
      split
      · exact (intValue_like items _).bind fun m => last _ _
      · exact last _ _
    split
    · exact (intValue_like items _).bind mid
    · exact mid _
  | items =>
    refine (get_like items _).bind fun n => (Like.see n).bind fun x => ?_
    cases x with
    | arr xs =>
      refine (seq_like n xs).bind fun ys => ?_
      simp only [dictGet_mapD]
      cases dictGet c!"additionalItems" items with
      | none => exact .pure (by simp [Upd.map, hmk])
      | some a =>
        refine (Like.see a).bind fun y => ?_
        cases y with
        | bool b => cases b <;> exact .pure (by simp [Upd.map, hmk])
        | _ => exact .pure (by simp [Upd.map, hmk])
    | bool b => cases b <;> exact .pure (by simp [Upd.map, hmk])
    | obj kvs => exact .pure (by simp [Upd.map, hmk])
    | _ => exact rfl
  | prefixItems | allOf | anyOf | oneOf => exact (subs_like items hmk _).bind fun c => .pure (by simp [Upd.map])
  | properties | patternProperties | dependentSchemas => exact (subMap_like items hmk _).bind fun c => .pure (by simp [Upd.map])
  | propertyNames | not | «if» | «then» | «else» => exact (sub_like items hmk _).bind fun c => .pure (by simp [Upd.map])
  | additionalProperties =>
    refine (get_like items _).bind fun n => (Like.see n).bind fun x => ?_
    cases x with
    | bool b => cases b <;> exact rfl
    | obj kvs => exact .pure (by simp [Upd.map, Sub.map, hmk])
    | _ => exact rfl
  | unevaluatedProperties =>
    refine (get_like items _).bind fun n => (Like.see n).bind fun x => ?_
    cases x with
    | bool b => cases b <;> exact rfl
    | _ => exact rfl
  | required =>
    refine (get_like items _).bind fun n => (Like.see n).bind fun x => ?_
    cases x with
    | arr xs => exact (seq_like n xs).bind fun ys => (wholes_like ys).bind fun ts => .pure rfl
    | _ => exact rfl
  | dependentRequired =>
    refine (get_like items _).bind fun n => (Like.see n).bind fun x => ?_
    cases x with
    | obj kvs => exact (strMap_like w kvs).bind fun ts => .pure rfl
    | _ => exact rfl
  | format =>
    refine (get_like items _).bind fun n => (Like.see n).bind fun x => ?_
    cases x with
    | str s =>
      refine (Like.whole n).bind fun t => ?_
      simp only [id]
      cases w.formats (nodeStr w t) <;> exact rfl
    | _ => exact rfl
  | pattern =>
    refine (get_like items _).bind fun n => (Like.see n).bind fun x => ?_
    cases x with
    | str s =>
      refine (Like.whole n).bind fun t => ?_
      simp only [id]
      cases w.search (nodeStr w t) <;> exact rfl
    | _ => exact rfl
  | ref | anchor | id => exact rfl

end

theorem loadAllL_like (w : World) (voc : List Kw) (d : Data ν) : Like g (Data.map g) (loadAllL w id items voc d) (loadAllL w id (mapD g items) voc (d.map g)) := by
  induction voc generalizing d with
  | nil => exact rfl
  | cons k ks ih =>
    rw [loadAllL, loadAllL]
    simp only [dictHas_mapD]
    split
    · exact (readL_like (g := g) items (g' := g) (mk := id) (mk' := id) (fun _ => rfl) w k).bind fun u => (Like.done (Upd.apply_map g k.key u d)).bind fun d' => ih d'
    · exact ih d

omit items

theorem keyIn_like (k : Str) (xs : List ν) : Like g id (keyInL k xs) (keyInL k (xs.map g)) := by
  induction xs with
  | nil => exact rfl
  | cons x xs ih =>
    refine (Like.whole x).bind fun t => ?_
    cases t with
    | str s =>
      simp only [id]
      split
      · exact rfl
      · exact ih
    | num => exact rfl
    | bool => exact rfl
    | ref => exact rfl
    | _ => exact ih

theorem loadOtherL_like (x : Sight ν) (voc : List Kw) : Like g id (loadOtherL x voc) (loadOtherL (x.map g) voc) := by
  induction voc with
  | nil => exact rfl
  | cons k ks ih =>
    cases x with
    | str s =>
      simp only [Sight.map, loadOtherL] at ih ⊢
      split
      · split
        · exact rfl
        · exact ih
      · exact ih
    | arr xs =>
      simp only [Sight.map, loadOtherL] at ih ⊢
      split
      · refine (keyIn_like k.key xs).bind fun b => ?_
        cases b
        · exact ih
        · exact rfl
      · exact ih
    | _ =>
      simp only [Sight.map, loadOtherL] at ih ⊢
      split
      · exact rfl
      · exact ih

end
end Verif
