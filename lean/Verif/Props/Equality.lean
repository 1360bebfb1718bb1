import Verif.Proofs.Compare
import Verif.Spec.Equality
import Verif.Props.Types
import Verif.Props.Compare
/-! # Properties C09 and C81: exactly when wrapped values are equal, and when comparing them raises -/

namespace Verif.Props
open Verif Spec

theorem listEq_true (xs ys : List Node) : nodeListEq xs ys = .ok true ↔ ∀ (i : Nat) x y, xs[i]? = some x → ys[i]? = some y → nodeEq x y = .ok true := by
  induction xs generalizing ys with
  | nil => simp [nodeListEq]
  | cons a xs ih =>
    cases ys with
    | nil => simp [nodeListEq]
    | cons b ys =>
      rw [nodeListEq]
      constructor
      · intro h i x y hx hy
        cases hr : nodeEq a b with
        | ok r =>
          rw [hr] at h
          cases r with
          | false => simp at h
          | true =>
            cases i with
            | zero => simp at hx hy; subst hx; subst hy; exact hr
            | succ i => exact (ih ys).1 (by simpa using h) i x y (by simpa using hx) (by simpa using hy)
        | err e => rw [hr] at h; simp at h
        | timeout => rw [hr] at h; simp at h
      · intro h
        rw [h 0 a b rfl rfl]
        simp only [Res.ok_bind, if_true]
        exact (ih ys).2 fun i x y hx hy => h (i + 1) x y (by simpa using hx) (by simpa using hy)

theorem listEq_err (xs ys : List Node) : nodeListEq xs ys = .err .typeError ↔ ∃ (i : Nat) (x y : Node), xs[i]? = some x ∧ ys[i]? = some y ∧ nodeEq x y = .err .typeError ∧
    ∀ j < i, ∀ u v, xs[j]? = some u → ys[j]? = some v → nodeEq u v = .ok true := by
  induction xs generalizing ys with
  | nil => simp [nodeListEq]
  | cons a xs ih =>
    cases ys with
    | nil => simp [nodeListEq]
    | cons b ys =>
      rw [nodeListEq]
      constructor
      · intro h
        cases hr : nodeEq a b with
        | ok r =>
          rw [hr] at h
          cases r with
          | false => simp at h
          | true =>
            obtain ⟨i, x, y, hx, hy, he, hb⟩ := (ih ys).1 (by simpa using h)
            refine ⟨i + 1, x, y, by simpa using hx, by simpa using hy, he, fun j hj u v hu hv => ?_⟩
            cases j with
            | zero => simp at hu hv; subst hu; subst hv; exact hr
            | succ j => exact hb j (by omega) u v (by simpa using hu) (by simpa using hv)
        | err e => rw [hr] at h; exact ⟨0, a, b, rfl, rfl, by rw [hr]; simpa using h, fun j hj => absurd hj (by omega)⟩
        | timeout => rw [hr] at h; simp at h
      · rintro ⟨i, x, y, hx, hy, he, hb⟩
        cases i with
        | zero => simp at hx hy; subst hx; subst hy; rw [he]; rfl
        | succ i =>
          rw [hb 0 (by omega) a b rfl rfl]
          simp only [Res.ok_bind, if_true]
          exact (ih ys).2 ⟨i, x, y, by simpa using hx, by simpa using hy, he, fun j hj u v hu hv => hb (j + 1) (by omega) u v (by simpa using hu) (by simpa using hv)⟩

theorem dictEq_err (xs ys : List (Str × Node)) : nodeDictEq xs ys = .err .typeError ↔ ∃ pre k x post y, xs = pre ++ (k, x) :: post ∧ dictGet k ys = some y ∧
    nodeEq x y = .err .typeError ∧ ∀ p ∈ pre, ∃ v, dictGet p.1 ys = some v ∧ nodeEq p.2 v = .ok true := by
  induction xs with
  | nil => simp [nodeDictEq]
  | cons q xs ih =>
    obtain ⟨k, a⟩ := q
    rw [nodeDictEq]
    constructor
    · intro h
      cases hg : dictGet k ys with
      | none => rw [hg] at h; cases h
      | some b =>
        rw [hg] at h
        simp only at h
        cases hr : nodeEq a b with
        | ok r =>
          rw [hr] at h
          cases r with
          | false => simp at h
          | true =>
            obtain ⟨pre, k', x, post, y, rfl, hy, he, hb⟩ := ih.1 (by simpa using h)
            refine ⟨(k, a) :: pre, k', x, post, y, rfl, hy, he, fun p hp => ?_⟩
            rcases List.mem_cons.1 hp with rfl | hp
            · exact ⟨b, hg, hr⟩
            · exact hb p hp
        | err e => rw [hr] at h; exact ⟨[], k, a, xs, b, rfl, hg, by rw [hr]; simpa using h, by simp⟩
        | timeout => rw [hr] at h; simp at h
    · rintro ⟨pre, k', x, post, y, hx, hy, he, hb⟩
      cases pre with
      | nil =>
        simp at hx
        obtain ⟨⟨rfl, rfl⟩, rfl⟩ := hx
        rw [hy]
        simp [he]
      | cons p pre =>
        simp at hx
        obtain ⟨rfl, rfl⟩ := hx
        obtain ⟨v, hv, hs⟩ := hb (k, a) (by simp)
        simp only at hv hs
        rw [hv]
        simp only [hs, Res.ok_bind, if_true]
        exact ih.2 ⟨pre, k', x, post, y, rfl, hy, he, fun p hp => hb p (by simp [hp])⟩

theorem keys_length {xs ys : List (Str × Node)} (hx : (xs.map Prod.fst).Nodup) (hy : (ys.map Prod.fst).Nodup)
    (hk : ∀ k, k ∈ xs.map Prod.fst ↔ k ∈ ys.map Prod.fst) : xs.length = ys.length := by
  have := ((List.perm_ext_iff_of_nodup hx hy).2 hk).length_eq
  simpa using this

/-- Equality answers yes exactly for values that are the same, and raises exactly where the two clash. -/
theorem nodeEq_exact (a b : Node) (ha : a.RefFree) (hb : b.RefFree) : (nodeEq a b = .ok true ↔ Same a b) ∧ (nodeEq a b = .err .typeError ↔ Clash a b) := by
  match a with
  | .null =>
    cases b with
    | ref => exact hb.elim
    | null => exact ⟨⟨fun _ => .null, fun _ => by simp [nodeEq]⟩, ⟨fun h => by simp [nodeEq] at h, fun h => by cases h⟩⟩
    | _ => exact ⟨⟨fun h => by simp [nodeEq] at h, fun h => by cases h⟩, ⟨fun h => by simp [nodeEq] at h, fun h => by cases h⟩⟩
  | .str s =>
    cases b with
    | ref => exact hb.elim
    | str t =>
      refine ⟨⟨fun h => ?_, fun h => by cases h; simp [nodeEq]⟩, ⟨fun h => by simp [nodeEq] at h, fun h => by cases h⟩⟩
      simp [nodeEq] at h; subst h; exact .string _
    | _ => exact ⟨⟨fun h => by simp [nodeEq] at h, fun h => by cases h⟩, ⟨fun h => by simp [nodeEq] at h, fun h => by cases h⟩⟩
  | .bool x =>
    cases b with
    | bool y =>
      refine ⟨⟨fun h => ?_, fun h => by cases h; simp [nodeEq]⟩, ⟨fun h => by simp [nodeEq] at h, fun h => ?_⟩⟩
      · simp [nodeEq] at h; subst h; exact .boolean _
      · cases h; rename_i h; exact absurd rfl (h y)
    | _ => exact ⟨⟨fun h => by simp [nodeEq] at h, fun h => by cases h⟩, ⟨fun _ => .boolean _ (by simp), fun _ => by simp [nodeEq]⟩⟩
  | .num n =>
    cases b with
    | num m =>
      refine ⟨⟨fun h => ?_, fun h => ?_⟩, ⟨fun h => by simp [nodeEq] at h, fun h => ?_⟩⟩
      · cases n <;> cases m <;> simp [nodeEq, Num.eq] at h <;> subst h <;> exact .number _ (by simp)
      · cases h; cases n <;> simp_all [nodeEq, Num.eq]
      · cases h; rename_i h; exact absurd rfl (h m)
    | _ => exact ⟨⟨fun h => by simp [nodeEq] at h, fun h => by cases h⟩, ⟨fun _ => .number _ (by simp), fun _ => by simp [nodeEq]⟩⟩
  | .ref .. => exact ha.elim
  | .arr xs =>
    cases b with
    | ref => exact hb.elim
    | arr ys =>
      have ih : ∀ (i : Nat) x y, xs[i]? = some x → ys[i]? = some y → (nodeEq x y = .ok true ↔ Same x y) ∧ (nodeEq x y = .err .typeError ↔ Clash x y) := fun i x y hx hy =>
        have := List.mem_of_getElem? hx
        nodeEq_exact x y (Node.refFreeL_iff.1 ha x (List.mem_of_getElem? hx)) (Node.refFreeL_iff.1 hb y (List.mem_of_getElem? hy))
      simp only [nodeEq]
      by_cases hl : xs.length = ys.length
      · rw [if_pos hl, listEq_true, listEq_err]
        refine ⟨⟨fun h => .array hl fun i x y hx hy => (ih i x y hx hy).1.1 (h i x y hx hy), fun h i x y hx hy => ?_⟩, ⟨?_, fun h => ?_⟩⟩
        · cases h; rename_i h; exact (ih i x y hx hy).1.2 (h i x y hx hy)
        · rintro ⟨i, x, y, hx, hy, he, hb'⟩
          exact .array hl hx hy ((ih i x y hx hy).2.1 he) fun j hj u v hu hv => (ih j u v hu hv).1.1 (hb' j hj u v hu hv)
        · cases h with | @array _ _ i x y _ hx hy h hb' =>
          exact ⟨i, x, y, hx, hy, (ih i x y hx hy).2.2 h, fun j hj u v hu hv => (ih j u v hu hv).1.2 (hb' j hj u v hu hv)⟩
      · rw [if_neg hl]
        exact ⟨⟨fun h => by simp at h, fun h => by cases h; exact absurd ‹_› hl⟩, ⟨fun h => by simp at h, fun h => by cases h; exact absurd ‹_› hl⟩⟩
    | _ => exact ⟨⟨fun h => by simp [nodeEq] at h, fun h => by cases h⟩, ⟨fun h => by simp [nodeEq] at h, fun h => by cases h⟩⟩
  | .obj xs =>
    cases b with
    | ref => exact hb.elim
    | obj ys =>
      have ih : ∀ p ∈ xs, ∀ y, dictGet p.1 ys = some y → (nodeEq p.2 y = .ok true ↔ Same p.2 y) ∧ (nodeEq p.2 y = .err .typeError ↔ Clash p.2 y) := fun p hp y hy =>
        nodeEq_exact p.2 y (Node.refFreeD_iff.1 ha.2 p hp) (Node.refFreeD_iff.1 hb.2 _ (dictGet_mem hy))
      have keys : ∀ {zs : List (Str × Node)} {k : Str}, k ∈ zs.map Prod.fst → ∃ z, dictGet k zs = some z := fun h => by
        have := dictHas_iff.2 h
        exact Option.isSome_iff_exists.1 (by simpa [dictHas] using this)
      simp only [nodeEq]
      by_cases hl : xs.length = ys.length
      · rw [if_pos hl, nodeDictEq_true_iff, dictEq_err]
        refine ⟨⟨fun h => ?_, fun h p hp => ?_⟩, ⟨?_, fun h => ?_⟩⟩
        · have hs : ∀ k ∈ xs.map Prod.fst, k ∈ ys.map Prod.fst := fun k hk => by
            obtain ⟨p, hp, rfl⟩ := List.mem_map.1 hk
            obtain ⟨y, hy, _⟩ := h p hp
            exact List.mem_map.2 ⟨_, dictGet_mem hy, rfl⟩
          refine .object (fun k => ⟨hs k, subset_of_length ha.1 hs (by simp [hl]) k⟩) fun k x y hx hy => ?_
          obtain ⟨y', hy', he⟩ := h _ (dictGet_mem hx)
          rw [hy] at hy'
          cases hy'
          exact (ih _ (dictGet_mem hx) y hy).1.1 he
        · cases h
          rename_i hk h
          obtain ⟨y, hy⟩ := keys ((hk p.1).1 (List.mem_map.2 ⟨p, hp, rfl⟩))
          exact ⟨y, hy, (ih p hp y hy).1.2 (h p.1 p.2 y (dictGet_of_mem ha.1 hp) hy)⟩
        · rintro ⟨pre, k, x, post, y, rfl, hy, he, hb'⟩
          refine .object hl hy ((ih (k, x) (by simp) y hy).2.1 he) fun p hp => ?_
          obtain ⟨v, hv, hs⟩ := hb' p hp
          exact ⟨v, hv, (ih p (by simp [hp]) v hv).1.1 hs⟩
        · generalize hz : Node.obj xs = z at h
          cases h with
          | @object pre post _ k x y hl' hy h hb' =>
            cases hz
            refine ⟨pre, k, x, post, y, rfl, hy, (ih (k, x) (by simp) y hy).2.2 h, fun p hp => ?_⟩
            obtain ⟨v, hv, hs⟩ := hb' p hp
            exact ⟨v, hv, (ih p (by simp [hp]) v hv).1.2 hs⟩
          | _ => cases hz
      · rw [if_neg hl]
        refine ⟨⟨fun h => by simp at h, fun h => ?_⟩, ⟨fun h => by simp at h, fun h => ?_⟩⟩
        · cases h; exact absurd (keys_length ha.1 hb.1 ‹_›) hl
        · generalize hz : Node.obj xs = z at h
          cases h with
          | object hl' => cases hz; exact absurd hl' hl
          | _ => cases hz
    | _ => exact ⟨⟨fun h => by simp [nodeEq] at h, fun h => by cases h⟩, ⟨fun h => by simp [nodeEq] at h, fun h => by cases h⟩⟩
termination_by sizeOf a
decreasing_by
  · have := List.sizeOf_lt_of_mem this; simp; omega
  · have := List.sizeOf_lt_of_mem hp; cases p; simp at this ⊢; omega

/-- C09, exactly: two wrapped values compare equal if they are the same JSON value; the comparison raises `TypeError` if the first thing in which they
differ is a number or boolean on the left against a value of another type; otherwise they compare unequal. -/
theorem C09_exact (a b : Node) (ha : a.RefFree) (hb : b.RefFree) :
    (Same a b → nodeEq a b = .ok true) ∧ (Clash a b → nodeEq a b = .err .typeError) ∧ (¬ Same a b → ¬ Clash a b → nodeEq a b = .ok false) := by
  have h := nodeEq_exact a b ha hb
  refine ⟨h.1.2, h.2.2, fun h1 h2 => ?_⟩
  rcases nodeEq_cases a b ha hb with ⟨r, hr⟩ | he
  · cases r
    · exact hr
    · exact absurd (h.1.1 hr) h1
  · exact absurd (h.2.1 he) h2

/-- Values that are the same do not clash. -/
theorem same_not_clash {a b : Node} (ha : a.RefFree) (hb : b.RefFree) (h : Same a b) : ¬ Clash a b := fun hc => by
  have := (nodeEq_exact a b ha hb).1.2 h
  rw [(nodeEq_exact a b ha hb).2.2 hc] at this
  cases this

/-- Instance: `[1, {"a": 2, "b": null}]` and `[1, {"b": null, "a": 2}]` are the same, `[1, "x"]` clashes with `[1, 2]` only in one order. -/
example : Same (.arr [.num (.fin 1), .obj [(c!"a", .num (.fin 2)), (c!"b", .null)]]) (.arr [.num (.fin 1), .obj [(c!"b", .null), (c!"a", .num (.fin 2))]]) ∧
    Clash (.arr [.num (.fin 1), .num (.fin 2)]) (.arr [.num (.fin 1), .str c!"x"]) ∧
    ¬ Clash (.arr [.num (.fin 1), .str c!"x"]) (.arr [.num (.fin 1), .num (.fin 2)]) ∧ ¬ Same (.arr [.num (.fin 1), .str c!"x"]) (.arr [.num (.fin 1), .num (.fin 2)]) := by
  have e : ∀ a b : Node, a.RefFree → b.RefFree → (nodeEq a b = .ok true → Same a b) ∧ (nodeEq a b = .err .typeError → Clash a b) ∧
      (nodeEq a b = .ok false → ¬ Same a b ∧ ¬ Clash a b) := fun a b ha hb => by
    have h := nodeEq_exact a b ha hb
    refine ⟨h.1.1, h.2.1, fun hf => ⟨fun hs => ?_, fun hc => ?_⟩⟩
    · rw [h.1.2 hs] at hf; cases hf
    · rw [h.2.2 hc] at hf; cases hf
  refine ⟨(e _ _ ?_ ?_).1 ?_, (e _ _ ?_ ?_).2.1 ?_, ((e _ _ ?_ ?_).2.2 ?_).2, ((e _ _ ?_ ?_).2.2 ?_).1⟩ <;>
    first
    | (simp [Node.RefFree, Node.RefFreeL, Node.RefFreeD]; done)
    | decide +kernel

/-! ## The order of arrays, whatever their items -/

/-- What the comparison says of two lengths. -/
def onLengths : CmpOp → Nat → Nat → Prop
  | .lt, m, n => m < n
  | .le, m, n => m ≤ n
  | .gt, m, n => n < m
  | .ge, m, n => n ≤ m

instance (op : CmpOp) (m n : Nat) : Decidable (onLengths op m n) :=
  match op with
  | .lt => inferInstanceAs (Decidable (m < n))
  | .le => inferInstanceAs (Decidable (m ≤ n))
  | .gt => inferInstanceAs (Decidable (n < m))
  | .ge => inferInstanceAs (Decidable (n ≤ m))

theorem holds_lengths (op : CmpOp) (m n : Nat) : op.holds (natCompare m n) = decide (onLengths op m n) := by
  rw [Bool.eq_iff_iff, decide_eq_true_iff]
  unfold natCompare
  cases op <;> simp only [CmpOp.holds, onLengths] <;> split <;> (try split) <;> simp <;> omega

theorem listCmp_skip (op : CmpOp) (xs ys : List Node) (i : Nat) {x y : Node} (hx : xs[i]? = some x) (hy : ys[i]? = some y)
    (h : ∀ j < i, ∀ u v, xs[j]? = some u → ys[j]? = some v → nodeEq u v = .ok true) :
    listCmp op xs ys = (nodeEq x y >>= fun b => if b then listCmp op (xs.drop (i + 1)) (ys.drop (i + 1)) else nodeCmp op x y) := by
  induction i generalizing xs ys with
  | zero =>
    cases xs with
    | nil => simp at hx
    | cons a xs =>
      cases ys with
      | nil => simp at hy
      | cons b ys => simp at hx hy; subst hx; subst hy; simp [listCmp]
  | succ i ih =>
    cases xs with
    | nil => simp at hx
    | cons a xs =>
      cases ys with
      | nil => simp at hy
      | cons b ys =>
        rw [listCmp, h 0 (by omega) a b rfl rfl]
        simp only [Res.ok_bind, if_true, List.drop_succ_cons]
        exact ih xs ys (by simpa using hx) (by simpa using hy) fun j hj u v hu hv => h (j + 1) (by omega) u v (by simpa using hu) (by simpa using hv)

theorem listCmp_lengths (op : CmpOp) (xs ys : List Node) (h : ∀ (i : Nat) x y, xs[i]? = some x → ys[i]? = some y → nodeEq x y = .ok true) :
    listCmp op xs ys = .ok (decide (onLengths op xs.length ys.length)) := by
  induction xs generalizing ys with
  | nil => rw [listCmp, holds_lengths]; rfl
  | cons a xs ih =>
    cases ys with
    | nil => rw [listCmp, holds_lengths]; rfl
    | cons b ys =>
      rw [listCmp, h 0 a b rfl rfl]
      simp only [Res.ok_bind, if_true]
      rw [ih ys fun i x y hx hy => h (i + 1) x y (by simpa using hx) (by simpa using hy)]
      congr 2
      cases op <;> simp [onLengths]

/-- C81 for arrays of any items: the first items that are not the same decide, by their own comparison; a number or boolean against another type raises; if
all items that have a partner are the same, the lengths decide. -/
theorem C81_arrays (op : CmpOp) (xs ys : List Node) (hx : (Node.arr xs).RefFree) (hy : (Node.arr ys).RefFree) :
    (∀ (i : Nat) x y, xs[i]? = some x → ys[i]? = some y → (∀ j < i, ∀ u v, xs[j]? = some u → ys[j]? = some v → Same u v) →
      (¬ Same x y → ¬ Clash x y → nodeCmp op (.arr xs) (.arr ys) = nodeCmp op x y) ∧ (Clash x y → nodeCmp op (.arr xs) (.arr ys) = .err .typeError)) ∧
    ((∀ (i : Nat) x y, xs[i]? = some x → ys[i]? = some y → Same x y) → nodeCmp op (.arr xs) (.arr ys) = .ok (decide (onLengths op xs.length ys.length))) := by
  have ex : ∀ (i : Nat) x y, xs[i]? = some x → ys[i]? = some y → _ := fun i x y hu hv =>
    C09_exact x y (Node.refFreeL_iff.1 hx x (List.mem_of_getElem? hu)) (Node.refFreeL_iff.1 hy y (List.mem_of_getElem? hv))
  refine ⟨fun i x y hu hv hb => ⟨fun h1 h2 => ?_, fun h => ?_⟩, fun h => ?_⟩
  · rw [nodeCmp]
    rw [listCmp_skip op xs ys i hu hv fun j hj u v hu hv => (ex j u v hu hv).1 (hb j hj u v hu hv), (ex i x y hu hv).2.2 h1 h2]
    rfl
  · rw [nodeCmp]
    rw [listCmp_skip op xs ys i hu hv fun j hj u v hu hv => (ex j u v hu hv).1 (hb j hj u v hu hv), (ex i x y hu hv).2.1 h]
    rfl
  · rw [nodeCmp]
    exact listCmp_lengths op xs ys fun i x y hu hv => (ex i x y hu hv).1 (h i x y hu hv)

/-- One of the cases of `C81_arrays` always applies. -/
theorem C81_arrays_cover (xs ys : List Node) : (∀ (i : Nat) x y, xs[i]? = some x → ys[i]? = some y → Same x y) ∨
    ∃ (i : Nat) (x y : Node), xs[i]? = some x ∧ ys[i]? = some y ∧ ¬ Same x y ∧ ∀ j < i, ∀ u v, xs[j]? = some u → ys[j]? = some v → Same u v := by
  apply Classical.byContradiction
  intro hn
  simp only [not_or] at hn
  refine hn.1 fun i => ?_
  induction i using Nat.strongRecOn with
  | ind i ih =>
    intro x y hx hy
    apply Classical.byContradiction
    intro hs
    exact hn.2 ⟨i, x, y, hx, hy, hs, fun j hj u v hu hv => ih j hj u v hu hv⟩

/-- Instance: `["a", 1, null] < ["a", 2, {}]`, decided by the second items; `["a", null] < ["a", 1]` raises, though the items do not clash. -/
example : nodeCmp .lt (.arr [.str c!"a", .num (.fin 1), .null]) (.arr [.str c!"a", .num (.fin 2), .obj []]) = .ok true ∧
    nodeCmp .lt (.arr [.str c!"a", .null]) (.arr [.str c!"a", .num (.fin 1)]) = .err .typeError := by decide +kernel

/-! ## C92 -/

/-- What each operator answers. -/
def outcomeAnswer : CmpOp → Outcome → Res Bool
  | _, .typeError => .err .typeError
  | _, .nan => .err .invalidOperation
  | .lt, o => .ok (decide (o = .first))
  | .le, o => .ok (decide (o ≠ .second))
  | .gt, o => .ok (decide (o = .second))
  | .ge, o => .ok (decide (o ≠ .first))

theorem shape_of {a b : Node} (hs : sort a ∈ [.number, .string, .boolean]) (h : Before a b ∨ Before b a ∨ a = b ∧ a ≠ .num .nan) :
    ∃ s, HasShape s a ∧ HasShape s b := by
  rcases h with h | h | ⟨rfl, h⟩
  · cases h with
    | @number m n h => exact ⟨.number, .number _ (by cases h <;> simp), .number _ (by cases h <;> simp)⟩
    | boolean => exact ⟨.boolean, .boolean _, .boolean _⟩
    | char => exact ⟨.string, .string _, .string _⟩
    | longer => exact ⟨.string, .string _, .string _⟩
    | _ => simp [sort] at hs
  · cases h with
    | @number m n h => exact ⟨.number, .number _ (by cases h <;> simp), .number _ (by cases h <;> simp)⟩
    | boolean => exact ⟨.boolean, .boolean _, .boolean _⟩
    | char => exact ⟨.string, .string _, .string _⟩
    | longer => exact ⟨.string, .string _, .string _⟩
    | _ => simp [sort] at hs
  · cases a with
    | num n => exact ⟨.number, .number _ (by simpa using h), .number _ (by simpa using h)⟩
    | str => exact ⟨.string, .string _, .string _⟩
    | bool => exact ⟨.boolean, .boolean _, .boolean _⟩
    | _ => simp [sort] at hs

theorem truth_cmp (op : CmpOp) (b : Bool) (n : Num) : nodeCmp op (.bool b) (.num n) = nodeCmp op (.num (.fin (if b then 1 else 0))) (.num n) := by
  cases op <;> rfl

/-- C92: the four comparisons answer by how the values compare. -/
theorem C92_answers (op : CmpOp) {a b : Node} {o : Outcome} (h : Compares a b o) (ha : a.RefFree) (hb : b.RefFree) : nodeCmp op a b = outcomeAnswer op o := by
  have lens : ∀ {xs ys : List Node}, (Node.arr xs).RefFree → (Node.arr ys).RefFree → (∀ (i : Nat) x y, xs[i]? = some x → ys[i]? = some y → Same x y) →
      nodeCmp op (.arr xs) (.arr ys) = .ok (decide (onLengths op xs.length ys.length)) := fun hx hy h => (C81_arrays op _ _ hx hy).2 h
  induction h with
  | before hs h =>
    obtain ⟨s, h1, h2⟩ := shape_of hs (.inl h)
    rw [nodeCmp_ord s op _ _ h1 h2, ord_of_before h]
    cases op <;> rfl
  | after hs h =>
    obtain ⟨s, h1, h2⟩ := shape_of hs (.inr (.inl h))
    have hne := (C81_order_partial s _ _ h1 h2).2.2.2.2.2
    have h3 := ord_three s _ _ h1 h2
    rw [nodeCmp_ord s op _ _ h1 h2]
    rename_i a b
    cases e : ord a b with
    | lt => rcases hne with hn | hn | hn <;> first | exact absurd h hn.2.2 | exact absurd (h3.1 e) hn.1
    | eq => rcases hne with hn | hn | hn <;> first | exact absurd h hn.2.2 | exact absurd (h3.2.1 e) hn.2.1
    | gt => cases op <;> rfl
  | same hs h =>
    obtain ⟨s, h1, h2⟩ := shape_of hs (.inr (.inr ⟨rfl, h⟩))
    rw [nodeCmp_ord s op _ _ h1 h2, ord_refl]
    cases op <;> rfl
  | nanLeft n => cases op <;> cases n <;> rfl
  | nanRight n => rw [C81_nan_violated]; cases op <;> rfl
  | truth h ih => rw [truth_cmp]; exact ih trivial trivial
  | item hx hy hb' hs hc h ih =>
    rw [((C81_arrays op _ _ ha hb).1 _ _ _ hx hy hb').1 hs hc]
    exact ih (Node.refFreeL_iff.1 ha _ (List.mem_of_getElem? hx)) (Node.refFreeL_iff.1 hb _ (List.mem_of_getElem? hy))
  | clash hx hy hb' hc => rw [((C81_arrays op _ _ ha hb).1 _ _ _ hx hy hb').2 hc]; cases op <;> rfl
  | shorter h hl =>
    rw [lens ha hb h]
    cases op <;> refine congrArg Res.ok (decide_eq_decide.2 ?_) <;> simp only [onLengths] <;> simp <;> omega
  | longer h hl =>
    rw [lens ha hb h]
    cases op <;> refine congrArg Res.ok (decide_eq_decide.2 ?_) <;> simp only [onLengths] <;> simp <;> omega
  | equal h hl =>
    rw [lens ha hb h]
    cases op <;> refine congrArg Res.ok (decide_eq_decide.2 ?_) <;> simp only [onLengths] <;> simp <;> omega
  | @types a b h hb' =>
    have e : ∀ x, sort x = kindOf x := fun x => by cases x <;> rfl
    rw [e, e] at h hb'
    rw [C81_kinds op a b ha hb (.inl h) hb']; cases op <;> rfl
  | null => cases op <;> rfl
  | objects => cases op <;> rfl

theorem scalars_compare {a b : Node} (s : Shape) (hs : sort a ∈ [.number, .string, .boolean]) (hs' : sort b ∈ [.number, .string, .boolean]) (ha : HasShape s a) (hb : HasShape s b)
    (hn : a ≠ .num .nan) : ∃ o, Compares a b o := by
  have h3 := ord_three s a b ha hb
  cases e : ord a b with
  | lt => exact ⟨_, .before hs (h3.1 e)⟩
  | eq => have := h3.2.1 e; subst this; exact ⟨_, .same hs hn⟩
  | gt => exact ⟨_, .after hs (h3.2.2 e)⟩

theorem numbers_compare (m n : Num) : ∃ o, Compares (.num m) (.num n) o := by
  by_cases hm : m = .nan
  · subst hm; exact ⟨_, .nanLeft _⟩
  by_cases hn : n = .nan
  · subst hn; exact ⟨_, .nanRight _⟩
  exact scalars_compare .number (by simp [sort]) (by simp [sort]) (.number _ hm) (.number _ hn) (by simpa using hm)

/-- C92: every two values compare in one way or another. -/
theorem C92_covers (a b : Node) (ha : a.RefFree) (hb : b.RefFree) : ∃ o, Compares a b o := by
  by_cases hk : sort a = sort b
  · match a with
    | .null => cases b <;> simp [sort] at hk; exact ⟨_, .null⟩
    | .bool x => cases b <;> simp [sort] at hk; exact scalars_compare .boolean (by simp [sort]) (by simp [sort]) (.boolean _) (.boolean _) (by simp)
    | .num m => cases b <;> simp [sort] at hk; exact numbers_compare _ _
    | .str s => cases b <;> simp [sort] at hk; exact scalars_compare .string (by simp [sort]) (by simp [sort]) (.string _) (.string _) (by simp)
    | .obj xs =>
      cases b with
      | obj ys => exact ⟨_, .objects _ _⟩
      | ref => exact hb.elim
      | _ => simp [sort] at hk
    | .ref .. => exact ha.elim
    | .arr xs =>
      cases b with
      | arr ys =>
        rcases C81_arrays_cover xs ys with h | ⟨i, x, y, hx, hy, hs, hb'⟩
        · rcases Nat.lt_trichotomy xs.length ys.length with hl | hl | hl
          · exact ⟨_, .shorter h hl⟩
          · exact ⟨_, .equal h hl⟩
          · exact ⟨_, .longer h hl⟩
        · by_cases hc : Clash x y
          · exact ⟨_, .clash hx hy hb' hc⟩
          · have hm := List.mem_of_getElem? hx
            obtain ⟨o, ho⟩ := C92_covers x y (Node.refFreeL_iff.1 ha _ hm) (Node.refFreeL_iff.1 hb _ (List.mem_of_getElem? hy))
            exact ⟨o, .item hx hy hb' hs hc ho⟩
      | _ => simp [sort] at hk
  · by_cases hb' : sort a = .boolean ∧ sort b = .number
    · cases a with
      | bool x =>
        cases b with
        | num n =>
          obtain ⟨o, ho⟩ := numbers_compare (.fin (if x then 1 else 0)) n
          exact ⟨o, .truth ho⟩
        | _ => simp [sort] at hb'
      | _ => simp [sort] at hb'
    · exact ⟨_, .types hk hb'⟩
termination_by sizeOf a
decreasing_by have := List.sizeOf_lt_of_mem hm; simp; omega

/-- C92 for equality is C09_exact, stated here as one choice of three. -/
theorem C92_equality (a b : Node) (ha : a.RefFree) (hb : b.RefFree) :
    (nodeEq a b = .ok true ∧ Same a b ∧ ¬ Clash a b) ∨ (nodeEq a b = .ok false ∧ ¬ Same a b ∧ ¬ Clash a b) ∨ (nodeEq a b = .err .typeError ∧ ¬ Same a b ∧ Clash a b) := by
  obtain ⟨h1, h2, h3⟩ := C09_exact a b ha hb
  by_cases hs : Same a b
  · exact .inl ⟨h1 hs, hs, same_not_clash ha hb hs⟩
  · by_cases hc : Clash a b
    · exact .inr (.inr ⟨h2 hc, hs, hc⟩)
    · exact .inr (.inl ⟨h3 hs hc, hs, hc⟩)

/-- Instance: `[true, [1]]` comes before `[true, [2]]`, found in the second item. -/
example : Compares (.arr [.bool true, .arr [.num (.fin 1)]]) (.arr [.bool true, .arr [.num (.fin 2)]]) .first := by
  have ns : ∀ {a b : Node}, a.RefFree → b.RefFree → nodeEq a b = .ok false → ¬ Same a b ∧ ¬ Clash a b := fun {a b} ha hb h => by
    rcases C92_equality a b ha hb with k | k | k
    · rw [h] at k; simp at k
    · exact k.2
    · rw [h] at k; simp at k
  have h1 := ns (a := .arr [.num (.fin 1)]) (b := .arr [.num (.fin 2)]) (by simp [Node.RefFree, Node.RefFreeL]) (by simp [Node.RefFree, Node.RefFreeL]) (by decide +kernel)
  have h2 := ns (a := .num (.fin 1)) (b := .num (.fin 2)) trivial trivial (by decide +kernel)
  refine .item (i := 1) rfl rfl (fun j hj u v hu hv => ?_) h1.1 h1.2 (.item (i := 0) rfl rfl (fun j hj => by omega) h2.1 h2.2 (.before (by simp [sort]) (.number (.fin _ _ (by decide +kernel)))))
  have : j = 0 := by omega
  subst this
  simp at hu hv
  subst hu; subst hv
  exact .boolean _

end Verif.Props
