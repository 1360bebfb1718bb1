import Verif.Spec.Cache
import Verif.Proofs.Later
import Verif.Proofs.Mono
/-! # Reading loaded documents, and the caches -/

namespace Verif.Obj
open Verif

/-! ## Reading does not change the state -/

/-- Reading, with less fuel, of fixed objects. -/
structure ROps where
  kind : Nat → Res Kind
  members : Nat → Res (List (Str × Nat))
  elems : Nat → Res (List Nat)
  query : Nat → List Str → Res Nat
  /-- `load` of a loaded schema -/
  load : Res Unit

section
variable (s : St) (r : ROps)

def kindR (i : Nat) : Res Kind := do
  match (← cellOf s i).shape with
  | .null => .ok .null
  | .bool _ => .ok .boolean
  | .num _ => .ok .number
  | .str _ => .ok .string
  | .arr _ => .ok .array
  | .obj _ => .ok .object
  | .ref _ d p => do
    let frag ← r.query d p
    r.kind frag

def membersR (i : Nat) : Res (List (Str × Nat)) := do
  match (← cellOf s i).shape with
  | .obj kvs => .ok kvs
  | .ref n d p => do
    let _ ← readyOf s d
    let frag ← r.query d p
    let k ← r.kind frag
    if k ≠ .object then .err .unmodelled
    else do
      let own ← r.members n
      let theirs ← r.members frag
      .ok (overlayIds own theirs)
  | _ => .err .attributeError

def elemsR (i : Nat) : Res (List Nat) := do
  match (← cellOf s i).shape with
  | .arr xs => .ok xs
  | .ref _ d p => do
    let _ ← readyOf s d
    let frag ← r.query d p
    r.elems frag
  | _ => .err .unmodelled

def walkR : Nat → List Str → Res Nat
  | n, [] => .ok n
  | n, k :: ks => do
    match ← r.kind n with
    | .array => do
      match (← cellOf s n).shape with
      | .arr xs =>
        if !isAscii k then .err .unmodelled
        else match pyInt k with
          | none => .err .valueError
          | some i => do
            let x ← pyIndex xs i
            walkR x ks
      | _ =>
        if !isAscii k then .err .unmodelled
        else match pyInt k with
          | none => .err .valueError
          | some i => do
            let xs ← r.elems n
            if ← intInOf s i xs then do
              let x ← pyIndex xs i
              walkR x ks
            else .err .keyError
    | .object => do
      let kvs ← r.members n
      match dictGet k kvs with
      | some x => walkR x ks
      | none => .err .keyError
    | _ => .err .keyError

def queryR (d : Nat) (ptr : List Str) : Res Nat := do
  r.load
  let x ← readyOf s d
  match ptr with
  | [k] =>
    match dictGet k x.anchors with
    | some n => .ok n
    | none => if k = [] then .ok x.value else walkR s r x.value [k]
  | _ => walkR s r x.value ptr
end

def ropsOf (s : St) : Nat → ROps
  | 0 => ⟨fun _ => .timeout, fun _ => .timeout, fun _ => .timeout, fun _ _ => .timeout, .timeout⟩
  | f + 1 => ⟨kindR s (ropsOf s f), membersR s (ropsOf s f), elemsR s (ropsOf s f), queryR s (ropsOf s f), .ok ()⟩

section
variable {α β : Type}

/-- The program reads: it leaves the state `s` and returns `y`. -/
def Rd (s : St) (x : M α) (y : Res α) : Prop := x s = (y, s)

theorem Rd.bind {s : St} {x : M α} {y : Res α} {g : α → M β} {h : α → Res β} (hx : Rd s x y) (hg : ∀ a, Rd s (g a) (h a)) :
    Rd s (x >>= g) (y >>= h) := by
  unfold Rd at *
  cases y with
  | ok a => rw [M.bind_ok hx]; exact hg a
  | err e => rw [M.bind_err hx]; rfl
  | timeout => rw [M.bind_timeout hx]; rfl

theorem Rd.pure {s : St} (a : α) : Rd s (Pure.pure a) (.ok a) := rfl
theorem Rd.lift {s : St} (y : Res α) : Rd s (lift y) y := rfl
theorem Rd.raise {s : St} (e : PyErr) : Rd s (raise e : M α) (.err e) := rfl
theorem Rd.cell {s : St} (i : Nat) : Rd s (cell i) (cellOf s i) := by
  unfold Rd Obj.cell cellOf; cases s.mem[i]? <;> rfl
end

structure ROps.Eq (E : Env) (s : St) (o : Ops) (r : ROps) : Prop where
  kind : ∀ i, Rd s (o.kind i) (r.kind i)
  members : ∀ i, Rd s (o.members i) (r.members i)
  elems : ∀ i, Rd s (o.elems i) (r.elems i)
  query : ∀ d p, Rd s (o.query d p) (r.query d p)

section
variable {E : Env} {s : St} {o : Ops} {r : ROps} (h : ROps.Eq E s o r)
include h

theorem kindR_eq (i : Nat) : Rd s (kindS o i) (kindR s r i) := by
  refine (Rd.cell i).bind fun c => ?_
  obtain ⟨sh, p, k⟩ := c
  cases sh <;> first | exact Rd.pure _ | exact (h.query _ _).bind fun x => h.kind x

theorem membersR_eq (hs : AllReady s) (i : Nat) : Rd s (membersS o i) (membersR s r i) := by
  refine (Rd.cell i).bind fun c => ?_
  obtain ⟨sh, p, k⟩ := c
  cases sh with
  | obj kvs => exact Rd.pure _
  | ref n d p =>
    cases hd : s.docs[d]? with
    | none =>
      simp only [readyOf, hd]
      exact M.bind_err (by simp [schema, hd])
    | some x =>
      have hx := hs x (List.mem_of_getElem? hd)
      simp only [readyOf, hd, hx, if_true]
      unfold Rd
      rw [M.bind_ok (schema_apply hd), if_neg (by simp [hx])]
      refine (h.query _ _).bind fun x => (h.kind x).bind fun k => ?_
      by_cases hk : k ≠ .object
      · rw [if_pos hk, if_pos hk]; exact Rd.raise _
      · rw [if_neg hk, if_neg hk]; exact (h.members _).bind fun a => (h.members _).bind fun b => Rd.pure _
  | _ => exact Rd.raise _

theorem elemsR_eq (hs : AllReady s) (i : Nat) : Rd s (elemsS o i) (elemsR s r i) := by
  refine (Rd.cell i).bind fun c => ?_
  obtain ⟨sh, p, k⟩ := c
  cases sh with
  | arr xs => exact Rd.pure _
  | ref n d p =>
    cases hd : s.docs[d]? with
    | none =>
      simp only [readyOf, hd]
      exact M.bind_err (by simp [schema, hd])
    | some x =>
      have hx := hs x (List.mem_of_getElem? hd)
      simp only [readyOf, hd, hx, if_true]
      unfold Rd
      rw [M.bind_ok (schema_apply hd), if_neg (by simp [hx])]
      exact (h.query _ _).bind fun x => h.elems x
  | _ => exact Rd.raise _

omit h in
theorem intIn_rd (i : Int) : ∀ xs, Rd s (intIn i xs) (intInOf s i xs)
  | [] => Rd.pure _
  | x :: xs => by
    refine (Rd.cell x).bind fun c => ?_
    obtain ⟨sh, p, k⟩ := c
    cases sh with
    | num n =>
      simp only
      by_cases hn : n.eq (.fin i) = true
      · rw [if_pos hn, if_pos hn]; exact Rd.pure _
      · rw [if_neg hn, if_neg hn]; exact intIn_rd i xs
    | bool b => exact Rd.raise _
    | ref n d p => exact Rd.raise _
    | _ => exact intIn_rd i xs

theorem walkR_eq (ks : List Str) : ∀ n, Rd s (walk o n ks) (walkR s r n ks) := by
  induction ks with
  | nil => exact fun n => Rd.pure _
  | cons k ks ih =>
    intro n
    refine (h.kind n).bind fun t => ?_
    cases t with
    | array =>
      refine (Rd.cell n).bind fun c => ?_
      obtain ⟨sh, p, k'⟩ := c
      cases sh with
      | arr xs =>
        simp only
        by_cases ha : (!isAscii k) = true
        · rw [if_pos ha, if_pos ha]; exact Rd.raise _
        · rw [if_neg ha, if_neg ha]
          cases pyInt k with
          | none => exact Rd.raise _
          | some i => exact (Rd.lift _).bind fun x => ih x
      | _ =>
        simp only
        by_cases ha : (!isAscii k) = true
        · rw [if_pos ha, if_pos ha]; exact Rd.raise _
        · rw [if_neg ha, if_neg ha]
          cases pyInt k with
          | none => exact Rd.raise _
          | some i =>
            refine (h.elems n).bind fun xs => (intIn_rd i xs).bind fun b => ?_
            cases b
            · exact Rd.raise _
            · exact (Rd.lift _).bind fun x => ih x
    | object =>
      have : Rd s (item o n k) (do match dictGet k (← r.members n) with | some x => .ok x | none => .err .keyError) := by
        refine (h.members n).bind fun kvs => ?_
        cases dictGet k kvs with
        | none => exact Rd.raise _
        | some x => exact Rd.pure _
      have e := this.bind (g := fun x => walk o x ks) ih
      refine e.trans ?_
      congr 1
      cases r.members n with
      | ok kvs => simp only [Res.ok_bind]; cases dictGet k kvs <;> rfl
      | _ => rfl
    | _ => exact Rd.raise _
end

theorem ropsOf_eq (E : Env) {s : St} (hs : AllReady s) : ∀ f, ROps.Eq E s (ops E f) (ropsOf s f) := by
  intro f
  induction f with
  | zero => exact ⟨fun _ => rfl, fun _ => rfl, fun _ => rfl, fun _ _ => rfl⟩
  | succ f ih =>
    refine ⟨kindR_eq ih, membersR_eq ih hs, elemsR_eq ih hs, fun d p => ?_⟩
    cases f with
    | zero => rfl
    | succ f =>
      cases hd : s.docs[d]? with
      | none =>
        have : (ops E (f + 1)).load d s = (.err .unmodelled, s) := by
          rw [load_eq]; exact M.bind_err (by simp [schema, hd])
        change queryS (ops E (f + 1)) d p s = (queryR s (ropsOf s (f + 1)) d p, s)
        unfold queryS
        rw [M.bind_err this]
        simp only [queryR, readyOf, hd]
        rfl
      | some x =>
        have hx := hs x (List.mem_of_getElem? hd)
        change queryS (ops E (f + 1)) d p s = (queryR s (ropsOf s (f + 1)) d p, s)
        unfold queryS
        rw [M.bind_ok (load_again hd hx), M.bind_ok (schema_apply hd)]
        have : queryR s (ropsOf s (f + 1)) d p = (match p with
          | [k] =>
            match dictGet k x.anchors with
            | some n => .ok n
            | none => if k = [] then .ok x.value else walkR s (ropsOf s (f + 1)) x.value [k]
          | _ => walkR s (ropsOf s (f + 1)) x.value p) := by
          simp only [queryR, readyOf, hd, hx, if_true]
          rfl
        rw [this]
        match p with
        | [k] =>
          simp only
          cases dictGet k x.anchors with
          | some n => rfl
          | none =>
            by_cases hk : k = []
            · simp only [hk, if_true]; rfl
            · simp only [hk, if_false]; exact walkR_eq ih _ _
        | [] => exact walkR_eq ih _ _
        | a :: b :: c => exact walkR_eq ih _ _

/-! ## More fuel gives the same answer -/

structure ROps.Le (r r' : ROps) : Prop where
  kind : ∀ i, r.kind i ⊑ r'.kind i
  members : ∀ i, r.members i ⊑ r'.members i
  elems : ∀ i, r.elems i ⊑ r'.elems i
  query : ∀ d p, r.query d p ⊑ r'.query d p
  load : r.load ⊑ r'.load

section
variable {s : St} {r r' : ROps} (h : ROps.Le r r')
include h

theorem kindR_le (i : Nat) : kindR s r i ⊑ kindR s r' i := by
  refine (Res.Ext.refl _).bind fun c => ?_
  obtain ⟨sh, p, k⟩ := c
  cases sh <;> first | exact .refl _ | exact (h.query _ _).bind fun x => h.kind x

theorem membersR_le (i : Nat) : membersR s r i ⊑ membersR s r' i := by
  refine (Res.Ext.refl _).bind fun c => ?_
  obtain ⟨sh, p, k⟩ := c
  cases sh with
  | ref n d p =>
    refine (Res.Ext.refl _).bind fun x => (h.query _ _).bind fun x => (h.kind x).bind fun k => ?_
    by_cases hk : k ≠ .object
    · rw [if_pos hk, if_pos hk]; exact .refl _
    · rw [if_neg hk, if_neg hk]; exact (h.members _).bind fun a => (h.members _).bind fun b => .refl _
  | _ => exact .refl _

theorem elemsR_le (i : Nat) : elemsR s r i ⊑ elemsR s r' i := by
  refine (Res.Ext.refl _).bind fun c => ?_
  obtain ⟨sh, p, k⟩ := c
  cases sh with
  | ref n d p => exact (Res.Ext.refl _).bind fun x => (h.query _ _).bind fun x => h.elems x
  | _ => exact .refl _

theorem walkR_le (ks : List Str) : ∀ n, walkR s r n ks ⊑ walkR s r' n ks := by
  induction ks with
  | nil => exact fun n => .refl _
  | cons k ks ih =>
    intro n
    refine (h.kind n).bind fun t => ?_
    cases t with
    | array =>
      refine (Res.Ext.refl _).bind fun c => ?_
      obtain ⟨sh, p, k'⟩ := c
      cases sh with
      | arr xs =>
        simp only
        by_cases ha : (!isAscii k) = true
        · rw [if_pos ha, if_pos ha]; exact .refl _
        · rw [if_neg ha, if_neg ha]
          cases pyInt k with
          | none => exact .refl _
          | some i => exact (Res.Ext.refl _).bind fun x => ih x
      | _ =>
        simp only
        by_cases ha : (!isAscii k) = true
        · rw [if_pos ha, if_pos ha]; exact .refl _
        · rw [if_neg ha, if_neg ha]
          cases pyInt k with
          | none => exact .refl _
          | some i =>
            refine (h.elems n).bind fun xs => (Res.Ext.refl _).bind fun b => ?_
            cases b
            · exact .refl _
            · exact (Res.Ext.refl _).bind fun x => ih x
    | object =>
      refine (h.members n).bind fun kvs => ?_
      cases dictGet k kvs with
      | none => exact .refl _
      | some x => exact ih x
    | _ => exact .refl _

theorem queryR_le (d : Nat) (p : List Str) : queryR s r d p ⊑ queryR s r' d p := by
  refine h.load.bind fun _ => (Res.Ext.refl _).bind fun x => ?_
  match p with
  | [k] =>
    simp only
    cases dictGet k x.anchors with
    | some n => exact .refl _
    | none =>
      by_cases hk : k = []
      · simp only [hk, if_true]; exact .refl _
      · simp only [hk, if_false]; exact walkR_le h _ _
  | [] => exact walkR_le h _ _
  | a :: b :: c => exact walkR_le h _ _
end

theorem ropsOf_le (s : St) : ∀ f, ROps.Le (ropsOf s f) (ropsOf s (f + 1)) := by
  intro f
  induction f with
  | zero => exact ⟨fun _ h => absurd rfl h, fun _ h => absurd rfl h, fun _ h => absurd rfl h, fun _ _ h => absurd rfl h, fun h => absurd rfl h⟩
  | succ f ih => exact ⟨kindR_le ih, membersR_le ih, elemsR_le ih, queryR_le ih, .refl _⟩

theorem ropsOf_mono (s : St) {f g : Nat} (h : f ≤ g) : ROps.Le (ropsOf s f) (ropsOf s g) := by
  induction h with
  | refl => exact ⟨fun _ => .refl _, fun _ => .refl _, fun _ => .refl _, fun _ _ => .refl _, .refl _⟩
  | step _ ih =>
    have := ropsOf_le s
    exact ⟨fun i => (ih.kind i).trans ((this _).kind i), fun i => (ih.members i).trans ((this _).members i),
      fun i => (ih.elems i).trans ((this _).elems i),
      fun d p => (ih.query d p).trans ((this _).query d p), ih.load.trans (this _).load⟩

/-! ## The caches -/

section
variable {α β : Type}

/-- With right caches, `x` keeps them right; it returns what `Y` returns, at `f` already when `Y` does. -/
def Ag (V : Caches → Prop) (f : Nat) (x : C α) (Y : Nat → Res α) : Prop :=
  ∀ c, V c → V (x c).2 ∧ Y f ⊑ (x c).1 ∧ ((x c).1 ≠ .timeout → ∃ g, ∀ h, g ≤ h → Y h = (x c).1)

variable {V : Caches → Prop} {f : Nat}

theorem Ag.lift (y : Res α) : Ag V f (liftC y) fun _ => y := fun _ hc => ⟨hc, .refl _, fun _ => ⟨0, fun _ _ => rfl⟩⟩
theorem Ag.pure (a : α) : Ag V f (Pure.pure a) fun _ => .ok a := fun _ hc => ⟨hc, .refl _, fun _ => ⟨0, fun _ _ => rfl⟩⟩

theorem Ag.bind {x : C α} {X : Nat → Res α} {k : α → C β} {K : Nat → α → Res β} (hx : Ag V f x X)
    (hk : ∀ a, Ag V f (k a) fun g => K g a) : Ag V f (x >>= k) fun g => X g >>= K g := by
  intro c hc
  obtain ⟨h1, h2, h3⟩ := hx c hc
  have e : (x >>= k) c = match x c with
    | (.ok a, c) => k a c
    | (.err e, c) => (.err e, c)
    | (.timeout, c) => (.timeout, c) := rfl
  rw [e]
  rcases hxc : x c with ⟨r, c'⟩
  rw [hxc] at h1 h2 h3
  have hne : (X f >>= K f) ≠ .timeout → X f ≠ .timeout := fun hy h => hy (by rw [h]; rfl)
  cases r with
  | ok a =>
    obtain ⟨k1, k2, k3⟩ := hk a c' h1
    refine ⟨k1, fun hy => ?_, fun hy => ?_⟩
    · have e : X f = .ok a := (h2 (hne hy)).symm
      simp only [e, Res.ok_bind] at hy ⊢
      exact k2 hy
    · obtain ⟨g1, e1⟩ := h3 (by simp)
      obtain ⟨g2, e2⟩ := k3 hy
      refine ⟨max g1 g2, fun h hh => ?_⟩
      simp only [e1 h (by omega), Res.ok_bind]
      exact e2 h (by omega)
  | err e =>
    refine ⟨h1, fun hy => ?_, fun hy => ?_⟩
    · have e : X f = .err e := (h2 (hne hy)).symm
      simp only [e]; rfl
    · obtain ⟨g1, e1⟩ := h3 (by simp)
      exact ⟨g1, fun h hh => by simp only [e1 h hh]; rfl⟩
  | timeout => exact ⟨h1, fun hy => absurd (h2 (hne hy)).symm (hne hy), fun hy => absurd rfl hy⟩

theorem Ag.shift {x : C α} {Y : Nat → Res α} (h : Ag V f x fun g => Y (g + 1)) : Ag V (f + 1) x Y := by
  intro c hc
  obtain ⟨h1, h2, h3⟩ := h c hc
  refine ⟨h1, h2, fun hn => ?_⟩
  obtain ⟨g, hg⟩ := h3 hn
  refine ⟨g + 1, fun k hk => ?_⟩
  obtain ⟨k, rfl⟩ : ∃ k', k = k' + 1 := ⟨k - 1, by omega⟩
  exact hg k (by omega)

theorem Ag.loaded {x : C α} {Y : Nat → Res α} {s : St} (h : Ag V f x Y) : Ag V f x fun g => (ropsOf s g).load >>= fun _ => Y g := by
  intro c hc
  obtain ⟨h1, h2, h3⟩ := h c hc
  refine ⟨h1, ?_, fun hn => ?_⟩
  · cases f with
    | zero => exact fun h => absurd rfl h
    | succ f => exact h2
  · obtain ⟨g, hg⟩ := h3 hn
    refine ⟨g + 1, fun k hk => ?_⟩
    obtain ⟨k, rfl⟩ : ∃ k', k = k' + 1 := ⟨k - 1, by omega⟩
    exact hg _ (by omega)

/-- What `Y` settles on. -/
def Settles (Y : Nat → Res α) (y : Res α) : Prop := ∃ g, ∀ h, g ≤ h → Y h = y

theorem Settles.le {Y : Nat → Res α} {y : Res α} (h : Settles Y y) (hm : ∀ f g, f ≤ g → Y f ⊑ Y g) (f : Nat) : Y f ⊑ y := by
  obtain ⟨g, hg⟩ := h
  intro hn
  have := hm f (max f g) (by omega) hn
  rw [hg _ (by omega)] at this
  exact this

theorem look_mem {κ : Type} [DecidableEq κ] {k : κ} {b : β} : ∀ {l : List (κ × β)}, look k l = some b → (k, b) ∈ l
  | (k', b') :: l, h => by
    rw [look] at h
    split at h
    · rename_i e; cases h; simp [e]
    · exact .tail _ (look_mem h)
end

/-- The result of a query without caches. -/
def freshQ (made : Nat → List Str) (s : St) : Nat → Nat → Arg → Res Nat
  | 0, _, _ => .timeout
  | f + 1, d, a => do
    let p ← namesOf made s a
    (ropsOf s (f + 1)).query d p

theorem freshQ_mono (made : Nat → List Str) (s : St) {f g : Nat} (h : f ≤ g) (d : Nat) (a : Arg) : freshQ made s f d a ⊑ freshQ made s g d a := by
  cases f with
  | zero => exact fun h => absurd rfl h
  | succ f =>
    obtain ⟨g, rfl⟩ : ∃ g', g = g' + 1 := ⟨g - 1, by omega⟩
    exact (Res.Ext.refl _).bind fun p => (ropsOf_mono s h).query d p

/-- Everything remembered is what a fresh evaluation returns. -/
structure Right (made : Nat → List Str) (s : St) (c : Caches) : Prop where
  table : ∀ d a i, ((d, a), i) ∈ c.table → Settles (fun f => freshQ made s f d a) (.ok i)
  fragments : ∀ i j, (i, j) ∈ c.fragments → ∃ cl n d p, cellOf s i = .ok cl ∧ cl.shape = .ref n d p ∧
    Settles (fun f => (ropsOf s f).query d p) (.ok j)
  values : ∀ i kvs, (i, kvs) ∈ c.values → Settles (fun f => (ropsOf s f).members i) (.ok kvs)

section
variable (cap : Nat) (made : Nat → List Str) (s : St)

structure COps.Ag (f : Nat) (r : COps) : Prop where
  kind : ∀ i, Obj.Ag (Right made s) f (r.kind i) fun g => (ropsOf s g).kind i
  members : ∀ i, Obj.Ag (Right made s) f (r.members i) fun g => (ropsOf s g).members i
  elems : ∀ i, Obj.Ag (Right made s) f (r.elems i) fun g => (ropsOf s g).elems i
  query : ∀ d a, Obj.Ag (Right made s) f (r.query d a) fun g => freshQ made s g d a

variable {cap made s} {f : Nat} {r : COps} (h : COps.Ag made s f r)

theorem remembered_ag {d : Nat} {a : Arg} {x : C Nat} (hx : Ag (Right made s) f x fun g => freshQ made s g d a) :
    Ag (Right made s) f (remembered cap (d, a) x) fun g => freshQ made s g d a := by
  intro c hc
  unfold remembered
  split
  · rename_i i hl
    have hm := look_mem hl
    have hst := hc.table d a i hm
    refine ⟨⟨?_, hc.fragments, hc.values⟩, hst.le ?_ f, fun _ => hst⟩
    · intro d' a' i' hi
      rcases List.mem_cons.1 hi with e | hi
      · cases e; exact hst
      · exact hc.table _ _ _ (List.mem_filter.1 hi).1
    · exact fun f g hfg => freshQ_mono made s hfg d a
  · obtain ⟨h1, h2, h3⟩ := hx c hc
    rcases hxc : x c with ⟨y, c'⟩
    rw [hxc] at h1 h2 h3
    cases y with
    | ok i =>
      refine ⟨?_, h2, h3⟩
      simp only
      split
      · exact h1
      · refine ⟨?_, h1.fragments, h1.values⟩
        intro d' a' i' hi
        rcases List.mem_cons.1 (List.mem_of_mem_take hi) with e | hi
        · cases e; exact h3 (by simp)
        · exact h1.table _ _ _ hi
    | err e => exact ⟨h1, h2, h3⟩
    | timeout => exact ⟨h1, h2, h3⟩

theorem slotFragment_ag {i n d : Nat} {p : List Str} {cl : Cell} (hi : cellOf s i = .ok cl) (hs : cl.shape = .ref n d p) {x : C Nat}
    (hx : Ag (Right made s) f x fun g => (ropsOf s g).query d p) :
    Ag (Right made s) f (slotFragment i x) fun g => (ropsOf s g).query d p := by
  intro c hc
  unfold slotFragment
  split
  · rename_i j hl
    obtain ⟨cl', n', d', p', e, e', hst⟩ := hc.fragments i j (look_mem hl)
    rw [hi] at e; cases e
    rw [hs] at e'; cases e'
    exact ⟨hc, hst.le (fun f g hfg => (ropsOf_mono s hfg).query d p) f, fun _ => hst⟩
  · obtain ⟨h1, h2, h3⟩ := hx c hc
    rcases hxc : x c with ⟨y, c'⟩
    rw [hxc] at h1 h2 h3
    cases y with
    | ok j =>
      refine ⟨⟨h1.table, ?_, h1.values⟩, h2, h3⟩
      intro i' j' hi'
      rcases List.mem_cons.1 hi' with e | hi'
      · cases e; exact ⟨cl, n, d, p, hi, hs, h3 (by simp)⟩
      · exact h1.fragments _ _ hi'
    | err e => exact ⟨h1, h2, h3⟩
    | timeout => exact ⟨h1, h2, h3⟩

theorem slotValue_ag {i : Nat} {x : C (List (Str × Nat))} (hx : Ag (Right made s) f x fun g => (ropsOf s (g + 1)).members i) :
    Ag (Right made s) f (slotValue i x) fun g => (ropsOf s (g + 1)).members i := by
  intro c hc
  have shift : ∀ y, Settles (fun g => (ropsOf s g).members i) y → Settles (fun g => (ropsOf s (g + 1)).members i) y :=
    fun y ⟨g, hg⟩ => ⟨g, fun k hk => hg (k + 1) (by omega)⟩
  have unshift : ∀ y, Settles (fun g => (ropsOf s (g + 1)).members i) y → Settles (fun g => (ropsOf s g).members i) y :=
    fun y ⟨g, hg⟩ => ⟨g + 1, fun k hk => by obtain ⟨k, rfl⟩ : ∃ k', k = k' + 1 := ⟨k - 1, by omega⟩; exact hg k (by omega)⟩
  unfold slotValue
  split
  · rename_i j hl
    have hst := shift _ (hc.values i j (look_mem hl))
    exact ⟨hc, hst.le (fun f g hfg => (ropsOf_mono s (Nat.succ_le_succ hfg)).members i) f, fun _ => hst⟩
  · obtain ⟨h1, h2, h3⟩ := hx c hc
    rcases hxc : x c with ⟨y, c'⟩
    rw [hxc] at h1 h2 h3
    cases y with
    | ok j =>
      refine ⟨⟨h1.table, h1.fragments, ?_⟩, h2, h3⟩
      intro i' j' hi'
      rcases List.mem_cons.1 hi' with e | hi'
      · cases e; exact unshift _ (h3 (by simp))
      · exact h1.values _ _ hi'
    | err e => exact ⟨h1, h2, h3⟩
    | timeout => exact ⟨h1, h2, h3⟩

include h

/-- The slot `fragment` of a reference. -/
theorem fragment_ag {i n d : Nat} {p : List Str} {cl : Cell} (hi : cellOf s i = .ok cl) (hs : cl.shape = .ref n d p) :
    Ag (Right made s) f (slotFragment i (r.query d (.ptr (.own i)))) fun g => (ropsOf s g).query d p := by
  refine slotFragment_ag hi hs ?_
  have := h.query d (.ptr (.own i))
  have e : (fun g => freshQ made s g d (.ptr (.own i))) = fun g => (ropsOf s g).query d p := by
    funext g
    cases g with
    | zero => rfl
    | succ g => simp only [freshQ, namesOf, hi, Res.ok_bind, hs]
  rw [e] at this
  exact this

theorem cellC_ag {α : Type} {i : Nat} {k : Cell → C α} {K : Nat → Cell → Res α}
    (hk : ∀ c, cellOf s i = .ok c → Ag (Right made s) f (k c) fun g => K g c) :
    Ag (Right made s) f (liftC (cellOf s i) >>= k) fun g => cellOf s i >>= K g := by
  cases hi : cellOf s i with
  | ok cl => exact hk cl hi
  | err e => exact fun c hc => ⟨hc, .refl _, fun _ => ⟨0, fun _ _ => rfl⟩⟩
  | timeout => exact fun c hc => ⟨hc, .refl _, fun h => absurd rfl h⟩

theorem kindC_ag (i : Nat) : Ag (Right made s) f (kindC s r i) fun g => kindR s (ropsOf s g) i := by
  refine cellC_ag h fun cl hi => ?_
  obtain ⟨sh, p, k⟩ := cl
  cases sh <;> first | exact Ag.pure _ | exact (fragment_ag h hi rfl).bind fun x => h.kind x

theorem membersC_ag (i : Nat) : Ag (Right made s) f (membersC s r i) fun g => membersR s (ropsOf s g) i := by
  refine cellC_ag h fun cl hi => ?_
  obtain ⟨sh, p, k⟩ := cl
  cases sh with
  | obj kvs => exact Ag.pure _
  | ref n d p =>
    cases hd : readyOf s d with
    | err e => simp only [hd]; exact fun c hc => ⟨hc, .refl _, fun _ => ⟨0, fun _ _ => rfl⟩⟩
    | timeout => simp only [hd]; exact fun c hc => ⟨hc, .refl _, fun h => absurd rfl h⟩
    | ok x =>
      have key : (fun g => (ropsOf s (g + 1)).members i) = fun g => (do
          let frag ← (ropsOf s g).query d p
          let k ← (ropsOf s g).kind frag
          if k ≠ .object then .err .unmodelled
          else do
            let own ← (ropsOf s g).members n
            let theirs ← (ropsOf s g).members frag
            .ok (overlayIds own theirs)) := by
        funext g
        change membersR s (ropsOf s g) i = _
        simp only [membersR, hi, Res.ok_bind, hd]
      simp only [hd, Res.ok_bind]
      change Ag _ f (slotValue i _) _
      rw [← key]
      refine slotValue_ag ?_
      rw [key]
      refine (fragment_ag h hi rfl).bind fun x => (h.kind x).bind fun k => ?_
      by_cases hk : k ≠ .object
      · simp only [if_pos hk]; exact Ag.lift _
      · simp only [if_neg hk]; exact (h.members _).bind fun a => (h.members _).bind fun b => Ag.pure _
  | _ => exact Ag.lift _

theorem elemsC_ag (i : Nat) : Ag (Right made s) f (elemsC s r i) fun g => elemsR s (ropsOf s g) i := by
  refine cellC_ag h fun cl hi => ?_
  obtain ⟨sh, p, k⟩ := cl
  cases sh with
  | arr xs => exact Ag.pure _
  | ref n d p => exact (Ag.lift _).bind fun _ => (fragment_ag h hi rfl).bind fun x => h.elems x
  | _ => exact Ag.lift _

theorem walkC_ag (ks : List Str) : ∀ n, Ag (Right made s) f (walkC s r n ks) fun g => walkR s (ropsOf s g) n ks := by
  induction ks with
  | nil => exact fun n => Ag.pure _
  | cons k ks ih =>
    intro n
    refine (h.kind n).bind fun t => ?_
    cases t with
    | array =>
      refine cellC_ag h fun c _ => ?_
      obtain ⟨sh, p, k'⟩ := c
      cases sh with
      | arr xs =>
        simp only
        by_cases ha : (!isAscii k) = true
        · simp only [ha, if_true]; exact Ag.lift _
        · simp only [ha]
          cases pyInt k with
          | none => exact Ag.lift _
          | some i => exact (Ag.lift _).bind fun x => ih x
      | _ =>
        simp only
        by_cases ha : (!isAscii k) = true
        · simp only [ha, if_true]; exact Ag.lift _
        · simp only [ha]
          cases pyInt k with
          | none => exact Ag.lift _
          | some i =>
            refine (h.elems n).bind fun xs => (Ag.lift _).bind fun b => ?_
            cases b
            · exact Ag.lift _
            · exact (Ag.lift _).bind fun x => ih x
    | object =>
      refine (h.members n).bind fun kvs => ?_
      cases dictGet k kvs with
      | none => exact Ag.lift _
      | some x => exact ih x
    | _ => exact Ag.lift _
end

theorem copsOf_ag (cap : Nat) (made : Nat → List Str) (s : St) : ∀ f, COps.Ag made s f (copsOf cap made s f) := by
  intro f
  induction f with
  | zero =>
    have : ∀ {α : Type} (Y : Nat → Res α), Y 0 = .timeout → Ag (Right made s) 0 (liftC .timeout) Y :=
      fun Y e c hc => ⟨hc, fun h => absurd e h, fun h => absurd rfl h⟩
    exact ⟨fun _ => this _ rfl, fun _ => this _ rfl, fun _ => this _ rfl, fun d a => this _ rfl⟩
  | succ f ih =>
    refine ⟨fun i => (kindC_ag ih i).shift, fun i => (membersC_ag ih i).shift, fun i => (elemsC_ag ih i).shift, fun d a => remembered_ag (Ag.shift ?_)⟩
    have e : (fun g => freshQ made s (g + 1) d a) = fun g => namesOf made s a >>= fun p => (ropsOf s g).load >>= fun _ => (do
        let x ← readyOf s d
        match p with
        | [k] =>
          match dictGet k x.anchors with
          | some n => .ok n
          | none => if k = [] then .ok x.value else walkR s (ropsOf s g) x.value [k]
        | _ => walkR s (ropsOf s g) x.value p) := rfl
    rw [e]
    refine (Ag.lift _).bind fun p => Ag.loaded ((Ag.lift _).bind fun x => ?_)
    match p with
    | [k] =>
      simp only
      cases dictGet k x.anchors with
      | some n => exact Ag.pure _
      | none =>
        by_cases hk : k = []
        · simp only [hk, if_true]; exact Ag.pure _
        · simp only [hk, if_false]; exact walkC_ag ih _ _
    | [] => exact walkC_ag ih _ _
    | a :: b :: c => exact walkC_ag ih _ _

/-! ## More objects -/

theorem Grows.refl (s : St) : Grows s s := ⟨fun _ _ h => h, fun _ _ h => h⟩
theorem Grows.trans {a b c : St} (h : Grows a b) (h' : Grows b c) : Grows a c :=
  ⟨fun i x e => h'.mem i x (h.mem i x e), fun i x e => h'.docs i x (h.docs i x e)⟩

section
variable {α β : Type}

/-- If the first returns, so does the second, the same. -/
def OkLe (x y : Res α) : Prop := ∀ a, x = .ok a → y = .ok a

theorem OkLe.refl (x : Res α) : OkLe x x := fun _ h => h
theorem OkLe.bind {x y : Res α} {f g : α → Res β} (h : OkLe x y) (hf : ∀ b, OkLe (f b) (g b)) : OkLe (x >>= f) (y >>= g) := by
  intro a e
  cases x with
  | ok b => rw [h b rfl]; exact hf b a e
  | err e' => cases e
  | timeout => cases e
end

section
variable {s s' : St} (h : Grows s s')
include h

theorem cellOf_grows (i : Nat) : OkLe (cellOf s i) (cellOf s' i) := by
  intro c e
  unfold cellOf at e ⊢
  cases hc : s.mem[i]? with
  | none => simp [hc] at e
  | some c' => simp only [hc] at e; rw [h.mem i c' hc]; exact e

theorem readyOf_grows (d : Nat) : OkLe (readyOf s d) (readyOf s' d) := by
  intro c e
  unfold readyOf at e ⊢
  cases hc : s.docs[d]? with
  | none => simp [hc] at e
  | some c' => simp only [hc] at e; rw [h.docs d c' hc]; exact e

theorem namesOf_grows (made : Nat → List Str) (a : Arg) : OkLe (namesOf made s a) (namesOf made s' a) := by
  cases a with
  | text t => exact .refl _
  | ptr p =>
    cases p with
    | made j => exact .refl _
    | own i => exact (cellOf_grows h i).bind fun c => .refl _

structure ROps.Ok (r r' : ROps) : Prop where
  kind : ∀ i, OkLe (r.kind i) (r'.kind i)
  members : ∀ i, OkLe (r.members i) (r'.members i)
  elems : ∀ i, OkLe (r.elems i) (r'.elems i)
  query : ∀ d p, OkLe (r.query d p) (r'.query d p)
  load : OkLe r.load r'.load

variable {r r' : ROps} (hr : ROps.Ok r r')
include hr

theorem kindR_grows (i : Nat) : OkLe (kindR s r i) (kindR s' r' i) := by
  refine (cellOf_grows h i).bind fun c => ?_
  obtain ⟨sh, p, k⟩ := c
  cases sh <;> first | exact .refl _ | exact (hr.query _ _).bind fun x => hr.kind x

theorem membersR_grows (i : Nat) : OkLe (membersR s r i) (membersR s' r' i) := by
  refine (cellOf_grows h i).bind fun c => ?_
  obtain ⟨sh, p, k⟩ := c
  cases sh with
  | ref n d p =>
    refine (readyOf_grows h d).bind fun x => (hr.query _ _).bind fun x => (hr.kind x).bind fun k => ?_
    by_cases hk : k ≠ .object
    · rw [if_pos hk, if_pos hk]; exact .refl _
    · rw [if_neg hk, if_neg hk]; exact (hr.members _).bind fun a => (hr.members _).bind fun b => .refl _
  | _ => exact .refl _

theorem elemsR_grows (i : Nat) : OkLe (elemsR s r i) (elemsR s' r' i) := by
  refine (cellOf_grows h i).bind fun c => ?_
  obtain ⟨sh, p, k⟩ := c
  cases sh with
  | ref n d p => exact (readyOf_grows h d).bind fun x => (hr.query _ _).bind fun x => hr.elems x
  | _ => exact .refl _

omit hr in
theorem intInOf_grows (i : Int) : ∀ xs, OkLe (intInOf s i xs) (intInOf s' i xs)
  | [] => .refl _
  | x :: xs => by
    refine (cellOf_grows h x).bind fun c => ?_
    obtain ⟨sh, p, k⟩ := c
    cases sh with
    | num n =>
      simp only
      by_cases hn : n.eq (.fin i) = true
      · rw [if_pos hn, if_pos hn]; exact .refl _
      · rw [if_neg hn, if_neg hn]; exact intInOf_grows i xs
    | bool b => exact .refl _
    | ref n d p => exact .refl _
    | _ => exact intInOf_grows i xs

theorem walkR_grows (ks : List Str) : ∀ n, OkLe (walkR s r n ks) (walkR s' r' n ks) := by
  induction ks with
  | nil => exact fun n => .refl _
  | cons k ks ih =>
    intro n
    refine (hr.kind n).bind fun t => ?_
    cases t with
    | array =>
      refine (cellOf_grows h n).bind fun c => ?_
      obtain ⟨sh, p, k'⟩ := c
      cases sh with
      | arr xs =>
        simp only
        by_cases ha : (!isAscii k) = true
        · rw [if_pos ha, if_pos ha]; exact .refl _
        · rw [if_neg ha, if_neg ha]
          cases pyInt k with
          | none => exact .refl _
          | some i => exact (OkLe.refl _).bind fun x => ih x
      | _ =>
        simp only
        by_cases ha : (!isAscii k) = true
        · rw [if_pos ha, if_pos ha]; exact .refl _
        · rw [if_neg ha, if_neg ha]
          cases pyInt k with
          | none => exact .refl _
          | some i =>
            refine (hr.elems n).bind fun xs => (intInOf_grows h i xs).bind fun b => ?_
            cases b
            · exact .refl _
            · exact (OkLe.refl _).bind fun x => ih x
    | object =>
      refine (hr.members n).bind fun kvs => ?_
      cases dictGet k kvs with
      | none => exact .refl _
      | some x => exact ih x
    | _ => exact .refl _

theorem queryR_grows (d : Nat) (p : List Str) : OkLe (queryR s r d p) (queryR s' r' d p) := by
  refine hr.load.bind fun _ => (readyOf_grows h d).bind fun x => ?_
  match p with
  | [k] =>
    simp only
    cases dictGet k x.anchors with
    | some n => exact .refl _
    | none =>
      by_cases hk : k = []
      · simp only [hk, if_true]; exact .refl _
      · simp only [hk, if_false]; exact walkR_grows h hr _ _
  | [] => exact walkR_grows h hr _ _
  | a :: b :: c => exact walkR_grows h hr _ _
end

theorem ropsOf_grows {s s' : St} (h : Grows s s') : ∀ f, ROps.Ok (ropsOf s f) (ropsOf s' f) := by
  intro f
  induction f with
  | zero => exact ⟨fun _ _ => id, fun _ _ => id, fun _ _ => id, fun _ _ _ => id, fun _ => id⟩
  | succ f ih => exact ⟨kindR_grows h ih, membersR_grows h ih, elemsR_grows h ih, queryR_grows h ih, .refl _⟩

theorem Right.grows {made : Nat → List Str} {s s' : St} {c : Caches} (hc : Right made s c) (h : Grows s s') : Right made s' c := by
  have hr := ropsOf_grows h
  refine ⟨fun d a i hi => ?_, fun i j hi => ?_, fun i kvs hi => ?_⟩
  · obtain ⟨g, hg⟩ := hc.table d a i hi
    refine ⟨g, fun k hk => ?_⟩
    have := hg k hk
    cases k with
    | zero => cases this
    | succ k => exact ((namesOf_grows h made a).bind fun p => (hr (k + 1)).query d p) _ this
  · obtain ⟨cl, n, d, p, e, e', g, hg⟩ := hc.fragments i j hi
    exact ⟨cl, n, d, p, cellOf_grows h i _ e, e', g, fun k hk => (hr k).query d p _ (hg k hk)⟩
  · obtain ⟨g, hg⟩ := hc.values i kvs hi
    exact ⟨g, fun k hk => (hr k).members i _ (hg k hk)⟩

theorem Right.empty (made : Nat → List Str) (s : St) : Right made s Caches.empty :=
  ⟨by simp [Caches.empty], by simp [Caches.empty], by simp [Caches.empty]⟩

/-- One use with right caches. -/
theorem useC_ag (E : Env) (cap : Nat) (made : Nat → List Str) {s : St} (hs : AllReady s) (f : Nat) (u : Use) {c : Caches} (hc : Right made s c) :
    Right made s (useC cap made s (f + 1) u c).2 ∧
      (useFresh E made (f + 1) u s).1 ⊑ (useC cap made s (f + 1) u c).1 ∧
      ((useC cap made s (f + 1) u c).1 ≠ .timeout → ∃ g, ∀ h, g ≤ h → useFresh E made h u s = ((useC cap made s (f + 1) u c).1, s)) := by
  have hag := copsOf_ag cap made s (f + 1)
  have heq := fun f => ropsOf_eq E hs f
  have key : ∃ Y : Nat → Res Seen, Ag (Right made s) (f + 1) (useC cap made s (f + 1) u) Y ∧ ∀ g, useFresh E made (g + 1) u s = (Y (g + 1), s) := by
    cases u with
    | query d a =>
      refine ⟨fun g => freshQ made s g d a >>= fun i => .ok (.object i), (hag.query d a).bind fun i => Ag.pure _, fun g => ?_⟩
      have : Rd s (useFresh E made (g + 1) (.query d a)) (namesOf made s a >>= fun p => (ropsOf s (g + 1)).query d p >>= fun i => .ok (.object i)) :=
        (Rd.lift (namesOf made s a)).bind fun p => ((heq (g + 1)).query d p).bind fun i => Rd.pure _
      refine Eq.trans this ?_
      simp only [freshQ]
      cases namesOf made s a <;> rfl
    | kind i =>
      exact ⟨fun g => (ropsOf s g).kind i >>= fun i => .ok (.kind i), (hag.kind i).bind fun i => Ag.pure _,
        fun g => ((heq (g + 1)).kind i).bind fun i => Rd.pure _⟩
    | members i =>
      exact ⟨fun g => (ropsOf s g).members i >>= fun i => .ok (.members i), (hag.members i).bind fun i => Ag.pure _,
        fun g => ((heq (g + 1)).members i).bind fun i => Rd.pure _⟩
  obtain ⟨Y, hY, e⟩ := key
  obtain ⟨h1, h2, h3⟩ := hY c hc
  refine ⟨h1, by rw [e]; exact h2, fun hn => ?_⟩
  obtain ⟨g, hg⟩ := h3 hn
  refine ⟨g + 1, fun k hk => ?_⟩
  obtain ⟨k, rfl⟩ : ∃ k', k = k' + 1 := ⟨k - 1, by omega⟩
  rw [e, hg _ (by omega)]

end Verif.Obj
