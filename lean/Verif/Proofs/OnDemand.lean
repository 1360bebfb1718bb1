import Verif.Proofs.WebRoot
/-! # Reading schemas that are loaded on demand

`wopsOf` reads the objects of the schemas that are loaded, and says which schema would have to be loaded to go on. -/

namespace Verif.Obj
open Verif Verif.Spec

/-- A result, or a schema that is not loaded. -/
inductive Want (α : Type) where
  | need (d : Nat)
  | got (x : Res α)

instance : Monad Want where
  pure a := .got (.ok a)
  bind x f := match x with
    | .need d => .need d
    | .got (.ok a) => f a
    | .got (.err e) => .got (.err e)
    | .got .timeout => .got .timeout

section
variable {α β : Type}
@[simp] theorem Want.ok_bind (a : α) (f : α → Want β) : ((Want.got (.ok a) : Want α) >>= f) = f a := rfl
@[simp] theorem Want.pure_bind (a : α) (f : α → Want β) : ((pure a : Want α) >>= f) = f a := rfl
@[simp] theorem Want.err_bind (e : PyErr) (f : α → Want β) : ((Want.got (.err e) : Want α) >>= f) = .got (.err e) := rfl
@[simp] theorem Want.timeout_bind (f : α → Want β) : ((Want.got .timeout : Want α) >>= f) = .got .timeout := rfl
@[simp] theorem Want.need_bind (d : Nat) (f : α → Want β) : ((Want.need d : Want α) >>= f) = .need d := rfl

theorem Want.got_ok {x : Want α} {f : α → Want β} {b : β} (h : (x >>= f) = .got (.ok b)) : ∃ a, x = .got (.ok a) ∧ f a = .got (.ok b) := by
  match x, h with
  | .got (.ok a), h => exact ⟨a, rfl, h⟩
end

structure WOps where
  kind : Nat → Want Kind
  members : Nat → Want (List (Str × Nat))
  elems : Nat → Want (List Nat)
  query : Nat → List Str → Want Nat
  load : Nat → Want Unit

section
variable (s : St) (r : WOps)

def cellW (i : Nat) : Want Cell := .got (cellOf s i)

def readyW (d : Nat) : Want Schema := match s.docs[d]? with
  | some x => if x.ready then pure x else .need d
  | none => .need d

def kindW (i : Nat) : Want Kind := do
  match (← cellW s i).shape with
  | .null => pure .null
  | .bool _ => pure .boolean
  | .num _ => pure .number
  | .str _ => pure .string
  | .arr _ => pure .array
  | .obj _ => pure .object
  | .ref _ d p => do
    let frag ← r.query d p
    r.kind frag

def membersW (i : Nat) : Want (List (Str × Nat)) := do
  match (← cellW s i).shape with
  | .obj kvs => pure kvs
  | .ref n d p => do
    let _ ← readyW s d
    let frag ← r.query d p
    let k ← r.kind frag
    if k ≠ .object then .got (.err .unmodelled)
    else do
      let own ← r.members n
      let theirs ← r.members frag
      pure (overlayIds own theirs)
  | _ => .got (.err .attributeError)

def elemsW (i : Nat) : Want (List Nat) := do
  match (← cellW s i).shape with
  | .arr xs => pure xs
  | .ref _ d p => do
    let _ ← readyW s d
    let frag ← r.query d p
    r.elems frag
  | _ => .got (.err .unmodelled)

def walkW : Nat → List Str → Want Nat
  | n, [] => pure n
  | n, k :: ks => do
    match ← r.kind n with
    | .array => do
      match (← cellW s n).shape with
      | .arr xs =>
        if !isAscii k then .got (.err .unmodelled)
        else match pyInt k with
          | none => .got (.err .valueError)
          | some i => do
            let x ← .got (pyIndex xs i)
            walkW x ks
      | _ =>
        if !isAscii k then .got (.err .unmodelled)
        else match pyInt k with
          | none => .got (.err .valueError)
          | some i => do
            let xs ← r.elems n
            let b ← .got (intInOf s i xs)
            if b then do
              let x ← .got (pyIndex xs i)
              walkW x ks
            else .got (.err .keyError)
    | .object => do
      let kvs ← r.members n
      match dictGet k kvs with
      | some x => walkW x ks
      | none => .got (.err .keyError)
    | _ => .got (.err .keyError)

def queryW (d : Nat) (ptr : List Str) : Want Nat := do
  r.load d
  let x ← readyW s d
  match ptr with
  | [k] =>
    match dictGet k x.anchors with
    | some n => pure n
    | none => if k = [] then pure x.value else walkW s r x.value [k]
  | _ => walkW s r x.value ptr
end

def wopsOf (s : St) : Nat → WOps
  | 0 => ⟨fun _ => .got .timeout, fun _ => .got .timeout, fun _ => .got .timeout, fun _ _ => .got .timeout, fun _ => .got .timeout⟩
  | f + 1 => ⟨kindW s (wopsOf s f), membersW s (wopsOf s f), elemsW s (wopsOf s f), queryW s (wopsOf s f), fun d => readyW s d >>= fun _ => pure ()⟩

/-! ## The objects of the loaded schemas -/

/-- An object that can be come to from a loaded schema without following a reference. -/
inductive InView (s : St) : Nat → Prop
  | value {d : Nat} {x : Schema} (doc : s.docs[d]? = some x) (ready : x.ready = true) : InView s x.value
  | anchor {d : Nat} {x : Schema} {k : Str} {i : Nat} (doc : s.docs[d]? = some x) (ready : x.ready = true) (mem : (k, i) ∈ x.anchors) : InView s i
  | elem {i j : Nat} {c : Cell} {xs : List Nat} (seen : InView s i) (cell : s.mem[i]? = some c) (shape : c.shape = .arr xs) (mem : j ∈ xs) : InView s j
  | member {i j : Nat} {c : Cell} {k : Str} {kvs : List (Str × Nat)} (seen : InView s i) (cell : s.mem[i]? = some c) (shape : c.shape = .obj kvs) (mem : (k, j) ∈ kvs) : InView s j
  | own {i j d : Nat} {c : Cell} {p : List Str} (seen : InView s i) (cell : s.mem[i]? = some c) (shape : c.shape = .ref j d p) : InView s j

/-- Nothing of the loaded schemas is changed. -/
structure Keeps (s t : St) : Prop where
  mem : ∀ i, InView s i → t.mem[i]? = s.mem[i]?
  docs : ∀ (d : Nat) (x : Schema), s.docs[d]? = some x → x.ready = true → t.docs[d]? = some x

theorem Keeps.refl (s : St) : Keeps s s := ⟨fun _ _ => rfl, fun _ _ h _ => h⟩

theorem InView.keep {s t : St} (h : Keeps s t) {i : Nat} (hi : InView s i) : InView t i := by
  induction hi with
  | value doc ready => exact .value (h.docs _ _ doc ready) ready
  | anchor doc ready mem => exact .anchor (h.docs _ _ doc ready) ready mem
  | elem seen cell shape mem ih => exact .elem ih (by rw [h.mem _ seen]; exact cell) shape mem
  | member seen cell shape mem ih => exact .member ih (by rw [h.mem _ seen]; exact cell) shape mem
  | own seen cell shape ih => exact .own ih (by rw [h.mem _ seen]; exact cell) shape

theorem Keeps.trans {a b c : St} (h : Keeps a b) (h' : Keeps b c) : Keeps a c :=
  ⟨fun i hi => (h'.mem i (hi.keep h)).trans (h.mem i hi), fun d x hx hr => h'.docs d x (h.docs d x hx hr) hr⟩

/-- After `d` was loaded. -/
structure After (E : Env) (s : St) (d : Nat) (s' : St) : Prop where
  load : ∃ f0, ∀ f, f0 ≤ f → (ops E f).load d s = (.ok (), s')
  ready : ∃ x : Schema, s'.docs[d]? = some x ∧ x.ready = true
  keeps : Keeps s s'

/-- The program does what was read – with this fuel and, if it ends, with more – in all states that keep what is loaded.  If a schema is needed, it goes on
as if the schema had been loaded before. -/
def Does {α : Type} (E : Env) (s : St) (f : Nat) (X : Nat → M α) (P : α → Prop) : Want α → Prop
  | .got y => (∀ t, Keeps s t → X f t = (y, t)) ∧ (y ≠ .timeout → ∀ t, Keeps s t → ∀ h, f ≤ h → X h t = (y, t)) ∧ ∀ a, y = .ok a → P a
  | .need d => (d < s.docs.length ∧ ¬ ∃ x : Schema, s.docs[d]? = some x ∧ x.ready = true) ∧ ∀ s', After E s d s' → ∃ h0, ∀ h, h0 ≤ h → X h s = X h s'

section
variable {α β : Type} {E : Env} {s : St} {f : Nat}

theorem Does.bind {X : Nat → M α} {G : Nat → α → M β} {w : Want α} {g : α → Want β} {P : α → Prop} {Q : β → Prop} (hx : Does E s f X P w)
    (hg : ∀ a, P a → w = .got (.ok a) → Does E s f (fun h => G h a) Q (g a)) : Does E s f (fun h => X h >>= G h) Q (w >>= g) := by
  match w, hx, hg with
  | .need d, hx, _ =>
    refine ⟨hx.1, fun s' hs' => ?_⟩
    obtain ⟨h0, hh⟩ := hx.2 s' hs'
    refine ⟨h0, fun h hle => ?_⟩
    change (X h >>= G h) s = (X h >>= G h) s'
    rw [M.bind_apply, M.bind_apply, hh h hle]
  | .got (.err e), ⟨h1, h2, _⟩, _ =>
    exact ⟨fun t ht => M.bind_err (h1 t ht), fun _ t ht h hle => M.bind_err (h2 (by simp) t ht h hle), fun a h => by cases h⟩
  | .got .timeout, ⟨h1, _, _⟩, _ =>
    exact ⟨fun t ht => M.bind_timeout (h1 t ht), fun h => absurd rfl h, fun a h => by cases h⟩
  | .got (.ok a), ⟨h1, h2, h3⟩, hg =>
    have hga := hg a (h3 a rfl) rfl
    rw [Want.ok_bind]
    generalize hw : g a = w' at hga
    match w', hga with
    | .got y, ⟨g1, g2, g3⟩ =>
      refine ⟨fun t ht => ?_, fun hy t ht h hle => ?_, g3⟩
      · exact (M.bind_ok (h1 t ht)).trans (g1 t ht)
      · exact (M.bind_ok (h2 (by simp) t ht h hle)).trans (g2 hy t ht h hle)
    | .need d, hga =>
      refine ⟨hga.1, fun s' hs' => ?_⟩
      obtain ⟨h0, hh⟩ := hga.2 s' hs'
      refine ⟨max f h0, fun h hle => ?_⟩
      have hf : f ≤ h := by omega
      change (X h >>= G h) s = (X h >>= G h) s'
      rw [M.bind_ok (h2 (by simp) s (.refl s) h hf), M.bind_ok (h2 (by simp) s' hs'.keeps h hf)]
      exact hh h (by omega)

theorem Does.const {x : M α} {y : Res α} {P : α → Prop} (h : ∀ t, Keeps s t → x t = (y, t)) (hP : ∀ a, y = .ok a → P a) : Does E s f (fun _ => x) P (.got y) :=
  ⟨h, fun _ t ht _ _ => h t ht, hP⟩

theorem Does.pure {a : α} {P : α → Prop} (h : P a) : Does E s f (fun _ => Pure.pure a) P (Pure.pure a) :=
  .const (fun _ _ => rfl) fun b e => by cases e; exact h

theorem Does.raise {e : PyErr} {P : α → Prop} : Does E s f (fun _ => raise e) P (.got (.err e)) := .const (fun _ _ => rfl) fun b e => by cases e

theorem Does.lift {y : Res α} {P : α → Prop} (h : ∀ a, y = .ok a → P a) : Does E s f (fun _ => lift y) P (.got y) := .const (fun _ _ => rfl) h

theorem Does.shift {X Y : Nat → M α} {P : α → Prop} {w : Want α} (h : Does E s f X P w) (e : ∀ h, Y (h + 1) = X h) : Does E s (f + 1) Y P w := by
  match w, h with
  | .got y, ⟨h1, h2, h3⟩ =>
    refine ⟨fun t ht => by rw [e]; exact h1 t ht, fun hy t ht h hle => ?_, h3⟩
    obtain ⟨h, rfl⟩ : ∃ k, h = k + 1 := ⟨h - 1, by omega⟩
    rw [e]; exact h2 hy t ht h (by omega)
  | .need d, h =>
    refine ⟨h.1, fun s' hs' => ?_⟩
    obtain ⟨h0, hh⟩ := h.2 s' hs'
    refine ⟨h0 + 1, fun h hle => ?_⟩
    obtain ⟨h, rfl⟩ : ∃ k, h = k + 1 := ⟨h - 1, by omega⟩
    rw [e]; exact hh h (by omega)

theorem Does.weaken {X : Nat → M α} {P Q : α → Prop} {w : Want α} (h : Does E s f X P w) (hq : ∀ a, w = .got (.ok a) → P a → Q a) : Does E s f X Q w := by
  match w, h with
  | .got y, ⟨h1, h2, h3⟩ => exact ⟨h1, h2, fun a e => hq a (by rw [e]) (h3 a e)⟩
  | .need d, h => exact h

theorem Does.zero {X : Nat → M α} {P : α → Prop} (h : ∀ t, X 0 t = (.timeout, t)) : Does E s 0 X P (.got .timeout) :=
  ⟨fun t _ => h t, fun h => absurd rfl h, fun _ e => by cases e⟩
end

theorem cell_does {E : Env} {s : St} {f i : Nat} (hi : InView s i) : Does E s f (fun _ => cell i) (fun c => s.mem[i]? = some c) (cellW s i) := by
  refine .const (fun t ht => ?_) fun c h => ?_
  · unfold cell cellOf
    rw [ht.mem i hi]
    cases s.mem[i]? <;> rfl
  · unfold cellOf at h
    cases hc : s.mem[i]? with
    | none => simp [hc] at h
    | some c' => simp only [hc, Res.ok.injEq] at h; rw [h]

theorem pyIndex_mem {α : Type} {xs : List α} {i : Int} {x : α} (h : pyIndex xs i = .ok x) : x ∈ xs := by
  unfold pyIndex at h
  simp only at h
  generalize (if i < 0 then i + (xs.length : Int) else i) = j at h
  split at h
  · cases h
  · cases hx : xs[j.toNat]? with
    | none => rw [hx] at h; cases h
    | some y => rw [hx] at h; cases h; exact List.mem_of_getElem? hx

theorem intIn_does {E : Env} {s : St} {f : Nat} (z : Int) : ∀ xs : List Nat, (∀ x ∈ xs, InView s x) → Does E s f (fun _ => intIn z xs) (fun _ => True) (.got (intInOf s z xs))
  | [], _ => .const (fun _ _ => rfl) fun _ _ => trivial
  | x :: xs, h => by
    have ih := intIn_does (E := E) (f := f) z xs fun y hy => h y (List.mem_cons_of_mem _ hy)
    have e : (Want.got (intInOf s z (x :: xs)) : Want Bool) = (cellW s x >>= fun c => .got (match c.shape with
        | .num n => if n.eq (.fin z) then .ok true else intInOf s z xs
        | .bool _ => .err .typeError
        | .ref .. => .err .unmodelled
        | _ => intInOf s z xs)) := by
      rw [intInOf]
      unfold cellW
      cases cellOf s x <;> rfl
    rw [e]
    refine Does.bind (G := fun _ c => match c.shape with
        | .num n => if n.eq (.fin z) then pure true else intIn z xs
        | .bool _ => raise .typeError
        | .ref .. => raise .unmodelled
        | _ => intIn z xs) (cell_does (h x (by simp))) fun c _ _ => ?_
    obtain ⟨sh, p, k⟩ := c
    cases sh with
    | num n =>
      simp only
      split
      · exact .pure trivial
      · exact ih
    | bool b => exact .raise
    | ref n d p => exact .raise
    | _ => exact ih

/-- The references of loaded schemas have an object and lead to a schema. -/
structure Whole (s : St) : Prop where
  own : ∀ {i n d : Nat} {c : Cell} {p : List Str}, InView s i → s.mem[i]? = some c → c.shape = .ref n d p → ∃ c' ids, s.mem[n]? = some c' ∧ c'.shape = .obj ids
  doc : ∀ {i n d : Nat} {c : Cell} {p : List Str}, InView s i → s.mem[i]? = some c → c.shape = .ref n d p → d < s.docs.length

structure DoesAll (E : Env) (s : St) (f : Nat) : Prop where
  kind : ∀ i, InView s i → Does E s f (fun h => (ops E h).kind i) (fun _ => True) ((wopsOf s f).kind i)
  members : ∀ i k, InView s i → (wopsOf s f).kind i = .got (.ok k) →
    Does E s f (fun h => (ops E h).members i) (fun kvs => ∀ k j, (k, j) ∈ kvs → InView s j) ((wopsOf s f).members i)
  elems : ∀ i k, InView s i → (wopsOf s f).kind i = .got (.ok k) → Does E s f (fun h => (ops E h).elems i) (fun xs => ∀ x ∈ xs, InView s x) ((wopsOf s f).elems i)
  query : ∀ d p, d < s.docs.length → Does E s f (fun h => (ops E h).query d p) (InView s) ((wopsOf s f).query d p)
  load : ∀ d, d < s.docs.length → Does E s f (fun h => (ops E h).load d) (fun _ => ∃ x : Schema, s.docs[d]? = some x ∧ x.ready = true) ((wopsOf s f).load d)

theorem readyW_ok {s : St} {d : Nat} {x : Schema} (h : readyW s d = .got (.ok x)) : s.docs[d]? = some x ∧ x.ready = true := by
  unfold readyW at h
  split at h
  · split at h
    · cases h; exact ⟨by assumption, by assumption⟩
    · cases h
  · cases h

theorem readyW_eq {s : St} {d : Nat} {x : Schema} (h : s.docs[d]? = some x) (hr : x.ready = true) : readyW s d = .got (.ok x) := by
  unfold readyW; rw [h]; simp only [hr, if_true]; rfl

theorem query_ready {s : St} {f d i : Nat} {p : List Str} (h : (wopsOf s f).query d p = .got (.ok i)) : ∃ x : Schema, s.docs[d]? = some x ∧ x.ready = true := by
  cases f with
  | zero => cases h
  | succ f =>
    obtain ⟨-, -, h⟩ := Want.got_ok (show (_ >>= _) = _ from h)
    obtain ⟨x, h, -⟩ := Want.got_ok h
    exact ⟨x, readyW_ok h⟩

section
variable {E : Env} {s : St} {f : Nat} (hw : Whole s) (ih : DoesAll E s f)
include ih

include hw in
theorem kind_does (i : Nat) (hi : InView s i) : Does E s f (fun h => kindS (ops E h) i) (fun _ => True) (kindW s (wopsOf s f) i) := by
  refine (cell_does hi).bind fun c hc _ => ?_
  obtain ⟨sh, p, k⟩ := c
  cases sh with
  | ref n d p => exact (ih.query d p (hw.doc hi hc rfl)).bind fun j hj _ => ih.kind j hj
  | _ => exact .pure trivial

theorem walk_does (ks : List Str) : ∀ n, InView s n → Does E s f (fun h => walk (ops E h) n ks) (InView s) (walkW s (wopsOf s f) n ks) := by
  induction ks with
  | nil => exact fun n hn => .pure hn
  | cons k ks ihk =>
    intro n hn
    refine (ih.kind n hn).bind fun t _ ht => ?_
    cases t with
    | array =>
      refine (cell_does hn).bind fun c hc _ => ?_
      obtain ⟨sh, p, k'⟩ := c
      cases sh with
      | arr xs =>
        simp only
        split
        · exact .raise
        · cases pyInt k with
          | none => exact .raise
          | some z => exact (Does.lift (P := InView s) fun x hx => .elem hn hc rfl (pyIndex_mem hx)).bind fun x hx _ => ihk x hx
      | _ =>
        simp only
        split
        · exact .raise
        · cases pyInt k with
          | none => exact .raise
          | some z =>
            refine (ih.elems n _ hn ht).bind fun xs hxs _ => (intIn_does z xs hxs).bind fun b _ _ => ?_
            cases b with
            | false => exact .raise
            | true => exact (Does.lift (P := InView s) fun x hx => hxs x (pyIndex_mem hx)).bind fun x hx _ => ihk x hx
    | object =>
      have e : ((do
          let kvs ← (wopsOf s f).members n
          match dictGet k kvs with
          | some x => walkW s (wopsOf s f) x ks
          | none => .got (.err .keyError)) : Want Nat) = ((do
          let kvs ← (wopsOf s f).members n
          match dictGet k kvs with
          | some x => pure x
          | none => .got (.err .keyError)) >>= fun x => walkW s (wopsOf s f) x ks) := by
        match (wopsOf s f).members n with
        | .need d => rfl
        | .got (.err e) => rfl
        | .got .timeout => rfl
        | .got (.ok kvs) =>
          simp only [Want.ok_bind]
          cases dictGet k kvs <;> rfl
      simp only
      rw [e]
      refine Does.bind (P := InView s) ?_ fun x hx _ => ihk x hx
      refine (ih.members n _ hn ht).bind fun kvs hkvs _ => ?_
      cases hg : dictGet k kvs with
      | none => exact .raise
      | some x => exact .pure (hkvs k x (dictGet_mem hg))
    | _ => exact .raise

theorem query_does (d : Nat) (p : List Str) (hd : d < s.docs.length) : Does E s f (fun h => queryS (ops E h) d p) (InView s) (queryW s (wopsOf s f) d p) := by
  refine (ih.load d hd).bind fun _ hd _ => ?_
  obtain ⟨x, hx, hr⟩ := hd
  rw [readyW_eq hx hr]
  refine Does.bind (P := fun y => y = x) (.const (fun t ht => schema_apply (ht.docs d x hx hr)) fun a e => by cases e; rfl) fun y hy _ => ?_
  subst hy
  match p with
  | [] => exact walk_does ih _ _ (.value hx hr)
  | _ :: _ :: _ => exact walk_does ih _ _ (.value hx hr)
  | [k] =>
    simp only
    cases hk : dictGet k y.anchors with
    | some n => exact .pure (.anchor hx hr (dictGet_mem hk))
    | none =>
      simp only
      split
      · exact .pure (.value hx hr)
      · exact walk_does ih _ _ (.value hx hr)

omit ih in
theorem schema_does {d : Nat} {x : Schema} (hx : s.docs[d]? = some x) (hr : x.ready = true) : Does E s f (fun _ => schema d) (fun y => y = x) (readyW s d) := by
  rw [readyW_eq hx hr]
  exact .const (fun t ht => schema_apply (ht.docs d x hx hr)) fun a e => by cases e; rfl

end

theorem overlay_mem {own theirs : List (Str × Nat)} {k : Str} {j : Nat} (h : (k, j) ∈ overlayIds own theirs) : (k, j) ∈ own ∨ (k, j) ∈ theirs := by
  unfold overlayIds at h
  have key : ∀ (l acc : List (Str × Nat)), (k, j) ∈ l.foldl (fun d p => dictSet p.1 p.2 d) acc → (k, j) ∈ acc ∨ (k, j) ∈ l := by
    intro l
    induction l with
    | nil => exact fun acc h => .inl h
    | cons q l ih =>
      intro acc h
      rcases ih _ h with h | h
      · have set : ∀ (acc : List (Str × Nat)), (k, j) ∈ dictSet q.1 q.2 acc → (k, j) ∈ acc ∨ (k, j) = q := by
          intro acc
          induction acc with
          | nil => intro h; simp only [dictSet, List.mem_singleton] at h; exact .inr h
          | cons a acc ih =>
            obtain ⟨a1, a2⟩ := a
            intro h
            rw [dictSet] at h
            split at h
            · rename_i e
              rcases List.mem_cons.1 h with h | h
              · exact .inr (by rw [h, e])
              · exact .inl (List.mem_cons_of_mem _ h)
            · rcases List.mem_cons.1 h with h | h
              · exact .inl (by rw [h]; simp)
              · rcases ih h with h | h
                · exact .inl (List.mem_cons_of_mem _ h)
                · exact .inr h
        rcases set acc h with h | h
        · exact .inl h
        · exact .inr (by rw [h]; simp)
      · exact .inr (List.mem_cons_of_mem _ h)
  rcases key _ _ h with h | h
  · exact .inl (List.mem_filter.1 h).1
  · exact .inr h

theorem does_all {E : Env} {s : St} (hw : Whole s) : ∀ f, DoesAll E s f := by
  intro f
  induction f with
  | zero =>
    exact ⟨fun _ _ => .zero fun _ => rfl, fun _ _ _ h => (by cases h), fun _ _ _ h => (by cases h), fun _ _ _ => .zero fun _ => rfl,
      fun _ _ => .zero fun _ => rfl⟩
  | succ f ih =>
    refine ⟨fun i hi => (kind_does hw ih i hi).shift fun h => rfl, fun i k hi hk => ?_, fun i k hi hk => ?_, fun d p hd => (query_does ih d p hd).shift fun h => rfl,
      fun d hd => ?_⟩
    · refine Does.shift (X := fun h => membersS (ops E h) i) ?_ fun h => rfl
      refine (cell_does hi).bind fun c hc hcw => ?_
      change kindW s (wopsOf s f) i = _ at hk
      unfold kindW at hk
      rw [hcw, Want.ok_bind] at hk
      obtain ⟨sh, q, k'⟩ := c
      cases sh with
      | obj kvs => exact .pure fun k j h => .member hi hc rfl h
      | ref n d p =>
        obtain ⟨frag, hq, hfr⟩ := Want.got_ok hk
        obtain ⟨x, hx, hr⟩ := query_ready hq
        refine (schema_does hx hr).bind fun y hy _ => ?_
        subst hy
        rw [hr]
        simp only [Bool.not_true, Bool.false_eq_true, if_false]
        refine (ih.query d p (hw.doc hi hc rfl)).bind fun frag hfrag _ => (ih.kind frag hfrag).bind fun k _ hk => ?_
        split
        · exact .raise
        · have hn : InView s n := .own hi hc rfl
          obtain ⟨c', ids, hc', hs'⟩ := hw.own hi hc rfl
          have hkn : (wopsOf s f).kind n = .got (.ok .object) := by
            cases f with
            | zero => cases hk
            | succ f =>
              change kindW s (wopsOf s f) n = _
              unfold kindW cellW
              rw [cellOf_eq hc', Want.ok_bind, hs']
              rfl
          refine (ih.members n _ hn hkn).bind fun own hown _ => (ih.members frag _ hfrag hk).bind fun theirs htheirs _ => .pure fun k j h => ?_
          rcases overlay_mem h with h | h
          · exact hown k j h
          · exact htheirs k j h
      | _ => exact .raise
    · refine Does.shift (X := fun h => elemsS (ops E h) i) ?_ fun h => rfl
      refine (cell_does hi).bind fun c hc hcw => ?_
      change kindW s (wopsOf s f) i = _ at hk
      unfold kindW at hk
      rw [hcw, Want.ok_bind] at hk
      obtain ⟨sh, q, k'⟩ := c
      cases sh with
      | arr xs => exact .pure fun x h => .elem hi hc rfl h
      | ref n d p =>
        obtain ⟨frag, hq, hfr⟩ := Want.got_ok hk
        obtain ⟨x, hx, hr⟩ := query_ready hq
        refine (schema_does hx hr).bind fun y hy _ => ?_
        subst hy
        rw [hr]
        simp only [Bool.not_true, Bool.false_eq_true, if_false]
        refine (ih.query d p (hw.doc hi hc rfl)).bind fun frag' hfrag hq' => ?_
        rw [hq] at hq'; cases hq'
        exact ih.elems frag k hfrag hfr
      | _ => exact .raise
    · change Does E s (f + 1) _ _ (readyW s d >>= fun _ => pure ())
      have need : readyW s d = .need d → Does E s (f + 1) (fun h => (ops E h).load d) (fun _ => ∃ x : Schema, s.docs[d]? = some x ∧ x.ready = true) (readyW s d >>= fun _ => pure ()) := by
        intro e
        rw [e]
        refine ⟨⟨hd, fun ⟨x, hx, hr⟩ => by rw [readyW_eq hx hr] at e; cases e⟩, ?_⟩
        rintro s' ⟨⟨f0, hf⟩, ⟨x, hx, hr⟩, -⟩
        refine ⟨max f0 1, fun h hle => ?_⟩
        obtain ⟨h, rfl⟩ : ∃ k, h = k + 1 := ⟨h - 1, by omega⟩
        change (ops E (h + 1)).load d s = (ops E (h + 1)).load d s'
        rw [hf (h + 1) (by omega), load_again hx hr]
      by_cases hr : ∃ x : Schema, s.docs[d]? = some x ∧ x.ready = true
      · obtain ⟨x, hd', hr⟩ := hr
        rw [readyW_eq hd' hr]
        refine ⟨fun t ht => load_again (ht.docs d x hd' hr) hr, fun _ t ht h hle => ?_, fun _ _ => ⟨x, hd', hr⟩⟩
        obtain ⟨h, rfl⟩ : ∃ k, h = k + 1 := ⟨h - 1, by omega⟩
        exact load_again (ht.docs d x hd' hr) hr
      · refine need ?_
        unfold readyW
        split
        · split
          · exact absurd ⟨_, by assumption, by assumption⟩ hr
          · rfl
        · rfl

/-! ## What is in view -/

/-- Those objects that can be come to from `i` without following a reference. -/
inductive Under (m : Mem) : Nat → Nat → Prop
  | refl (i : Nat) : Under m i i
  | elem {i x j : Nat} {c : Cell} {xs : List Nat} (cell : m[i]? = some c) (shape : c.shape = .arr xs) (mem : x ∈ xs) (rest : Under m x j) : Under m i j
  | member {i x j : Nat} {c : Cell} {k : Str} {kvs : List (Str × Nat)} (cell : m[i]? = some c) (shape : c.shape = .obj kvs) (mem : (k, x) ∈ kvs) (rest : Under m x j) :
      Under m i j
  | own {i x d j : Nat} {c : Cell} {p : List Str} (cell : m[i]? = some c) (shape : c.shape = .ref x d p) (rest : Under m x j) : Under m i j

theorem Under.trans {m : Mem} {i j k : Nat} (h : Under m i j) (h' : Under m j k) : Under m i k := by
  induction h with
  | refl => exact h'
  | elem cell shape mem _ ih => exact .elem cell shape mem (ih h')
  | member cell shape mem _ ih => exact .member cell shape mem (ih h')
  | own cell shape _ ih => exact .own cell shape (ih h')

mutual
/-- The references of the tree lead to documents with `P`. -/
def RefsIn (P : Nat → Prop) : Node → Prop
  | .arr xs => RefsInL P xs
  | .obj kvs => RefsInD P kvs
  | .ref own d _ => P d ∧ RefsInD P own
  | _ => True
def RefsInL (P : Nat → Prop) : List Node → Prop
  | [] => True
  | x :: xs => RefsIn P x ∧ RefsInL P xs
def RefsInD (P : Nat → Prop) : List (Str × Node) → Prop
  | [] => True
  | (_, x) :: xs => RefsIn P x ∧ RefsInD P xs
end

theorem refsInD_iff {P : Nat → Prop} : ∀ {kvs : List (Str × Node)}, RefsInD P kvs ↔ ∀ p ∈ kvs, RefsIn P p.2
  | [] => by simp [RefsInD]
  | (k, x) :: xs => by rw [RefsInD, refsInD_iff (kvs := xs)]; simp

mutual
theorem wrap_refs (P : Nat → Prop) : ∀ v : Val, RefsIn P (wrap v)
  | .null => by rw [wrap, RefsIn] <;> simp
  | .bool _ => by rw [wrap, RefsIn] <;> simp
  | .int _ => by rw [wrap, RefsIn] <;> simp
  | .flt _ => by rw [wrap, RefsIn] <;> simp
  | .dec _ => by rw [wrap, RefsIn] <;> simp
  | .str _ => by rw [wrap, RefsIn] <;> simp
  | .list xs => by rw [wrap, RefsIn]; exact wrapList_refs P xs
  | .dict kvs => by rw [wrap, RefsIn]; exact wrapDict_refs P kvs
theorem wrapList_refs (P : Nat → Prop) : ∀ xs : List Val, RefsInL P (wrapList xs)
  | [] => by rw [wrapList, RefsInL]; trivial
  | x :: xs => by rw [wrapList, RefsInL]; exact ⟨wrap_refs P x, wrapList_refs P xs⟩
theorem wrapDict_refs (P : Nat → Prop) : ∀ xs : List (Str × Val), RefsInD P (wrapDict xs)
  | [] => by rw [wrapDict, RefsInD]; trivial
  | (k, x) :: xs => by rw [wrapDict, RefsInD]; exact ⟨wrap_refs P x, wrapDict_refs P xs⟩
end

theorem dictDel_sub {α : Type} {k : Str} {p : Str × α} : ∀ {d : List (Str × α)}, p ∈ dictDel k d → p ∈ d
  | [], h => h
  | q :: d, h => by
    rw [dictDel] at h
    split at h
    · exact List.mem_cons_of_mem _ h
    · rcases List.mem_cons.1 h with h | h
      · rw [h]; simp
      · exact List.mem_cons_of_mem _ (dictDel_sub h)

section
variable {P : Nat → Prop} {ip : Rfc3986.IpRe} {link : Str → Nat} (hP : ∀ t, P (link t))
include hP

mutual
theorem resolve_refs : ∀ n : Node, RefsIn P n → RefsIn P (resolveIn ip link n)
  | .obj kvs, h => by
    rw [RefsIn] at h
    have hk := resolveD_refs kvs h
    rw [resolveIn]
    split
    · rw [RefsIn]; exact ⟨hP _, hk⟩
    · rw [RefsIn, refsInD_iff]
      exact fun p hp => refsInD_iff.1 hk p (dictDel_sub hp)
  | .null, h => by rw [resolveIn] <;> first | exact h | simp
  | .bool _, h => by rw [resolveIn] <;> first | exact h | simp
  | .num _, h => by rw [resolveIn] <;> first | exact h | simp
  | .str _, h => by rw [resolveIn] <;> first | exact h | simp
  | .arr _, h => by rw [resolveIn] <;> first | exact h | simp
  | .ref .., h => by rw [resolveIn] <;> first | exact h | simp
theorem resolveD_refs : ∀ kvs : List (Str × Node), RefsInD P kvs → RefsInD P (resolveInD ip link kvs)
  | [], _ => by rw [resolveInD, RefsInD]; trivial
  | (k, x) :: r, h => by
    rw [RefsInD] at h
    rw [resolveInD, RefsInD]
    exact ⟨resolve_refs x h.1, resolveD_refs r h.2⟩
end

mutual
theorem anchored_refs : ∀ n : Node, RefsIn P n → ∀ p ∈ anchoredIn ip link n, RefsIn P p.2
  | .obj kvs, h, p, hp => by
    rw [anchoredIn] at hp
    rcases List.mem_append.1 hp with hp | hp
    · rw [RefsIn] at h; exact anchoredD_refs kvs h p hp
    · split at hp
      · rw [List.mem_singleton.1 hp]; exact resolve_refs hP _ h
      · cases hp
  | .null, _, p, hp => by simp [anchoredIn] at hp
  | .bool _, _, p, hp => by simp [anchoredIn] at hp
  | .num _, _, p, hp => by simp [anchoredIn] at hp
  | .str _, _, p, hp => by simp [anchoredIn] at hp
  | .arr _, _, p, hp => by simp [anchoredIn] at hp
  | .ref .., _, p, hp => by simp [anchoredIn] at hp
theorem anchoredD_refs : ∀ kvs : List (Str × Node), RefsInD P kvs → ∀ p ∈ anchoredInD ip link kvs, RefsIn P p.2
  | [], _, p, hp => by rw [anchoredInD] at hp; cases hp
  | (k, x) :: r, h, p, hp => by
    rw [RefsInD] at h
    rw [anchoredInD] at hp
    rcases List.mem_append.1 hp with hp | hp
    · exact anchored_refs x h.1 p hp
    · exact anchoredD_refs r h.2 p hp
end
end

theorem set_sub {α : Type} {k : Str} {x : α} {p : Str × α} : ∀ {d : List (Str × α)}, p ∈ dictSet k x d → p ∈ d ∨ p.2 = x
  | [], h => by rw [dictSet, List.mem_singleton] at h; exact .inr (by rw [h])
  | q :: d, h => by
    rw [dictSet] at h
    split at h
    · rcases List.mem_cons.1 h with h | h
      · exact .inr (by rw [h])
      · exact .inl (List.mem_cons_of_mem _ h)
    · rcases List.mem_cons.1 h with h | h
      · exact .inl (by rw [h]; simp)
      · rcases set_sub h with h | h
        · exact .inl (List.mem_cons_of_mem _ h)
        · exact .inr h

theorem foldSet_refs {P : Nat → Prop} : ∀ (l acc : List (Str × Node)), (∀ p ∈ l, RefsIn P p.2) → (∀ p ∈ acc, RefsIn P p.2) →
    ∀ p ∈ l.foldl (fun acc p => dictSet p.1 p.2 acc) acc, RefsIn P p.2
  | [], _, _, h => h
  | q :: l, acc, hl, h => foldSet_refs l _ (fun p hp => hl p (List.mem_cons_of_mem _ hp)) fun p hp => by
    rcases set_sub hp with hp | hp
    · exact h p hp
    · rw [hp]; exact hl q (by simp)

/-- An object of `B`; if it is a reference, it has an object and leads to a document with `P`. -/
def Fine (m : Mem) (B P : Nat → Prop) (j : Nat) : Prop :=
  B j ∧ ∀ c n d p, m[j]? = some c → c.shape = .ref n d p → (∃ c' ids, m[n]? = some c' ∧ c'.shape = .obj ids) ∧ P d

/-- What has to have a certain shape is among the objects that matter. -/
theorem must {B : Nat → Prop} {m : Mem} {i : Nat} {c : Cell} (hc : m[i]? = some c) (Q : Cell → Prop) (h : ∀ m' : Mem, (∀ j, B j → m'[j]? = m[j]?) → ∃ c, m'[i]? = some c ∧ Q c)
    (hne : ∃ c', ¬ Q c') : B i := by
  apply Classical.byContradiction
  intro hB
  obtain ⟨c', hc'⟩ := hne
  have hlt := (List.getElem?_eq_some_iff.1 hc).1
  obtain ⟨c'', h1, h2⟩ := h (m.set i c') fun j hj => List.getElem?_set_ne (by rintro rfl; exact hB hj)
  rw [List.getElem?_set_self hlt] at h1
  cases h1
  exact hc' h2

theorem must_shape {B : Nat → Prop} {m : Mem} {i : Nat} {c : Cell} (hc : m[i]? = some c) (Q : Shape → Prop)
    (h : ∀ m' : Mem, (∀ j, B j → m'[j]? = m[j]?) → ∃ c, m'[i]? = some c ∧ Q c.shape) (hne : ¬ Q .null ∨ ¬ Q (.bool true)) : B i := by
  refine must hc (fun c => Q c.shape) h ?_
  rcases hne with h | h
  · exact ⟨⟨.null, none, []⟩, h⟩
  · exact ⟨⟨.bool true, none, []⟩, h⟩

theorem fine_leaf {B P : Nat → Prop} {m : Mem} {i j : Nat} {c : Cell} (hc : m[i]? = some c) (hB : B i)
    (h1 : ∀ xs, c.shape ≠ .arr xs) (h2 : ∀ xs, c.shape ≠ .obj xs) (h3 : ∀ n d p, c.shape ≠ .ref n d p) (hu : Under m i j) : Fine m B P j := by
  cases hu with
  | refl => exact ⟨hB, fun c' n d p hc' hs => by rw [hc] at hc'; cases hc'; exact absurd hs (h3 n d p)⟩
  | elem cell shape => rw [hc] at cell; cases cell; exact absurd shape (h1 _)
  | member cell shape => rw [hc] at cell; cases cell; exact absurd shape (h2 _)
  | own cell shape => rw [hc] at cell; cases cell; exact absurd shape (h3 _ _ _)

section
variable {B P : Nat → Prop} {m : Mem}

def ShowsLOn (A : Nat → Prop) (m : Mem) (xs : List Node) (ids : List Nat) : Prop := ∀ m' : Mem, (∀ j, A j → m'[j]? = m[j]?) → ShowsL m' xs ids

mutual
theorem under_fine : ∀ (n : Node) (i : Nat), ShowsOn B m n i → RefsIn P n → ∀ j, Under m i j → Fine m B P j
  | .null, i, h, _, j, hu => by
    obtain ⟨c, hc, hs⟩ := h.shows
    exact fine_leaf hc (must_shape hc (· = .null) (fun m' e => h m' e) (by simp)) (by simp [hs]) (by simp [hs]) (by simp [hs]) hu
  | .bool b, i, h, _, j, hu => by
    obtain ⟨c, hc, hs⟩ := h.shows
    exact fine_leaf hc (must_shape hc (· = .bool b) (fun m' e => h m' e) (by simp)) (by simp [hs]) (by simp [hs]) (by simp [hs]) hu
  | .num b, i, h, _, j, hu => by
    obtain ⟨c, hc, hs⟩ := h.shows
    exact fine_leaf hc (must_shape hc (· = .num b) (fun m' e => h m' e) (by simp)) (by simp [hs]) (by simp [hs]) (by simp [hs]) hu
  | .str b, i, h, _, j, hu => by
    obtain ⟨c, hc, hs⟩ := h.shows
    exact fine_leaf hc (must_shape hc (· = .str b) (fun m' e => h m' e) (by simp)) (by simp [hs]) (by simp [hs]) (by simp [hs]) hu
  | .arr xs, i, h, hr, j, hu => by
    have h0 := h.shows
    rw [Shows] at h0
    obtain ⟨c, ids, hc, hs, -⟩ := h0
    have hB : B i := must_shape hc (fun sh => ∃ ids, sh = .arr ids)
      (fun m' e => by have := h m' e; rw [Shows] at this; obtain ⟨c, ids, a, b, -⟩ := this; exact ⟨c, a, ids, b⟩) (by simp)
    have hd : ShowsLOn B m xs ids := fun m' e => by
      have := h m' e
      rw [Shows] at this
      obtain ⟨c', ids', a, b, d⟩ := this
      rw [e i hB, hc] at a; cases a
      rw [hs] at b; cases b
      exact d
    rw [RefsIn] at hr
    cases hu with
    | refl => exact ⟨hB, fun c' n d p hc' hs' => by rw [hc] at hc'; cases hc'; rw [hs] at hs'; cases hs'⟩
    | elem cell shape mem rest => rw [hc] at cell; cases cell; rw [hs] at shape; cases shape; exact underL_fine xs ids hd hr _ mem j rest
    | member cell shape => rw [hc] at cell; cases cell; rw [hs] at shape; cases shape
    | own cell shape => rw [hc] at cell; cases cell; rw [hs] at shape; cases shape
  | .obj kvs, i, h, hr, j, hu => by
    have h0 := h.shows
    rw [Shows] at h0
    obtain ⟨c, ids, hc, hs, -⟩ := h0
    have hB : B i := must_shape hc (fun sh => ∃ ids, sh = .obj ids)
      (fun m' e => by have := h m' e; rw [Shows] at this; obtain ⟨c, ids, a, b, -⟩ := this; exact ⟨c, a, ids, b⟩) (by simp)
    have hd : ShowsDOn B m kvs ids := fun m' e => by
      have := h m' e
      rw [Shows] at this
      obtain ⟨c', ids', a, b, d⟩ := this
      rw [e i hB, hc] at a; cases a
      rw [hs] at b; cases b
      exact d
    rw [RefsIn] at hr
    cases hu with
    | refl => exact ⟨hB, fun c' n d p hc' hs' => by rw [hc] at hc'; cases hc'; rw [hs] at hs'; cases hs'⟩
    | elem cell shape => rw [hc] at cell; cases cell; rw [hs] at shape; cases shape
    | member cell shape mem rest => rw [hc] at cell; cases cell; rw [hs] at shape; cases shape; exact underD_fine kvs ids hd hr _ _ mem j rest
    | own cell shape => rw [hc] at cell; cases cell; rw [hs] at shape; cases shape
  | .ref own d p, i, h, hr, j, hu => by
    have h0 := h.shows
    rw [Shows] at h0
    obtain ⟨c, n, c', ids, hc, hs, hc', hs', -⟩ := h0
    have hB : B i := must_shape hc (fun sh => ∃ n, sh = .ref n d p)
      (fun m' e => by have := h m' e; rw [Shows] at this; obtain ⟨c, n, c', ids, a, b, -⟩ := this; exact ⟨c, a, n, b⟩) (by simp)
    have hn : ∀ m' : Mem, (∀ j, B j → m'[j]? = m[j]?) → ∃ c' ids, m'[n]? = some c' ∧ c'.shape = .obj ids ∧ ShowsD m' own ids := fun m' e => by
      have := h m' e
      rw [Shows] at this
      obtain ⟨c1, n1, c2, ids1, a, b, a', b', g⟩ := this
      rw [e i hB, hc] at a; cases a
      rw [hs] at b; cases b
      exact ⟨c2, ids1, a', b', g⟩
    have hBn : B n := must_shape hc' (fun sh => ∃ ids, sh = .obj ids) (fun m' e => by obtain ⟨c, ids, a, b, -⟩ := hn m' e; exact ⟨c, a, ids, b⟩) (by simp)
    have hd : ShowsDOn B m own ids := fun m' e => by
      obtain ⟨c1, ids', a, b, d⟩ := hn m' e
      rw [e n hBn, hc'] at a; cases a
      rw [hs'] at b; cases b
      exact d
    rw [RefsIn] at hr
    cases hu with
    | refl => exact ⟨hB, fun c1 n1 d1 p1 hc1 hs1 => by rw [hc] at hc1; cases hc1; rw [hs] at hs1; cases hs1; exact ⟨⟨c', ids, hc', hs'⟩, hr.1⟩⟩
    | elem cell shape => rw [hc] at cell; cases cell; rw [hs] at shape; cases shape
    | member cell shape => rw [hc] at cell; cases cell; rw [hs] at shape; cases shape
    | own cell shape rest =>
      rw [hc] at cell; cases cell; rw [hs] at shape; cases shape
      cases rest with
      | refl => exact ⟨hBn, fun c1 n1 d1 p1 hc1 hs1 => by rw [hc'] at hc1; cases hc1; rw [hs'] at hs1; cases hs1⟩
      | elem cell shape => rw [hc'] at cell; cases cell; rw [hs'] at shape; cases shape
      | member cell shape mem rest => rw [hc'] at cell; cases cell; rw [hs'] at shape; cases shape; exact underD_fine own ids hd hr.2 _ _ mem j rest
      | own cell shape => rw [hc'] at cell; cases cell; rw [hs'] at shape; cases shape
theorem underL_fine : ∀ (xs : List Node) (ids : List Nat), ShowsLOn B m xs ids → RefsInL P xs → ∀ x ∈ ids, ∀ j, Under m x j → Fine m B P j
  | [], ids, h, _, x, hx, _, _ => by have := h m fun _ _ => rfl; rw [ShowsL] at this; subst this; cases hx
  | n :: xs, ids, h, hr, x, hx, j, hu => by
    have h0 := h m fun _ _ => rfl
    rw [ShowsL] at h0
    obtain ⟨i, rest, rfl, -, -⟩ := h0
    have h1 : ShowsOn B m n i := fun m' e => by have := h m' e; rw [ShowsL] at this; obtain ⟨i', r', e', a, -⟩ := this; cases e'; exact a
    have h2 : ShowsLOn B m xs rest := fun m' e => by have := h m' e; rw [ShowsL] at this; obtain ⟨i', r', e', -, a⟩ := this; cases e'; exact a
    rw [RefsInL] at hr
    rcases List.mem_cons.1 hx with rfl | hx
    · exact under_fine n _ h1 hr.1 j hu
    · exact underL_fine xs rest h2 hr.2 x hx j hu
theorem underD_fine : ∀ (xs : List (Str × Node)) (ids : List (Str × Nat)), ShowsDOn B m xs ids → RefsInD P xs → ∀ k x, (k, x) ∈ ids → ∀ j, Under m x j → Fine m B P j
  | [], ids, h, _, k, x, hx, _, _ => by have := h m fun _ _ => rfl; rw [ShowsD] at this; subst this; cases hx
  | (k', n) :: xs, ids, h, hr, k, x, hx, j, hu => by
    have h0 := h m fun _ _ => rfl
    rw [ShowsD] at h0
    obtain ⟨i, rest, rfl, -, -⟩ := h0
    have h1 : ShowsOn B m n i := fun m' e => by have := h m' e; rw [ShowsD] at this; obtain ⟨i', r', e', a, -⟩ := this; cases e'; exact a
    have h2 : ShowsDOn B m xs rest := fun m' e => by have := h m' e; rw [ShowsD] at this; obtain ⟨i', r', e', -, a⟩ := this; cases e'; exact a
    rw [RefsInD] at hr
    rcases List.mem_cons.1 hx with hx | hx
    · cases hx; exact under_fine n _ h1 hr.1 j hu
    · exact underD_fine xs rest h2 hr.2 k x hx j hu
end
end

theorem InView.under {s : St} {i : Nat} (h : InView s i) : ∃ (d : Nat) (x : Schema) (r : Nat), s.docs[d]? = some x ∧ x.ready = true ∧ (r = x.value ∨ ∃ k, (k, r) ∈ x.anchors) ∧ Under s.mem r i := by
  induction h with
  | value doc ready => exact ⟨_, _, _, doc, ready, .inl rfl, .refl _⟩
  | anchor doc ready mem => exact ⟨_, _, _, doc, ready, .inr ⟨_, mem⟩, .refl _⟩
  | elem _ cell shape mem ih => obtain ⟨d, x, r, a, b, c, e⟩ := ih; exact ⟨d, x, r, a, b, c, e.trans (.elem cell shape mem (.refl _))⟩
  | member _ cell shape mem ih => obtain ⟨d, x, r, a, b, c, e⟩ := ih; exact ⟨d, x, r, a, b, c, e.trans (.member cell shape mem (.refl _))⟩
  | own _ cell shape ih => obtain ⟨d, x, r, a, b, c, e⟩ := ih; exact ⟨d, x, r, a, b, c, e.trans (.own cell shape (.refl _))⟩

/-- What is in view belongs to a loaded schema. -/
theorem Web.inView {ip : Rfc3986.IpRe} {data : List (List (Str × Val))} {A : Nat → Nat → Prop} {s : St} (hw : Web ip none data A s) {i : Nat} (h : InView s i) :
    ∃ (d : Nat) (x : Schema), s.docs[d]? = some x ∧ x.ready = true ∧ Fine s.mem (A d) (· < s.docs.length) i := by
  obtain ⟨d, x, r, hx, hr, hroot, hu⟩ := h.under
  have hlt := (List.getElem?_eq_some_iff.1 hx).1
  have hlen := hw.length
  obtain ⟨kvs, hk⟩ : ∃ kvs, data[d]? = some kvs := ⟨_, List.getElem?_eq_getElem (by omega)⟩
  obtain ⟨-, ⟨-, -, -, h4, h5⟩ | ⟨h0, -⟩⟩ := hw.doc d x kvs hx hk (by simp)
  · have hP : ∀ t, refDoc ip s.storage d t < s.docs.length := by
      intro t
      unfold refDoc
      split
      · split
        · split
          · exact hlt
          · rename_i k _ _
            cases hg : dictGet k s.storage with
            | none => exact hlt
            | some e => have := hw.store k e hg; simp only [Option.getD_some]; omega
        · exact hlt
      · exact hlt
    refine ⟨d, x, hx, hr, ?_⟩
    rcases hroot with rfl | ⟨k, hkr⟩
    · exact under_fine _ _ h4 (resolve_refs hP _ (wrap_refs _ _)) i hu
    · refine underD_fine _ _ h5 (refsInD_iff.2 ?_) k r hkr i hu
      exact foldSet_refs _ _ (anchored_refs hP _ (wrap_refs _ _)) fun p hp => by cases hp
  · rw [hr] at h0; cases h0

theorem Web.whole {ip : Rfc3986.IpRe} {data : List (List (Str × Val))} {A : Nat → Nat → Prop} {s : St} (hw : Web ip none data A s) : Whole s := by
  refine ⟨fun hi hc hs => ?_, fun hi hc hs => ?_⟩
  · obtain ⟨d, x, -, -, -, h⟩ := hw.inView hi
    exact (h _ _ _ _ hc hs).1
  · obtain ⟨d, x, -, -, -, h⟩ := hw.inView hi
    exact (h _ _ _ _ hc hs).2

/-! ## Programs that load on their way -/

section
variable {E : Env} {voc : List Kw} {lib : Str → List (Str × Val) → Prop} {made : List (Nat × List (Str × Val))} {data : List (List (Str × Val))} {A : Nat → Nat → Prop}

theorem WebHolds.after (hlib : ∀ k kvs, lib k kvs → WebDoc E.ip E.file lib kvs) {s : St} (h : WebHolds E voc lib made data A s) {d : Nat} (hd : d < s.docs.length) :
    ∃ data' A' s', After E s d s' ∧ WebHolds E voc lib made data' A' s' := by
  obtain ⟨data', A', s', h1, h2, h3, h4, -, h5, -⟩ := h.load hlib hd
  refine ⟨data', A', s', ⟨h1, h3, fun i hi => ?_, h4⟩, h2⟩
  obtain ⟨e, x, hx, hr, hf⟩ := h.web.inView hi
  exact h5 e i x hx hr hf.1

/-- Loading keeps what is loaded. -/
theorem loadsSome_keeps (hvoc : (voc.filter fun k => !k.isAssertion) = [.ref, .anchor, .id]) (hlib : ∀ k kvs, lib k kvs → WebDoc E.ip E.file lib kvs) {s s' : St}
    (hs : LoadsSome E s s') : Reached E voc lib made s → Keeps s s' ∧ Reached E voc lib made s' := by
  induction hs with
  | nil s => exact fun h => ⟨.refl s, h⟩
  | cons there load _ ih =>
    intro h
    obtain ⟨data, A, hh⟩ := reached_holds hvoc hlib h
    obtain ⟨data', A', s1, h1, h2⟩ := hh.after hlib there
    obtain ⟨-, rfl⟩ := Runs.det load h1.load
    obtain ⟨k, r⟩ := ih (.load h there load)
    exact ⟨h1.keeps.trans k, r⟩

theorem LoadsSome.trans {a b c : St} (h : LoadsSome E a b) (h' : LoadsSome E b c) : LoadsSome E a c := by
  induction h with
  | nil => exact h'
  | cons there load _ ih => exact .cons there load (ih h')

/-- The number of schemas that are not loaded, up to `n`. -/
def unloaded (s : St) (n : Nat) : Nat := ((List.range n).filter fun d => match s.docs[d]? with | some x => !x.ready | none => true).length

theorem unloaded_lt {s s' : St} {n d : Nat} (hk : ∀ (d : Nat) (x : Schema), s.docs[d]? = some x → x.ready = true → s'.docs[d]? = some x) (hd : d < n)
    (h0 : ¬ ∃ x : Schema, s.docs[d]? = some x ∧ x.ready = true) (h1 : ∃ x : Schema, s'.docs[d]? = some x ∧ x.ready = true) : unloaded s' n < unloaded s n := by
  unfold unloaded
  have key : ∀ l : List Nat, ∀ p q : Nat → Bool, (∀ x, q x = true → p x = true) → ((l.filter q).length ≤ (l.filter p).length) ∧
      (∀ d ∈ l, p d = true → q d = false → (l.filter q).length < (l.filter p).length) := by
    intro l p q hpq
    induction l with
    | nil => exact ⟨Nat.le_refl _, fun d h => by cases h⟩
    | cons a l ih =>
      have ha := hpq a
      refine ⟨?_, fun d hd hp hq => ?_⟩
      · simp only [List.filter_cons]
        cases hqa : q a <;> cases hpa : p a <;> simp_all <;> omega
      · simp only [List.filter_cons]
        rcases List.mem_cons.1 hd with rfl | hd
        · simp only [hp, hq, if_true, Bool.false_eq_true, if_false, List.length_cons]; omega
        · have := ih.2 d hd hp hq
          cases hqa : q a <;> cases hpa : p a <;> simp_all <;> omega
  refine (key _ _ _ fun d hd => ?_).2 d (List.mem_range.2 hd) ?_ ?_
  · cases hx : s.docs[d]? with
    | none => rfl
    | some x =>
      cases hr : x.ready with
      | false => simp [hr]
      | true => rw [hk d x hx hr] at hd; simp [hr] at hd
  · cases hx : s.docs[d]? with
    | none => rfl
    | some x =>
      cases hr : x.ready with
      | false => simp [hr]
      | true => exact absurd ⟨x, hx, hr⟩ h0
  · obtain ⟨x, hx, hr⟩ := h1
    simp [hx, hr]

theorem reached_bound (hvoc : (voc.filter fun k => !k.isAssertion) = [.ref, .anchor, .id]) (hlib : ∀ k kvs, lib k kvs → WebDoc E.ip E.file lib kvs) {ks : List Str}
    (hks : ∀ k kvs, lib k kvs → k ∈ ks) {s : St} (h : Reached E voc lib made s) : s.docs.length ≤ made.length + ks.length := by
  obtain ⟨data, A, hh⟩ := reached_holds hvoc hlib h
  have := hh.room
  have h2 : s.storage.length ≤ ks.length := by
    have := hh.nodup.length_le_of_subset (l₂ := ks) fun k hk => by
      obtain ⟨⟨k', e⟩, hp, rfl⟩ := List.mem_map.1 hk
      obtain ⟨v, -, hv⟩ := hh.stored k' e (dictGet_of_mem hh.nodup hp)
      exact hks _ _ hv
    simpa using this
  omega

theorem loadsSome_length (hvoc : (voc.filter fun k => !k.isAssertion) = [.ref, .anchor, .id]) (hlib : ∀ k kvs, lib k kvs → WebDoc E.ip E.file lib kvs) {s s' : St}
    (hs : LoadsSome E s s') : Reached E voc lib made s → s.docs.length ≤ s'.docs.length := by
  induction hs with
  | nil s => exact fun _ => Nat.le_refl _
  | cons there load _ ih =>
    intro h
    obtain ⟨data, A, hh⟩ := reached_holds hvoc hlib h
    obtain ⟨data', A', s1, h1, -, -, -, -, -, h2⟩ := hh.load hlib there
    obtain ⟨-, rfl⟩ := Runs.det load h1
    exact Nat.le_trans h2 (ih (.load h there load))

/-- A program that reads objects, loading schemas on its way: there are schemas such that it does what it does when they are loaded before, and leaves the
state in which they are; and whatever else happens to the state, as long as it keeps these, makes no difference. -/
theorem loads_keep {α : Type} (hvoc : (voc.filter fun k => !k.isAssertion) = [.ref, .anchor, .id]) (hlib : ∀ k kvs, lib k kvs → WebDoc E.ip E.file lib kvs) (N : Nat)
    (hN : ∀ s, Reached E voc lib made s → s.docs.length ≤ N) (X : Nat → M α) (P : St → α → Prop) (W : St → Nat → Want α) (s0 : St)
    (hX : ∀ s, Reached E voc lib made s → LoadsSome E s0 s → ∀ f, Does E s f X (P s) (W s f)) :
    ∀ n s, unloaded s N ≤ n → Reached E voc lib made s → LoadsSome E s0 s → ∃ s1, LoadsSome E s s1 ∧ Reached E voc lib made s1 ∧ ∃ h0, ∀ h, h0 ≤ h → ∀ s2, Keeps s1 s2 →
      X h s = ((X h s2).1, s1) ∧ (X h s2).2 = s2 ∧ ∀ a, (X h s2).1 = .ok a → P s1 a := by
  intro n
  induction n with
  | zero =>
    intro s hn hr hl
    refine ⟨s, .nil s, hr, 0, fun h _ s2 hs2 => ?_⟩
    have hx := hX s hr hl h
    generalize W s h = w at hx
    match w, hx with
    | .need d, hx =>
      obtain ⟨data, A, hh⟩ := reached_holds hvoc hlib hr
      obtain ⟨data', A', s', h1, h2⟩ := hh.after hlib hx.1.1
      have := unloaded_lt h1.keeps.docs (Nat.lt_of_lt_of_le hx.1.1 (hN s hr)) hx.1.2 h1.ready
      omega
    | .got y, ⟨a1, _, a3⟩ =>
      rw [a1 s (.refl s), a1 s2 hs2]
      exact ⟨rfl, rfl, a3⟩
  | succ n ih =>
    intro s hn hr hl
    by_cases hneed : ∃ f d, W s f = .need d
    · obtain ⟨f, d, hfd⟩ := hneed
      have hx := hX s hr hl f
      rw [hfd] at hx
      obtain ⟨data, A, hh⟩ := reached_holds hvoc hlib hr
      obtain ⟨data', A', s', h1, h2⟩ := hh.after hlib hx.1.1
      have hlt := unloaded_lt h1.keeps.docs (Nat.lt_of_lt_of_le hx.1.1 (hN s hr)) hx.1.2 h1.ready
      have step : LoadsSome E s s' := .cons hx.1.1 h1.load (.nil _)
      obtain ⟨s1, g1, g2, h0, g3⟩ := ih s' (by omega) (.load hr hx.1.1 h1.load) (hl.trans step)
      obtain ⟨k0, hk⟩ := hx.2 s' h1
      refine ⟨s1, step.trans g1, g2, max h0 k0, fun h hle s2 hs2 => ?_⟩
      rw [hk h (by omega)]
      exact g3 h (by omega) s2 hs2
    · refine ⟨s, .nil s, hr, 0, fun h _ s2 hs2 => ?_⟩
      have hx := hX s hr hl h
      have hne : ∀ d, W s h ≠ .need d := fun d e => hneed ⟨h, d, e⟩
      generalize W s h = w at hx hne
      match w, hx with
      | .need d, _ => exact absurd rfl (hne d)
      | .got y, ⟨a1, _, a3⟩ =>
        rw [a1 s (.refl s), a1 s2 hs2]
        exact ⟨rfl, rfl, a3⟩

/-- In particular, more loaded schemas make no difference. -/
theorem loads_then {α : Type} (hvoc : (voc.filter fun k => !k.isAssertion) = [.ref, .anchor, .id]) (hlib : ∀ k kvs, lib k kvs → WebDoc E.ip E.file lib kvs) (N : Nat)
    (hN : ∀ s, Reached E voc lib made s → s.docs.length ≤ N) (X : Nat → M α) (P : St → α → Prop) (W : St → Nat → Want α) (s0 : St)
    (hX : ∀ s, Reached E voc lib made s → LoadsSome E s0 s → ∀ f, Does E s f X (P s) (W s f)) (n : Nat) (s : St) (hn : unloaded s N ≤ n) (hr : Reached E voc lib made s)
    (hl : LoadsSome E s0 s) : ∃ s1, LoadsSome E s s1 ∧ Reached E voc lib made s1 ∧ ∃ h0, ∀ h, h0 ≤ h → ∀ s2, LoadsSome E s1 s2 →
      X h s = ((X h s2).1, s1) ∧ (X h s2).2 = s2 ∧ ∀ a, (X h s2).1 = .ok a → P s1 a := by
  obtain ⟨s1, h1, h2, h0, h3⟩ := loads_keep hvoc hlib N hN X P W s0 hX n s hn hr hl
  exact ⟨s1, h1, h2, h0, fun h hle s2 hs2 => h3 h hle s2 (loadsSome_keeps hvoc hlib hs2 h2).1⟩

theorem Web.keeps {ip : Rfc3986.IpRe} {s s' : St} (hw : Web ip none data A s) {ext : List Obj.Cell} {more : List Schema} (hm : s'.mem = s.mem ++ ext) (hd : s'.docs = s.docs ++ more) :
    Keeps s s' := by
  refine ⟨fun i hi => ?_, fun d x hx _ => ?_⟩
  · obtain ⟨e, x, -, -, hf⟩ := hw.inView hi
    rw [hm, List.getElem?_append_left (hw.room e i hf.1).1]
  · rw [hd, List.getElem?_append_left (List.getElem?_eq_some_iff.1 hx).1]
    exact hx

/-- New documents leave what is there. -/
theorem create_keeps (hvoc : (voc.filter fun k => !k.isAssertion) = [.ref, .anchor, .id]) (hlib : ∀ k kvs, lib k kvs → WebDoc E.ip E.file lib kvs) {s s' : St}
    (h : Reached E voc lib made s) {kvs : List (Str × Val)} {d : Nat} (call : newDocument (.dict kvs) voc s = (.ok d, s')) : Keeps s s' := by
  obtain ⟨data, A, hh⟩ := reached_holds hvoc hlib h
  obtain ⟨ext, -, e⟩ := newDocument_spec (.inr ⟨kvs, rfl⟩) voc s
  rw [call] at e
  cases e
  exact hh.web.keeps rfl rfl

theorem find_keeps (hvoc : (voc.filter fun k => !k.isAssertion) = [.ref, .anchor, .id]) (hlib : ∀ k kvs, lib k kvs → WebDoc E.ip E.file lib kvs) {s s' : St}
    (h : Reached E voc lib made s) {u : Uri} {k : Str} {kvs : List (Str × Val)} {x : Res Nat} (name : Store.baseText E.ip u = .ok k) (file : E.file u = .ok (.dict kvs))
    (call : storeLoad E u voc s = (x, s')) : Keeps s s' := by
  obtain ⟨data, A, hh⟩ := reached_holds hvoc hlib h
  have hbt : (lift (Store.baseText E.ip u) : M Str) s = (.ok k, s) := by rw [name]; rfl
  unfold storeLoad at call
  rw [M.bind_ok hbt, M.bind_ok (state_apply s)] at call
  cases hs : dictGet k s.storage with
  | some e =>
    simp only [hs] at call
    cases call
    exact .refl _
  | none =>
    obtain ⟨ext, -, e⟩ := newDocument_spec (.inr ⟨kvs, rfl⟩) voc s
    simp only [hs, file] at call
    rw [M.bind_ok e, M.bind_ok (state_apply _)] at call
    cases call
    exact hh.web.keeps rfl rfl

theorem load_keeps (hvoc : (voc.filter fun k => !k.isAssertion) = [.ref, .anchor, .id]) (hlib : ∀ k kvs, lib k kvs → WebDoc E.ip E.file lib kvs) {s s' : St}
    (h : Reached E voc lib made s) {d : Nat} {x : Res Unit} (there : d < s.docs.length) (call : ∃ f0, ∀ f, f0 ≤ f → (ops E f).load d s = (x, s')) : Keeps s s' := by
  obtain ⟨data, A, hh⟩ := reached_holds hvoc hlib h
  obtain ⟨data', A', s1, h1, -⟩ := hh.after hlib there
  obtain ⟨-, rfl⟩ := Runs.det call h1.load
  exact h1.keeps
end

end Verif.Obj
