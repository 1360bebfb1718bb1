import Verif.Proofs.Bridge
/-! # Reading loaded documents while another one is being loaded -/

namespace Verif.Obj
open Verif

section
variable {α β : Type}

/-- If `y` returns, so does the program, and leaves the state. -/
def RdOk (s : St) (x : M α) (y : Res α) : Prop := ∀ a, y = .ok a → x s = (.ok a, s)

theorem RdOk.bind {s : St} {x : M α} {y : Res α} {g : α → M β} {h : α → Res β} (hx : RdOk s x y) (hg : ∀ a, RdOk s (g a) (h a)) :
    RdOk s (x >>= g) (y >>= h) := by
  intro b hb
  cases y with
  | ok a => rw [Res.ok_bind] at hb; rw [M.bind_ok (hx a rfl)]; exact hg a b hb
  | err e => cases hb
  | timeout => cases hb

theorem RdOk.pure {s : St} (a : α) : RdOk s (Pure.pure a) (.ok a) := fun b hb => by cases hb; rfl
theorem RdOk.lift {s : St} (y : Res α) : RdOk s (lift y) y := fun b hb => by cases hb; rfl
theorem RdOk.raise {s : St} (e e' : PyErr) : RdOk s (raise e : M α) (.err e') := fun b hb => by cases hb
end

structure ROps.Sub (s : St) (o : Ops) (r : ROps) : Prop where
  kind : ∀ i, RdOk s (o.kind i) (r.kind i)
  members : ∀ i, RdOk s (o.members i) (r.members i)
  elems : ∀ i, RdOk s (o.elems i) (r.elems i)
  query : ∀ d p, RdOk s (o.query d p) (r.query d p)

/-- The loaded documents of `s` that come first. -/
structure Prefix (s0 s : St) : Prop where
  mem : s0.mem = s.mem
  docs : ∀ (d : Nat) x, s0.docs[d]? = some x → s.docs[d]? = some x

theorem Prefix.cell {s0 s : St} (hp : Prefix s0 s) (i : Nat) : RdOk s (Obj.cell i) (cellOf s0 i) := by
  intro c hc
  unfold cellOf at hc
  rw [hp.mem] at hc
  unfold Obj.cell
  cases h : s.mem[i]? with
  | none => simp [h] at hc
  | some c' => simp only [h, Res.ok.injEq] at hc; rw [hc]

theorem Prefix.ready {s0 s : St} (hp : Prefix s0 s) {d : Nat} {x : Schema} (h : readyOf s0 d = .ok x) : s.docs[d]? = some x ∧ x.ready = true := by
  unfold readyOf at h
  cases hd : s0.docs[d]? with
  | none => simp [hd] at h
  | some y =>
    simp only [hd] at h
    split at h
    · cases h; exact ⟨hp.docs d _ hd, by assumption⟩
    · cases h

section
variable {s0 s : St} {o : Ops} {r : ROps} (hp : Prefix s0 s) (h : ROps.Sub s o r)
include hp h

theorem kind_sub (i : Nat) : RdOk s (kindS o i) (kindR s0 r i) := by
  refine (hp.cell i).bind fun c => ?_
  obtain ⟨sh, p, k⟩ := c
  cases sh <;> first | exact RdOk.pure _ | exact (h.query _ _).bind fun x => h.kind x

theorem members_sub (i : Nat) : RdOk s (membersS o i) (membersR s0 r i) := by
  refine (hp.cell i).bind fun c => ?_
  obtain ⟨sh, p, k⟩ := c
  cases sh with
  | obj kvs => exact RdOk.pure _
  | ref n d p =>
    intro a ha
    cases hd : readyOf s0 d with
    | err e => simp only [hd] at ha; cases ha
    | timeout => simp only [hd] at ha; cases ha
    | ok x =>
      simp only [hd, Res.ok_bind] at ha
      obtain ⟨h1, h2⟩ := hp.ready hd
      change (schema d >>= fun x => if (!x.ready) = true then o.members n else _) s = _
      rw [M.bind_ok (schema_apply h1), if_neg (by simp [h2])]
      refine ((h.query _ _).bind fun x => (h.kind x).bind fun k => ?_) a ha
      by_cases hk : k ≠ .object
      · rw [if_pos hk, if_pos hk]; exact RdOk.raise _ _
      · rw [if_neg hk, if_neg hk]; exact (h.members _).bind fun a => (h.members _).bind fun b => RdOk.pure _
  | _ => exact RdOk.raise _ _

theorem elems_sub (i : Nat) : RdOk s (elemsS o i) (elemsR s0 r i) := by
  refine (hp.cell i).bind fun c => ?_
  obtain ⟨sh, p, k⟩ := c
  cases sh with
  | arr xs => exact RdOk.pure _
  | ref n d p =>
    intro a ha
    cases hd : readyOf s0 d with
    | err e => simp only [hd] at ha; cases ha
    | timeout => simp only [hd] at ha; cases ha
    | ok x =>
      simp only [hd, Res.ok_bind] at ha
      obtain ⟨h1, h2⟩ := hp.ready hd
      change (schema d >>= fun x => if (!x.ready) = true then raise .keyError else _) s = _
      rw [M.bind_ok (schema_apply h1), if_neg (by simp [h2])]
      exact ((h.query _ _).bind fun x => h.elems x) a ha
  | _ => exact RdOk.raise _ _

omit h in
theorem intIn_sub (i : Int) : ∀ xs, RdOk s (intIn i xs) (intInOf s0 i xs)
  | [] => RdOk.pure _
  | x :: xs => by
    refine (hp.cell x).bind fun c => ?_
    obtain ⟨sh, p, k⟩ := c
    cases sh with
    | num n =>
      simp only
      by_cases hn : n.eq (.fin i) = true
      · rw [if_pos hn, if_pos hn]; exact RdOk.pure _
      · rw [if_neg hn, if_neg hn]; exact intIn_sub i xs
    | bool b => exact RdOk.raise _ _
    | ref n d p => exact RdOk.raise _ _
    | _ => exact intIn_sub i xs

theorem walk_sub (ks : List Str) : ∀ n, RdOk s (walk o n ks) (walkR s0 r n ks) := by
  induction ks with
  | nil => exact fun n => RdOk.pure _
  | cons k ks ih =>
    intro n
    refine (h.kind n).bind fun t => ?_
    cases t with
    | array =>
      refine (hp.cell n).bind fun c => ?_
      obtain ⟨sh, p, k'⟩ := c
      cases sh with
      | arr xs =>
        simp only
        by_cases ha : (!isAscii k) = true
        · rw [if_pos ha, if_pos ha]; exact RdOk.raise _ _
        · rw [if_neg ha, if_neg ha]
          cases pyInt k with
          | none => exact RdOk.raise _ _
          | some i => exact (RdOk.lift _).bind fun x => ih x
      | _ =>
        simp only
        by_cases ha : (!isAscii k) = true
        · rw [if_pos ha, if_pos ha]; exact RdOk.raise _ _
        · rw [if_neg ha, if_neg ha]
          cases pyInt k with
          | none => exact RdOk.raise _ _
          | some i =>
            refine (h.elems n).bind fun xs => (intIn_sub hp i xs).bind fun b => ?_
            cases b
            · exact RdOk.raise _ _
            · exact (RdOk.lift _).bind fun x => ih x
    | object =>
      have : RdOk s (item o n k) (do match dictGet k (← r.members n) with | some x => .ok x | none => .err .keyError) := by
        refine (h.members n).bind fun kvs => ?_
        cases dictGet k kvs with
        | none => exact RdOk.raise _ _
        | some x => exact RdOk.pure _
      have e := this.bind (g := fun x => walk o x ks) ih
      have e2 : (do match dictGet k (← r.members n) with | some x => walkR s0 r x ks | none => .err .keyError) =
          ((do match dictGet k (← r.members n) with | some x => .ok x | none => .err .keyError) >>= fun x => walkR s0 r x ks) := by
        cases r.members n with
        | ok kvs => simp only [Res.ok_bind]; cases dictGet k kvs <;> rfl
        | _ => rfl
      exact fun a ha => e a (e2.symm.trans ha)
    | _ => exact RdOk.raise _ _
end

theorem ropsOf_sub (E : Env) {s0 s : St} (hp : Prefix s0 s) : ∀ f, ROps.Sub s (ops E f) (ropsOf s0 f) := by
  intro f
  induction f with
  | zero => exact ⟨fun _ _ h => (by cases h), fun _ _ h => (by cases h), fun _ _ h => (by cases h), fun _ _ _ h => (by cases h)⟩
  | succ f ih =>
    refine ⟨kind_sub hp ih, members_sub hp ih, elems_sub hp ih, fun d p a ha => ?_⟩
    cases f with
    | zero => cases ha
    | succ f =>
      change queryR s0 (ropsOf s0 (f + 1)) d p = _ at ha
      change queryS (ops E (f + 1)) d p s = _
      cases hd : readyOf s0 d with
      | err e => simp only [queryR, hd] at ha; cases ha
      | timeout => simp only [queryR, hd] at ha; cases ha
      | ok x =>
        obtain ⟨h1, h2⟩ := hp.ready hd
        unfold queryS
        rw [M.bind_ok (load_again h1 h2), M.bind_ok (schema_apply h1)]
        have hl : (ropsOf s0 (f + 1)).load = .ok () := rfl
        simp only [queryR, hd, hl, Res.ok_bind] at ha
        match p, ha with
        | [k], ha =>
          simp only at ha ⊢
          cases hk : dictGet k x.anchors with
          | some n => rw [hk] at ha; exact RdOk.pure _ _ ha
          | none =>
            rw [hk] at ha
            simp only at ha ⊢
            by_cases hk : k = []
            · rw [if_pos hk] at ha ⊢; exact RdOk.pure _ _ ha
            · rw [if_neg hk] at ha ⊢; exact walk_sub hp ih _ _ _ ha
        | [], ha => exact walk_sub hp ih _ _ _ ha
        | a :: b :: c, ha => exact walk_sub hp ih _ _ _ ha

end Verif.Obj
