import Verif.Proofs.Validating
import Verif.Proofs.OpsMono
/-! # Validation on the objects: more fuel gives the same outcome and the same state -/

set_option linter.unusedSimpArgs false

namespace Verif
open Prog

section
variable {α β γ : Type}

/-- The second program is the first, perhaps continued where the first runs out of fuel. -/
def Prog.Le : Prog α β → Prog α β → Prop
  | .done .timeout, _ => True
  | .done (.ok b), q => q = .done (.ok b)
  | .done (.err e), q => q = .done (.err e)
  | .call a v c k, q => ∃ k', q = .call a v c k' ∧ ∀ r, Prog.Le (k r) (k' r)

theorem Prog.Le.of_done {r : Res β} {q : Prog α β} (h : Prog.Le (.done r) q) (hr : r ≠ .timeout) : q = .done r := by
  cases r with
  | timeout => exact absurd rfl hr
  | _ => exact h

theorem Prog.Le.refl (p : Prog α β) : p.Le p := by
  induction p with
  | done r => cases r <;> simp [Prog.Le]
  | call a v c k ih => exact ⟨k, rfl, ih⟩

theorem Prog.Le.trans {p q r : Prog α β} (h : p.Le q) (h' : q.Le r) : p.Le r := by
  induction p generalizing q r with
  | done x =>
    cases x with
    | timeout => exact trivial
    | ok b => rw [h.of_done (by simp)] at h'; exact h'
    | err e => rw [h.of_done (by simp)] at h'; exact h'
  | call a v c k ih =>
    obtain ⟨k', rfl, hk⟩ := h
    obtain ⟨k'', rfl, hk'⟩ := h'
    exact ⟨k'', rfl, fun x => ih x (hk x) (hk' x)⟩

theorem Prog.Le.bind {p p' : Prog α β} {g g' : β → Prog α γ} (h : p.Le p') (hg : ∀ b, (g b).Le (g' b)) : (p.bind g).Le (p'.bind g') := by
  induction p generalizing p' with
  | done x =>
    cases x with
    | timeout => exact trivial
    | ok b => rw [h.of_done (by simp)]; exact hg b
    | err e => rw [h.of_done (by simp)]; exact rfl
  | call a v c k ih =>
    obtain ⟨k', rfl, hk⟩ := h
    exact ⟨_, rfl, fun x => ih x (hk x)⟩

theorem spinP_le (p : α) (ctx : Ctx) (f : Nat) : (spinP p ctx f).Le (spinP p ctx (f + 1)) := by
  induction f with
  | zero => exact trivial
  | succ f ih =>
    refine ⟨_, rfl, fun r => ?_⟩
    cases r with
    | ok _ => exact ih
    | err e => exact rfl
    | timeout => exact trivial

theorem arrayP_le (f : Nat) (items : Option α) (ctx : Ctx) (i : Nat) (ps : List α) (xs : List Val) :
    (arrayP f items ctx i ps xs).Le (arrayP (f + 1) items ctx i ps xs) := by
  induction ps generalizing i xs with
  | nil => exact .refl _
  | cons p ps ih =>
    cases xs with
    | nil => exact spinP_le ..
    | cons x xs => exact (Prog.Le.refl _).bind fun _ => ih _ _

theorem prog_le_succ (w : World) (f : Nat) (x : V α) (v : Val) (ctx : Ctx) : (prog w f x v ctx).Le (prog w (f + 1) x v ctx) := by
  cases x with
  | array pre items =>
    cases v with
    | list xs => exact arrayP_le ..
    | _ => exact .refl _
  | _ => exact .refl _

theorem progAll_le_succ (w : World) (f : Nat) (v : Val) (ctx : Ctx) (d : Data α) : (progAll w f v ctx d).Le (progAll w (f + 1) v ctx d) := by
  induction d with
  | nil => exact .refl _
  | cons p d ih => exact (prog_le_succ w f p.2 v ctx).bind fun _ => ih

theorem progAll_fuel (w : World) {f g : Nat} (h : f ≤ g) (v : Val) (ctx : Ctx) (d : Data α) : (progAll w f v ctx d).Le (progAll w g v ctx d) := by
  induction h with
  | refl => exact .refl _
  | step _ ih => exact ih.trans (progAll_le_succ w _ v ctx d)

theorem Prog.Le.interp {rec rec' : α → Val → Ctx → Res Unit} (hr : ∀ a v c, rec a v c ⊑ rec' a v c) {p q : Prog α β} (h : p.Le q) :
    interp rec p ⊑ interp rec' q := by
  induction p generalizing q with
  | done r =>
    intro hne
    rw [h.of_done hne]
    rfl
  | call a v c k ih =>
    obtain ⟨k', rfl, hk⟩ := h
    intro hne
    have h1 : rec a v c ≠ .timeout := fun e => hne (interp_call_timeout _ _ _ _ _ e)
    have h2 := hr a v c h1
    rw [interp_call rec _ _ _ _ h1] at hne ⊢
    rw [interp_call rec' _ _ _ _ (by rw [h2]; exact h1), h2]
    exact ih _ (hk _) hne

end

namespace Obj
open M.Ext

section
variable {α β γ ρ : Type}

theorem interpS_call {rec : α → Val → Ctx → M Unit} {a : α} {v : Val} {c : Ctx} {k : Res Unit → Prog α β} {s s' : St} {r : Res Unit} (h : rec a v c s = (r, s')) (hr : r ≠ .timeout) :
    interpS rec (.call a v c k) s = interpS rec (k r) s' := by
  cases r with
  | timeout => exact absurd rfl hr
  | _ => simp only [interpS, h]

theorem interpS_call_timeout {rec : α → Val → Ctx → M Unit} {a : α} {v : Val} {c : Ctx} {k : Res Unit → Prog α β} {s s' : St} (h : rec a v c s = (.timeout, s')) :
    interpS rec (.call a v c k) s = (.timeout, s') := by
  simp only [interpS, h]

theorem interpS_le {rec rec' : α → Val → Ctx → M Unit} (hr : ∀ a v c, M.Ext (rec a v c) (rec' a v c)) {p q : Prog α β} (h : p.Le q) :
    M.Ext (interpS rec p) (interpS rec' q) := by
  induction p generalizing q with
  | done r =>
    intro s hne
    rw [h.of_done hne]
    rfl
  | call a v c k ih =>
    obtain ⟨k', rfl, hk⟩ := h
    intro s hne
    rcases e : rec a v c s with ⟨r, s'⟩
    by_cases hr' : r = .timeout
    · subst hr'
      rw [interpS_call_timeout e] at hne
      exact absurd rfl hne
    · have e' := (hr a v c s (by rw [e]; exact hr')).trans e
      rw [interpS_call e hr'] at hne ⊢
      rw [interpS_call e' hr']
      exact ih r (hk r) s' hne

theorem interpS_map (g : α → γ) (rec : γ → Val → Ctx → M Unit) (p : Prog α β) : interpS rec (p.map g) = interpS (fun a => rec (g a)) p := by
  induction p with
  | done r => rfl
  | call a v c k ih =>
    funext s
    simp only [Prog.map, interpS]
    rcases rec (g a) v c s with ⟨r, s'⟩
    cases r with
    | timeout => rfl
    | _ => simp only [ih]

variable (E : Env) {f g : Nat} (h : f ≤ g)
include h

theorem final_mono (i : Nat) : M.Ext (final E f i) (final E g i) := by
  induction f generalizing g i with
  | zero => exact timeout _
  | succ f ih =>
    obtain ⟨g, rfl⟩ : ∃ k, g = k + 1 := ⟨g - 1, by omega⟩
    have h' : f ≤ g := by omega
    refine (refl _).bind fun c => ?_
    obtain ⟨sh, q, k⟩ := c
    cases sh with
    | ref n d q => exact ((ops_mono E h').query _ _).bind fun j => ih h' j
    | _ => exact refl _

theorem sightS_mono (i : Nat) : M.Ext (sightS E f i) (sightS E g i) := by
  have ho := ops_mono E h
  refine (ho.kind i).bind fun k => ?_
  cases k with
  | array => exact (ho.elems i).bind fun xs => refl _
  | object => exact (ho.members i).bind fun xs => refl _
  | _ => exact (final_mono E h i).bind fun j => refl _

theorem lookS_mono (p : Look Nat ρ) : M.Ext (lookS E f p) (lookS E g p) := by
  induction p with
  | done r => exact refl _
  | sight n k ih => exact (sightS_mono E h n).bind fun x => ih x
  | tree n k ih => exact ((ops_mono E h).node n).bind fun x => ih x

theorem validateO_mono (voc : List Kw) (i : Nat) (v : Val) (ctx : Ctx) : M.Ext (validateO E voc f i v ctx) (validateO E voc g i v ctx) := by
  induction f generalizing g i v ctx with
  | zero => exact timeout _
  | succ f ih =>
    obtain ⟨g, rfl⟩ : ∃ k, g = k + 1 := ⟨g - 1, by omega⟩
    have h' : f ≤ g := by omega
    refine (sightS_mono E h' i).bind fun x => ?_
    cases x with
    | bool b => exact refl _
    | obj items => exact (lookS_mono E h' _).bind fun d => interpS_le (fun a v c => ih h' a v c) (progAll_fuel E.w h' v ctx d)
    | _ => exact lookS_mono E h' _

/-- Where validation ends, it ends in the same way with more fuel. -/
theorem validateS_mono (d : Nat) (v : Val) : M.Ext (validateS E f d v) (validateS E g d v) := by
  have ho := ops_mono E h
  refine (ho.load d).bind fun _ => (refl _).bind fun x => (ho.kind _).bind fun k => ?_
  cases k with
  | object => exact validateO_mono E h _ _ _ _
  | _ => exact refl _

end
end Obj
end Verif
