import Verif.Model.Edit
import Verif.Proofs.Placed
import Verif.Proofs.BridgeLoad
/-! # Writing to objects keeps everything in its place -/

namespace Verif.Obj
open Verif Verif.Spec

theorem mem_of_set {α : Type} {a k : Str} {x y : α} {d : List (Str × α)} (h : (k, x) ∈ dictSet a y d) : (k = a ∧ x = y) ∨ (k, x) ∈ d := by
  induction d with
  | nil => simp [dictSet] at h; exact .inl h
  | cons p d ih =>
    obtain ⟨k', z⟩ := p
    unfold dictSet at h
    split at h
    · rename_i e
      rcases List.mem_cons.1 h with h | h
      · cases h; exact .inl ⟨e, rfl⟩
      · exact .inr (List.mem_cons_of_mem _ h)
    · rcases List.mem_cons.1 h with h | h
      · rw [h]; simp
      · rcases ih h with h | h
        · exact .inl h
        · exact .inr (List.mem_cons_of_mem _ h)

section
variable {s : St} (hs : Inv s)
include hs

/-- New objects are made below an object. -/
theorem post_build {v : Val} (hv : (wrap v).RefFree) {i : Nat} (hi : i < s.mem.length) (k : Str) :
    Post (setMem (build v (some i) k s.mem).2) s fun _ s' => Slots s'.mem (build v (some i) k s.mem).1 (some i) k := by
  obtain ⟨ext, e, ht⟩ := build_spec v (some i) k s.mem
  rw [e]
  have hcells : ∀ (j : Nat) (x : Cell), s.mem[j]? = some x → (s.mem ++ ext)[j]? = some x := fun j x hx => by
    rw [List.getElem?_append_left (List.getElem?_eq_some_iff.1 hx).1]; exact hx
  have hg : Grown s { s with mem := s.mem ++ ext } :=
    ⟨fun j x hx => ⟨x, hcells j x hx, .refl x⟩, fun d x hx => ⟨x, hx, fun p k ⟨y, hy, h⟩ => ⟨y, hcells _ _ hy, h⟩⟩⟩
  refine ⟨⟨fun j x hx => ?_, fun d x hx => ?_⟩, hg, fun _ _ => ht.slots⟩
  · by_cases hj : j < s.mem.length
    · have hx : s.mem[j]? = some x := by rw [← hx]; exact (List.getElem?_append_left hj).symm
      exact (hs.cells j x hx).grown hg rfl rfl rfl
    · refine ht.cells hv (fun q hq => by cases hq; exact hi) j x (by omega) ?_ hx
      have := (List.getElem?_eq_some_iff.1 hx).1
      simpa [setMem] using this
  · obtain ⟨p, k, h⟩ := hs.docs d x hx
    exact ⟨p, k, hg.slots h⟩

theorem post_setItem {v : Val} (hv : (wrap v).RefFree) (i : Nat) (k : Str) : Post (setItem i k v) s fun _ _ => True := by
  unfold setItem
  refine (post_cell hs i).bind ?_
  rintro ⟨sh, p, key⟩ s1 _ h1 ⟨rfl, hc⟩
  cases sh
  case obj kvs =>
    simp only
    refine (post_state h1).bind ?_
    rintro _ s2 _ h2 ⟨rfl, rfl⟩
    refine (post_build h2 hv (List.getElem?_eq_some_iff.1 hc).1 k).bind fun _ s3 hg h3 hsl => ?_
    obtain ⟨c', hc', e1, e2, e3⟩ := hg.cells i _ hc
    have hsh : ∃ b, c'.shape = .obj b := by
      rcases e3 with e3 | ⟨-, e3⟩
      · exact ⟨kvs, e3⟩
      · exact e3
    obtain ⟨b, hb⟩ := hsh
    have hok := (h2.cells i _ hc).obj kvs rfl
    refine (post_setShape h3 hc' hb (nodup_set _ _ _ hok.1) fun k' x hx => ?_).bind fun _ s4 _ h4 _ => post_pure h4 trivial
    rcases mem_of_set hx with ⟨rfl, rfl⟩ | hx
    · exact hsl
    · exact hg.slots (hok.2 k' x hx)
  all_goals exact post_raise h1 _

theorem post_delItem (i : Nat) (k : Str) : Post (delItem i k) s fun _ _ => True := by
  unfold delItem
  refine (post_cell hs i).bind ?_
  rintro ⟨sh, p, key⟩ s1 _ h1 ⟨rfl, hc⟩
  cases sh
  case obj kvs =>
    simp only
    have hok := (h1.cells i _ hc).obj kvs rfl
    split
    · exact post_setShape h1 hc rfl (nodup_del _ _ hok.1) fun k' x hx => hok.2 k' x (mem_of_del hx)
    · exact post_pure h1 trivial
  all_goals exact post_raise h1 _

theorem post_getItem (i : Nat) (k : Str) : Post (getItem i k) s fun _ _ => True := by
  unfold getItem
  refine (post_cell hs i).bind ?_
  rintro ⟨sh, p, key⟩ s1 _ h1 ⟨rfl, hc⟩
  cases sh
  case obj kvs =>
    simp only
    split
    · exact post_pure h1 trivial
    · exact post_raise h1 _
  all_goals exact post_raise h1 _

theorem post_popKey (i : Nat) (k : Str) : Post (popKey i k) s fun _ _ => True :=
  (post_getItem hs i k).bind fun _ _ _ h1 _ => (post_delItem h1 i k).bind fun _ _ _ h2 _ => post_pure h2 trivial

theorem post_popItem (i : Nat) : Post (popItem i) s fun _ _ => True := by
  unfold popItem
  refine (post_cell hs i).bind ?_
  rintro ⟨sh, p, key⟩ s1 _ h1 ⟨rfl, hc⟩
  cases sh
  case obj kvs =>
    cases kvs with
    | nil => exact post_raise h1 _
    | cons a r =>
      obtain ⟨k, x⟩ := a
      exact (post_getItem h1 i k).bind fun _ _ _ h1 _ => (post_delItem h1 i k).bind fun _ _ _ h2 _ => post_pure h2 trivial
  all_goals exact post_raise h1 _
end

theorem post_clearN (i : Nat) : ∀ (n : Nat) {s : St}, Inv s → Post (clearN i n) s fun _ _ => True
  | 0, s, hs => (post_lift hs _).top
  | n + 1, s, hs => by
    unfold clearN
    refine (post_cell hs i).bind ?_
    rintro ⟨sh, p, key⟩ s1 _ h1 ⟨rfl, hc⟩
    simp only
    split
    · exact post_pure h1 trivial
    · exact (post_popItem h1 i).bind fun _ _ _ h2 _ => post_clearN i n h2

theorem post_clearAll {s : St} (hs : Inv s) (i : Nat) : Post (clearAll i) s fun _ _ => True := by
  unfold clearAll
  refine (post_cell hs i).bind ?_
  rintro ⟨sh, p, key⟩ s1 _ h1 ⟨rfl, hc⟩
  cases sh
  case obj kvs => exact post_clearN i _ h1
  all_goals exact post_raise h1 _

theorem post_updateLoop (i : Nat) : ∀ (kvs : List (Str × Val)) {s : St}, Inv s → (∀ k v, (k, v) ∈ kvs → (wrap v).RefFree) →
    Post (updateLoop i kvs) s fun _ _ => True
  | [], s, hs, _ => post_pure hs trivial
  | (k, v) :: r, s, hs, h => (post_setItem hs (h k v (by simp)) i k).bind fun _ _ _ h1 _ =>
    post_updateLoop i r h1 fun k v hv => h k v (by simp [hv])

theorem post_updateAll {s : St} (hs : Inv s) (i : Nat) (kvs : List (Str × Val)) (h : ∀ k v, (k, v) ∈ kvs → (wrap v).RefFree) :
    Post (updateAll i kvs) s fun _ _ => True := by
  unfold updateAll
  refine (post_cell hs i).bind ?_
  rintro ⟨sh, p, key⟩ s1 _ h1 ⟨rfl, hc⟩
  cases sh
  case obj _ => exact post_updateLoop i kvs h1 h
  all_goals exact post_raise h1 _

theorem post_setDefault {s : St} (hs : Inv s) (i : Nat) (k : Str) {v : Val} (hv : (wrap v).RefFree) :
    Post (setDefault i k v) s fun _ _ => True := by
  unfold setDefault
  refine (post_cell hs i).bind ?_
  rintro ⟨sh, p, key⟩ s1 _ h1 ⟨rfl, hc⟩
  cases sh
  case obj kvs =>
    simp only
    split
    · exact post_pure h1 trivial
    · exact (post_setItem h1 hv i k).bind fun _ _ _ h2 _ => post_pure h2 trivial
  all_goals exact post_raise h1 _

/-- Calls, and writing plain data to objects. -/
def Edit.Kept : Edit → Prop
  | .call (.create v _) => (wrap v).RefFree
  | .set _ _ v => (wrap v).RefFree
  | .setdefault _ _ v => (wrap v).RefFree
  | .update _ kvs => ∀ k v, (k, v) ∈ kvs → (wrap v).RefFree
  | .put .. | .delAt .. | .putAt .. | .slice .. => False
  | _ => True

theorem post_edit (E : Env) (hE : ∀ u v, E.file u = .ok v → (wrap v).RefFree) (f : Nat) {s : St} (hs : Inv s) (e : Edit) (he : e.Kept) :
    Post (edit E f e) s fun a s' => ∀ d, a = .schema d → ∃ x, s'.docs[d]? = some x ∧ Slots s'.mem x.value none [] := by
  cases e with
  | call c =>
    have hcs : ∀ v voc, Call.create v voc ∈ [c] → (wrap v).RefFree := by
      intro v voc h
      obtain rfl := List.mem_singleton.1 h
      exact he
    obtain ⟨h1, h2, h3⟩ := calls_good E hE f [c] s hs hcs
    exact ⟨h1, h2, fun a ha d hd => h3 d (by subst hd; simp only [calls, List.mem_singleton]; exact ha.symm)⟩
  | set i k v => exact (post_setItem hs he i k).bind fun _ _ _ h _ => post_pure h fun d hd => by cases hd
  | del i k => exact (post_delItem hs i k).bind fun _ _ _ h _ => post_pure h fun d hd => by cases hd
  | pop i k => exact (post_popKey hs i k).bind fun _ _ _ h _ => post_pure h fun d hd => by cases hd
  | popitem i => exact (post_popItem hs i).bind fun _ _ _ h _ => post_pure h fun d hd => by cases hd
  | clear i => exact (post_clearAll hs i).bind fun _ _ _ h _ => post_pure h fun d hd => by cases hd
  | update i kvs => exact (post_updateAll hs i kvs he).bind fun _ _ _ h _ => post_pure h fun d hd => by cases hd
  | setdefault i k v =>
    refine (post_setDefault hs i k he).bind fun a _ _ h _ => ?_
    cases a with
    | none => exact post_pure h fun d hd => by cases hd
    | some x => exact post_pure h fun d hd => by cases hd
  | put => exact he.elim
  | delAt => exact he.elim
  | putAt => exact he.elim
  | slice => exact he.elim

theorem edits_good (E : Env) (hE : ∀ u v, E.file u = .ok v → (wrap v).RefFree) (f : Nat) : ∀ (cs : List Edit) (s : St), Inv s →
    (∀ e ∈ cs, e.Kept) →
    Inv (edits E f cs s).2 ∧ Grown s (edits E f cs s).2 ∧
      ∀ d, .ok (.schema d) ∈ (edits E f cs s).1 → ∃ x, (edits E f cs s).2.docs[d]? = some x ∧ Slots (edits E f cs s).2.mem x.value none [] := by
  intro cs
  induction cs with
  | nil => intro s hs _; exact ⟨hs, .refl s, fun d h => by simp [edits] at h⟩
  | cons c cs ih =>
    intro s hs hcs
    obtain ⟨h1, h2, h3⟩ := post_edit E hE f hs c (hcs c (by simp))
    obtain ⟨g1, g2, g3⟩ := ih (edit E f c s).2 h1 fun e he => hcs e (by simp [he])
    refine ⟨g1, h2.trans g2, fun d hd => ?_⟩
    rcases List.mem_cons.1 hd with e | hd
    · obtain ⟨x, hx, hsl⟩ := h3 (.schema d) e.symm d rfl
      obtain ⟨y, hy, h⟩ := g2.docs d x hx
      exact ⟨y, hy, h _ _ hsl⟩
    · exact g3 d hd

end Verif.Obj
