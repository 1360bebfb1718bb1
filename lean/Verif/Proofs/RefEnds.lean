import Verif.Proofs.Refs
import Verif.Proofs.Ends
/-! # Validation through references ends: lemmas for C45 -/

namespace Verif
open Verif.Spec Prog

variable {α β : Type}

theorem nestL_mem {xs : List Val} {x : Val} (h : x ∈ xs) : x.nest ≤ Val.nestL xs := by
  induction xs with
  | nil => cases h
  | cons y xs ih =>
    rw [Val.nestL]
    rcases List.mem_cons.1 h with rfl | h
    · exact Nat.le_max_left _ _
    · exact Nat.le_trans (ih h) (Nat.le_max_right _ _)

theorem nestD_mem {xs : List (Str × Val)} {p : Str × Val} (h : p ∈ xs) : p.2.nest ≤ Val.nestD xs := by
  induction xs with
  | nil => cases h
  | cons y xs ih =>
    obtain ⟨k, y⟩ := y
    rw [Val.nestD]
    rcases List.mem_cons.1 h with rfl | h
    · exact Nat.le_max_left _ _
    · exact Nat.le_trans (ih h) (Nat.le_max_right _ _)

/-- The subschemas that a validator applies to the value itself. -/
def V.inSubs : V α → List α
  | .array _ _ => []
  | .object _ => []
  | x => x.subs

theorem nest_parts {Q : Val → Prop} (hQ : Parts Q) (m : Nat) : Parts fun u => Q u ∧ u.nest ≤ m where
  str s := ⟨hQ.str s, Nat.zero_le _⟩
  list xs h x hx := ⟨hQ.list xs h.1 x hx, by have := nestL_mem hx; have := h.2; rw [Val.nest] at this; omega⟩
  dict kvs h p hp := ⟨hQ.dict kvs h.1 p hp, by have := nestD_mem hp; have := h.2; rw [Val.nest] at this; omega⟩

/-- A validator ends if its subschemas do: those applied to the value itself on values nested no deeper, all of them on values nested
less deep. -/
theorem prog_ends_nest {P : α → Val → Prop} {w : World} (hw : FormatsEnd w) {Q : Val → Prop} (hQ : Parts Q) (f : Nat) (x : V α) (v : Val)
    (ctx : Ctx) (hv : Q v) (hin : ∀ a ∈ x.inSubs, ∀ u, Q u → u.nest ≤ v.nest → P a u)
    (hch : ∀ a ∈ x.subs, ∀ u, Q u → u.nest < v.nest → P a u) (hl : ∀ xs, v = .list xs → x.wants ≤ xs.length) :
    (prog w f x v ctx).Ends P := by
  have hrest : x.inSubs = x.subs → (prog w f x v ctx).Ends P := by
    intro e
    rw [e] at hin
    exact prog_ends hw (nest_parts hQ v.nest) f x v ctx ⟨hv, Nat.le_refl _⟩ (fun a ha u hu => hin a ha u hu.1 hu.2) hl
  cases x with
  | array p its =>
    simp only [V.subs, List.mem_append, Option.mem_toList] at hch
    cases v <;> simp only [prog, runArrayP] <;> try exact done_ends (.err _)
    have hlt : ∀ xs : List Val, ∀ x ∈ xs, x.nest < (Val.list xs).nest := fun xs x hx => by
      have := nestL_mem hx; rw [Val.nest]; omega
    exact array_ends _ _ _ _ _ _ (fun a ha x hx => hch a (.inl ha) x (hQ.list _ hv x hx) (hlt _ x hx))
      (fun a ha x hx => hch a (.inr ha) x (hQ.list _ hv x hx) (hlt _ x hx)) (hl _ rfl)
  | object o =>
    cases v <;> simp only [prog] <;> try exact done_ends (.ok _)
    next kvs =>
    exact object_ends w o ctx _ fun a ha p hp =>
      ⟨hch a ha _ (hQ.dict _ hv p hp) (by have := nestD_mem hp; rw [Val.nest]; omega), hch a ha _ (hQ.str _) (by rw [Val.nest.eq_2, Val.nest]; omega; all_goals simp)⟩
  | _ => exact hrest rfl

/-- Enough fuel for every call is enough for the program. -/
theorem ends_fuel {rec : Nat → α → Val → Ctx → Res Unit} (hrec : ∀ f g, f ≤ g → ∀ a v c, rec f a v c ⊑ rec g a v c)
    {P : α → Val → Prop} (h : ∀ a v c, P a v → ∃ f, rec f a v c ≠ .timeout) {p : Prog α β} (hp : p.Ends P) :
    ∃ f, interp (rec f) p ≠ .timeout := by
  induction p with
  | done r => exact ⟨0, hp⟩
  | call a v c k ih =>
    obtain ⟨f, hf⟩ := h a v c hp.1
    obtain ⟨g, hg⟩ := ih _ (hp.2 _ hf)
    refine ⟨max f g, ?_⟩
    have e := hrec f (max f g) (Nat.le_max_left _ _) a v c hf
    rw [interp_call _ _ _ _ _ (by rw [e]; exact hf), e,
      interp_le (fun a v c => hrec g (max f g) (Nat.le_max_right _ _) a v c) _ hg]
    exact hg

/-! ## Which subschemas are applied to the value itself -/

def Upd.inSubs : Upd α → List α
  | .set x => x.inSubs
  | .ifs a => [a]
  | .thens a => [a]
  | .elses a => [a]
  | _ => []

section
variable (w : World) (view : Node → Res Node) (mk : Node → α) (items : List (Str × Node)) {P : α → Prop} {voc : List Kw}
  (hP : ∀ k ∈ inPlaceKeys, k ∈ voc.map Kw.key → ∀ n, SubAt view items k n → P (mk n))
include hP

theorem readKw_inSubs (k : Kw) (hkv : k ∈ voc) : Res.All (fun u : Upd α => ∀ a ∈ u.inSubs, P a) (readKw w view mk items k) := by
  have hkv : k.key ∈ voc.map Kw.key := List.mem_map.2 ⟨k, hkv, rfl⟩
  have sub : ∀ k' ∈ inPlaceKeys, k' = k.key → k' ∈ valueKeys → Res.All P (subKey view mk items k') := by
    intro k' hk e hk'
    rw [← e] at hkv
    unfold subKey
    refine Res.All.bindEq fun n hn => Res.All.bind fun m => ?_
    split
    · exact Res.All.ok (hP k' hk hkv n ⟨n, getKey_some hn, .inl ⟨hk', rfl⟩⟩)
    · exact Res.All.err
  have one : ∀ k' (g : α → Upd α), k' ∈ inPlaceKeys → k' = k.key → k' ∈ valueKeys → (∀ a, (g a).inSubs = [a]) →
      Res.All (fun u : Upd α => ∀ a ∈ u.inSubs, P a) (do .ok (g (← subKey view mk items k'))) := by
    intro k' g hk e hk' hg
    refine Res.All.bindEq fun a ha => Res.All.ok ?_
    rw [hg]; simpa using sub k' hk e hk' a ha
  have many : ∀ k' (g : List α → Upd α), k' ∈ inPlaceKeys → k' = k.key → k' ∈ elementKeys → (∀ a, (g a).inSubs = a) →
      Res.All (fun u : Upd α => ∀ a ∈ u.inSubs, P a) (do .ok (g (← subsKey view mk items k'))) := by
    intro k' g hk e hk' hg
    refine Res.All.bindEq fun a ha => Res.All.ok ?_
    rw [hg]
    revert a
    change Res.All (fun a : List α => ∀ b ∈ a, P b) _
    unfold subsKey
    refine Res.All.bindEq fun n hn => Res.All.bindEq fun m hm => ?_
    split
    · rename_i xs
      rcases seqOf_cases n xs with ⟨e', -⟩ | ⟨-, _, e', -⟩ <;> rw [e']
      · refine Res.All.ok fun a ha => ?_
        obtain ⟨x, hx, rfl⟩ := List.mem_map.1 ha
        exact hP k' hk (e ▸ hkv) x ⟨n, getKey_some hn, .inr (.inl ⟨hk', _, hm, hx⟩)⟩
      · exact Res.All.err
    · exact Res.All.err
  have map : ∀ k' (g : List (Str × α) → Upd α), k' ∈ inPlaceKeys → k' = k.key → k' ∈ mapKeys → (∀ a, (g a).inSubs = a.map Prod.snd) →
      Res.All (fun u : Upd α => ∀ a ∈ u.inSubs, P a) (do .ok (g (← subMapKey view mk items k'))) := by
    intro k' g hk e hk' hg
    refine Res.All.bindEq fun a ha => Res.All.ok ?_
    rw [hg]
    revert a
    change Res.All (fun a : List (Str × α) => ∀ b ∈ a.map Prod.snd, P b) _
    unfold subMapKey
    refine Res.All.bindEq fun n hn => Res.All.bindEq fun m hm => ?_
    split
    · refine Res.All.ok fun a ha => ?_
      simp only [List.mem_map] at ha
      obtain ⟨_, ⟨x, hx, rfl⟩, rfl⟩ := ha
      exact hP k' hk (e ▸ hkv) x.2 ⟨n, getKey_some hn, .inr (.inr ⟨hk', _, x.1, hm, hx⟩)⟩
    · exact Res.All.err
  cases k with
  | contains =>
    simp only [readKw]
    refine Res.All.bindEq fun a ha => ?_
    have := sub c!"contains" (by simp [inPlaceKeys]) rfl (by simp [valueKeys]) a ha
    repeat' first
      | exact Res.All.ok (by simpa [Upd.inSubs, V.inSubs, V.subs] using this)
      | (refine Res.All.bind fun _ => ?_)
      | split
  | allOf => exact many _ (fun a => .set (.allOf a)) (by simp [inPlaceKeys]) rfl (by simp [elementKeys]) fun _ => rfl
  | anyOf => exact many _ (fun a => .set (.anyOf a)) (by simp [inPlaceKeys]) rfl (by simp [elementKeys]) fun _ => rfl
  | oneOf => exact many _ (fun a => .set (.oneOf a)) (by simp [inPlaceKeys]) rfl (by simp [elementKeys]) fun _ => rfl
  | dependentSchemas => exact map _ (fun a => .set (.dependentSchemas a)) (by simp [inPlaceKeys]) rfl (by simp [mapKeys]) fun _ => rfl
  | not => exact one _ (fun a => .set (.not a)) (by simp [inPlaceKeys]) rfl (by simp [valueKeys]) fun _ => rfl
  | «if» => exact one _ (fun a => .ifs a) (by simp [inPlaceKeys]) rfl (by simp [valueKeys]) fun _ => rfl
  | «then» => exact one _ (fun a => .thens a) (by simp [inPlaceKeys]) rfl (by simp [valueKeys]) fun _ => rfl
  | «else» => exact one _ (fun a => .elses a) (by simp [inPlaceKeys]) rfl (by simp [valueKeys]) fun _ => rfl
  | _ =>
    simp only [readKw] <;>
    repeat' first
      | exact Res.All.err
      | (refine Res.All.ok ?_; simp [Upd.inSubs, V.inSubs, V.subs]; done)
      | (refine Res.All.ok ?_; simp only [Upd.inSubs, maxV, minV]; split <;> simp [V.inSubs, V.subs]; done)
      | (refine Res.All.bind fun _ => ?_)
      | split

theorem loadAll_in (ks : List Kw) (hks : ∀ k ∈ ks, k ∈ voc) (d : Data α) (hd : ∀ p ∈ d, ∀ a ∈ p.2.inSubs, P a) :
    ∀ p ∈ (loadAll w view mk items ks d).1, ∀ a ∈ p.2.inSubs, P a := by
  have hap : ∀ (u : Upd α) (k : Str) (d d' : Data α), (∀ p ∈ d, ∀ a ∈ p.2.inSubs, P a) → (∀ a ∈ u.inSubs, P a) → u.apply k d = .ok d' →
      ∀ p ∈ d', ∀ a ∈ p.2.inSubs, P a := by
    intro u k d d' hd hu h
    have hset : ∀ (s : Str) (x : V α), (∀ a ∈ x.inSubs, P a) → ∀ p ∈ dictSet s x d, ∀ a ∈ p.2.inSubs, P a := by
      intro s x hx p hp
      rcases mem_dictSet hp with rfl | hp
      · exact hx
      · exact hd p hp
    have hc : (∀ a ∈ (condOf d).1, P a) ∧ (∀ a ∈ (condOf d).2.1, P a) ∧ ∀ a ∈ (condOf d).2.2, P a := by
      unfold condOf
      split
      · rename_i i t e h
        have := hd _ (dictGet_mem h)
        simp only [V.inSubs, V.subs, List.mem_append, Option.mem_toList] at this
        exact ⟨fun a ha => this a (.inl (.inl ha)), fun a ha => this a (.inl (.inr ha)), fun a ha => this a (.inr ha)⟩
      · simp
    cases u with
    | ifs x | thens x | elses x =>
      cases h
      refine hset _ _ fun a m => ?_
      simp only [V.inSubs, V.subs, List.mem_append, Option.mem_toList, Option.toList_some, List.mem_singleton] at m
      simp only [Upd.inSubs, List.mem_singleton] at hu
      rcases m with (m | m) | m
      all_goals first
        | exact hc.1 a m
        | exact hc.2.1 a m
        | exact hc.2.2 a m
        | exact hu a m
    | set x => cases h; exact hset _ _ hu
    | nop => cases h; exact hd
    | pre xs =>
      simp only [Upd.apply] at h
      split at h
      · split at h
        · cases h; exact hset _ _ (by simp [V.inSubs])
        · cases h
      · cases h; exact hset _ _ (by simp [V.inSubs])
    | _ => cases h; exact hset _ _ (by simp [V.inSubs])
  induction ks generalizing d with
  | nil => exact hd
  | cons k ks ih =>
    rw [loadAll]
    split
    · rw [applyKw_eq]
      cases hr : readKw w view mk items k with
      | ok u =>
        simp only [Res.ok_bind]
        cases ha : u.apply k.key d with
        | ok d' => exact ih (fun k' hk' => hks k' (by simp [hk'])) d' (hap u k.key d d' hd (readKw_inSubs w view mk items hP k (hks k (by simp)) u hr) ha)
        | err e => exact hd
        | timeout => exact hd
      | err e => exact hd
      | timeout => exact hd
    · exact ih (fun k' hk' => hks k' (by simp [hk'])) d hd

end

theorem members_fuel {docs : List Doc} {items : List (Str × Node)} (h : ∀ k m, dictGet k items = some m → ∃ g, view docs g m ≠ .timeout) :
    ∃ g, ∀ k m, dictGet k items = some m → view docs g m ≠ .timeout := by
  have key : ∀ ks : List Str, ∃ g, ∀ k ∈ ks, ∀ m, dictGet k items = some m → view docs g m ≠ .timeout := by
    intro ks
    induction ks with
    | nil => exact ⟨0, by simp⟩
    | cons k ks ih =>
      obtain ⟨g', hg'⟩ := ih
      cases e : dictGet k items with
      | none =>
        refine ⟨g', fun k' hk' m hm => ?_⟩
        rcases List.mem_cons.1 hk' with rfl | hk'
        · rw [e] at hm; cases hm
        · exact hg' k' hk' m hm
      | some x =>
        obtain ⟨g, hg⟩ := h k x e
        have up : ∀ {a : Nat} {n : Node}, a ≤ max g g' → view docs a n ≠ .timeout → view docs (max g g') n ≠ .timeout := by
          intro a n ha hn
          rw [view_mono docs ha n hn]; exact hn
        refine ⟨max g g', fun k' hk' m hm => ?_⟩
        rcases List.mem_cons.1 hk' with rfl | hk'
        · rw [e] at hm; cases hm
          exact up (Nat.le_max_left _ _) hg
        · exact up (Nat.le_max_right _ _) (hg' k' hk' m hm)
  obtain ⟨g, hg⟩ := key (items.map Prod.fst)
  exact ⟨g, fun k m hk => hg k (List.mem_map.2 ⟨_, dictGet_mem hk, rfl⟩) m hk⟩

/-- Validation ends with every schema of a ranked set. -/
theorem ranked_ends {w : World} (hw : FormatsEnd w) {docs : List Doc} {voc : List Kw} {B : Nat} {S : Node → Prop} {rank : Node → Nat}
    (hr : Ranked docs voc B S rank) {Q : Val → Prop} (hQ : Parts Q) (hB : ∀ xs, Q (.list xs) → B ≤ xs.length) (m r : Nat) :
    ∀ n v ctx, S n → Q v → v.nest = m → rank n = r → ∃ f, validateN w docs voc f n v ctx ≠ .timeout := by
  induction m using Nat.strongRecOn generalizing r with
  | ind m ihm =>
    induction r using Nat.strongRecOn with
    | ind r ihr =>
      intro n v ctx hn hv hm hrk
      obtain ⟨f, hf⟩ := hr.shows n hn
      cases e : view docs f n with
      | timeout => exact absurd e hf
      | err x => exact ⟨f + 1, by rw [validateN, e]; simp⟩
      | ok x =>
        cases x with
        | bool b => exact ⟨f + 1, by rw [validateN, e, Res.ok_bind]; cases b <;> simp⟩
        | obj items =>
          obtain ⟨g, hg⟩ := members_fuel fun k m hk => hr.member n f items k m hn e hk
          -- the fuel for reading the keywords
          have eh : ∀ h, f ≤ h → view docs h n = .ok (.obj items) := fun h hh => by
            rw [view_mono docs hh n (by rw [e]; simp), e]
          have e1 := eh (max f g) (Nat.le_max_left _ _)
          have hfin := loadAll_fin w (id : Node → Node) (view := view docs (max f g)) (items := items) (fun k m hk => by
            have := hg k m hk
            rw [Finishes, view_mono docs (Nat.le_max_right f g) m this]; exact this) voc []
          have hsub := loadAll_all w (view docs (max f g)) (id : Node → Node) items (P := S)
            (fun m ⟨k, hm⟩ => hr.sub n _ items k m hn e1 hm) voc [] (by simp [Data.All])
          have hin := loadAll_in w (view docs (max f g)) (id : Node → Node) items (P := fun m => S m ∧ rank m < r)
            (fun k hk hkv m hm => ⟨hr.sub n _ items k m hn e1 hm, hrk ▸ hr.inPlace n _ items k m hn e1 hk hkv hm⟩) voc (fun _ h => h) [] (by simp)
          have hwant := loadAll_wants w (id : Node → Node) (view := view docs (max f g)) (items := items) (B := B) voc
            (fun k hk hk' m hg xs hxs => hr.short n _ items hn e1 k hk hk' m xs hg hxs) [] (by simp)
          have hload : ∀ h, max f g ≤ h → loadAll w (view docs h) (id : Node → Node) items voc [] =
              loadAll w (view docs (max f g)) (id : Node → Node) items voc [] := fun h hh =>
            loadAll_le w (fun n => view_mono docs hh n) id items voc [] hfin
          revert hfin hsub hin hwant hload
          rcases loadAll w (view docs (max f g)) (id : Node → Node) items voc [] with ⟨d, res⟩
          intro hfin hsub hin hwant hload
          cases res with
          | timeout => exact absurd rfl hfin
          | err x => exact ⟨max f g + 1, by rw [validateN, e1, Res.ok_bind]; simp only; rw [hload _ (Nat.le_refl _)]; simp⟩
          | ok u =>
            simp only at hsub hin hwant
            have hends : (progAll w (max f g) v ctx d).Ends fun a u => S a ∧ Q u ∧ (u.nest < m ∨ (u.nest ≤ m ∧ rank a < r)) := by
              clear hload hfin
              induction d with
              | nil => exact done_ends (.ok _)
              | cons p d ihd =>
                refine Prog.Ends.bind ?_ fun _ => ihd (fun q hq => hsub q (by simp [hq])) (fun q hq => hin q (by simp [hq]))
                  fun q hq => hwant q (by simp [hq])
                refine prog_ends_nest hw hQ _ p.2 v ctx hv ?_ ?_ ?_
                · intro a ha u hu hl
                  have := hin p (by simp) a ha
                  exact ⟨this.1, hu, .inr ⟨hm ▸ hl, this.2⟩⟩
                · intro a ha u hu hl
                  exact ⟨hsub p (by simp) a ha, hu, .inl (hm ▸ hl)⟩
                · rintro xs rfl
                  exact Nat.le_trans (hwant p (by simp)) (hB xs hv)
            obtain ⟨h, hh⟩ := ends_fuel (rec := validateN w docs voc) (fun f g hl a v c => validateN_mono w docs voc hl a v c) (by
              rintro a u c ⟨h1, h2, h3⟩
              rcases Nat.lt_or_ge u.nest m with h4 | h4
              · exact ihm u.nest h4 (rank a) a u c h1 h2 rfl rfl
              · rcases h3 with h3 | ⟨h3, h5⟩
                · omega
                · exact ihr (rank a) h5 a u c h1 h2 (by omega) rfl) hends
            refine ⟨max (max f g) h + 1, ?_⟩
            rw [validateN, eh _ (by omega), Res.ok_bind]
            simp only
            rw [hload _ (Nat.le_max_left _ _)]
            simp only
            rw [← interp_progAll]
            have h1 := interp_le (fun a v c => validateN_mono w docs voc (Nat.le_max_right (max f g) h) a v c) (progAll w (max f g) v ctx d) hh
            have h2 := progAll_mono (validateN w docs voc (max (max f g) h)) w (Nat.le_max_left (max f g) h) v ctx d (by rw [h1]; exact hh)
            rw [h2, h1]
            exact hh
        | ref o d p => exact ⟨f + 1, by rw [validateN, e, Res.ok_bind]; exact loadNonObject_fin _ _⟩
        | _ => exact ⟨f + 1, by rw [validateN, e, Res.ok_bind]; exact loadNonObject_fin _ _⟩

end Verif
