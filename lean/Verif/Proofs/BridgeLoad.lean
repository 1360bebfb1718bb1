import Verif.Proofs.Bridge
import Verif.Proofs.LoadRuns
/-! # A loaded document shows its data -/

namespace Verif.Obj
open Verif Verif.Spec

mutual
theorem Tree.shows {m : Mem} : ∀ {n : Node} {p : Option Nat} {k : Str} {lo hi : Nat}, Tree m n p k lo hi → Shows m n lo
  | .null, _, _, _, _, h => by rw [Tree] at h; rw [Shows]; exact ⟨_, h.1, rfl⟩
  | .bool _, _, _, _, _, h => by rw [Tree] at h; rw [Shows]; exact ⟨_, h.1, rfl⟩
  | .num _, _, _, _, _, h => by rw [Tree] at h; rw [Shows]; exact ⟨_, h.1, rfl⟩
  | .str _, _, _, _, _, h => by rw [Tree] at h; rw [Shows]; exact ⟨_, h.1, rfl⟩
  | .arr _, _, _, _, _, h => by rw [Tree] at h; obtain ⟨ids, h1, h2⟩ := h; rw [Shows]; exact ⟨_, ids, h1, rfl, TreeL.shows h2⟩
  | .obj _, _, _, _, _, h => by rw [Tree] at h; obtain ⟨ids, h1, h2⟩ := h; rw [Shows]; exact ⟨_, ids, h1, rfl, TreeD.shows h2⟩
  | .ref .., _, _, _, _, h => by rw [Tree] at h; exact h.elim
theorem TreeL.shows {m : Mem} : ∀ {xs : List Node} {i self : Nat} {ids : List Nat} {lo hi : Nat}, TreeL m xs i self ids lo hi → ShowsL m xs ids
  | [], _, _, _, _, _, h => by rw [TreeL] at h; rw [ShowsL]; exact h.1
  | x :: xs, _, _, _, _, _, h => by
    rw [TreeL] at h; obtain ⟨mid, rest, rfl, h1, h2⟩ := h
    rw [ShowsL]; exact ⟨_, _, rfl, Tree.shows h1, TreeL.shows h2⟩
theorem TreeD.shows {m : Mem} : ∀ {xs : List (Str × Node)} {self : Nat} {ids : List (Str × Nat)} {lo hi : Nat}, TreeD m xs self ids lo hi → ShowsD m xs ids
  | [], _, _, _, _, h => by rw [TreeD] at h; rw [ShowsD]; exact h.1
  | (k, x) :: xs, _, _, _, _, h => by
    rw [TreeD] at h; obtain ⟨mid, rest, rfl, h1, h2⟩ := h
    rw [ShowsD]; exact ⟨_, _, rfl, Tree.shows h1, TreeD.shows h2⟩
end

theorem ShowsD.append {m : Mem} : ∀ {a b : List (Str × Node)} {x y : List (Str × Nat)}, ShowsD m a x → ShowsD m b y → ShowsD m (a ++ b) (x ++ y)
  | [], _, _, _, h, h' => by rw [ShowsD] at h; subst h; exact h'
  | (k, n) :: a, _, _, _, h, h' => by
    rw [ShowsD] at h; obtain ⟨i, rest, rfl, h1, h2⟩ := h
    rw [List.cons_append, ShowsD]; exact ⟨i, _, rfl, h1, ShowsD.append h2 h'⟩

mutual
/-- What is shown stays when the objects it was made of stay. -/
theorem Shows.keep {m m' : Mem} (e : ∀ (i : Nat) c, m[i]? = some c → m'[i]? = some c) : ∀ {n : Node} {i : Nat}, Shows m n i → Shows m' n i
  | .null, _, h => by rw [Shows] at h ⊢; obtain ⟨c, h1, h2⟩ := h; exact ⟨c, e _ _ h1, h2⟩
  | .bool _, _, h => by rw [Shows] at h ⊢; obtain ⟨c, h1, h2⟩ := h; exact ⟨c, e _ _ h1, h2⟩
  | .num _, _, h => by rw [Shows] at h ⊢; obtain ⟨c, h1, h2⟩ := h; exact ⟨c, e _ _ h1, h2⟩
  | .str _, _, h => by rw [Shows] at h ⊢; obtain ⟨c, h1, h2⟩ := h; exact ⟨c, e _ _ h1, h2⟩
  | .arr _, _, h => by rw [Shows] at h ⊢; obtain ⟨c, ids, h1, h2, h3⟩ := h; exact ⟨c, ids, e _ _ h1, h2, ShowsL.keep e h3⟩
  | .obj _, _, h => by rw [Shows] at h ⊢; obtain ⟨c, ids, h1, h2, h3⟩ := h; exact ⟨c, ids, e _ _ h1, h2, ShowsD.keep e h3⟩
  | .ref .., _, h => by
    rw [Shows] at h ⊢; obtain ⟨c, j, c', ids, h1, h2, h3, h4, h5⟩ := h
    exact ⟨c, j, c', ids, e _ _ h1, h2, e _ _ h3, h4, ShowsD.keep e h5⟩
theorem ShowsL.keep {m m' : Mem} (e : ∀ (i : Nat) c, m[i]? = some c → m'[i]? = some c) : ∀ {xs : List Node} {ids : List Nat}, ShowsL m xs ids → ShowsL m' xs ids
  | [], _, h => by rw [ShowsL] at h ⊢; exact h
  | _ :: _, _, h => by rw [ShowsL] at h ⊢; obtain ⟨i, r, h0, h1, h2⟩ := h; exact ⟨i, r, h0, Shows.keep e h1, ShowsL.keep e h2⟩
theorem ShowsD.keep {m m' : Mem} (e : ∀ (i : Nat) c, m[i]? = some c → m'[i]? = some c) : ∀ {xs : List (Str × Node)} {ids : List (Str × Nat)}, ShowsD m xs ids → ShowsD m' xs ids
  | [], _, h => by rw [ShowsD] at h ⊢; exact h
  | (_, _) :: _, _, h => by rw [ShowsD] at h ⊢; obtain ⟨i, r, h0, h1, h2⟩ := h; exact ⟨i, r, h0, Shows.keep e h1, ShowsD.keep e h2⟩
end

theorem dictGet_none {α : Type} {k : Str} {xs : List (Str × α)} (h : k ∉ xs.map Prod.fst) : dictGet k xs = none := by
  induction xs with
  | nil => rfl
  | cons p xs ih =>
    obtain ⟨k', x⟩ := p
    simp only [List.map_cons, List.mem_cons, not_or] at h
    rw [dictGet, if_neg (Ne.symm h.1)]; exact ih h.2

variable {E : Env} {base d : Nat} {tk : List Str}

theorem Done.leaf_shows {m : Mem} {n : Node} (hn : ∀ kvs, n ≠ .obj kvs) {p : Option Nat} {k : Str} {pre : List Str} {lo hi r : Nat} {L : List (Str × Nat)}
    (h : Done E base d tk m n p k pre lo hi r L) : Shows m (resolve E.ip d n) r ∧ ShowsD m (anchored E.ip d n) L := by
  obtain ⟨rfl, h', rfl⟩ := (done_leaf hn).1 h
  cases n with
  | obj kvs => exact absurd rfl (hn kvs)
  | _ => simp only [resolve, anchored]; exact ⟨h'.shows, by simp [ShowsD]⟩

mutual
theorem Done.shows {m : Mem} : ∀ {n : Node} {p : Option Nat} {k : Str} {pre : List Str} {lo hi r : Nat} {L : List (Str × Nat)},
    Done E base d tk m n p k pre lo hi r L → LocalDoc E.ip n → Shows m (resolve E.ip d n) r ∧ ShowsD m (anchored E.ip d n) L
  | .obj kvs, p, k, pre, lo, hi, r, L, h, hl => by
    rw [LocalDoc] at hl
    rw [Done] at h
    obtain ⟨ids, L1, L2, rfl, hd, hc, hR, hN, hA, hB, -⟩ := h
    obtain ⟨g1, g2⟩ := DoneD.shows hd hl.2
    by_cases hr : c!"$ref" ∈ kvs.map Prod.fst
    · obtain ⟨hna, t, ht, u, b, ptr, hu, hp, hb, hbt⟩ := hl.1.ref hr
      obtain ⟨-, t', e, ptr', ht', ⟨u', b', hu', hp', hb', he⟩, -, hcr⟩ := hR hr
      obtain rfl := ht' t ht
      rw [hu] at hu'; cases hu'
      rw [hp] at hp'; cases hp'
      rw [hb] at hb'; cases hb'
      obtain rfl := he hbt
      rw [if_pos hr] at hc
      have e1 : resolve E.ip e (.obj kvs) = .ref (resolveD E.ip e kvs) e ptr := by
        rw [resolve]; simp only [ht, refPointer, hu, hp]
      refine ⟨?_, ?_⟩
      · rw [e1, Shows]; exact ⟨_, lo, _, ids, hcr, rfl, hc, rfl, g1⟩
      · rw [anchored, hB hna, dictGet_none hna]
        simpa using g2
    · obtain rfl := hN hr
      rw [if_neg hr] at hc
      have e1 : resolve E.ip d (.obj kvs) = .obj (dictDel c!"$anchor" (resolveD E.ip d kvs)) := by
        rw [resolve]; simp only [dictGet_none hr]
      have sh : Shows m (resolve E.ip d (.obj kvs)) r := by
        rw [e1, Shows]; exact ⟨_, _, hc, rfl, g1.del _⟩
      refine ⟨sh, ?_⟩
      rw [anchored]
      refine g2.append ?_
      by_cases ha : c!"$anchor" ∈ kvs.map Prod.fst
      · obtain ⟨a, ha'⟩ := hl.1.anchor ha
        obtain ⟨t, ht, rfl⟩ := hA ha
        obtain rfl := ht a ha'
        simp only [ha']
        rw [ShowsD]; exact ⟨r, [], rfl, sh, by rw [ShowsD]⟩
      · rw [hB ha]; simp only [dictGet_none ha]; rw [ShowsD]
  | .null, _, _, _, _, _, _, _, h, _ => Done.leaf_shows (by simp) h
  | .bool _, _, _, _, _, _, _, _, h, _ => Done.leaf_shows (by simp) h
  | .num _, _, _, _, _, _, _, _, h, _ => Done.leaf_shows (by simp) h
  | .str _, _, _, _, _, _, _, _, h, _ => Done.leaf_shows (by simp) h
  | .arr _, _, _, _, _, _, _, _, h, _ => Done.leaf_shows (by simp) h
  | .ref .., _, _, _, _, _, _, _, h, _ => Done.leaf_shows (by simp) h
theorem DoneD.shows {m : Mem} : ∀ {xs : List (Str × Node)} {self : Nat} {pre : List Str} {ids : List (Str × Nat)} {lo hi : Nat} {L : List (Str × Nat)},
    DoneD E base d tk m xs self pre ids lo hi L → LocalDocD E.ip xs → ShowsD m (resolveD E.ip d xs) ids ∧ ShowsD m (anchoredD E.ip d xs) L
  | [], _, _, _, _, _, _, h, _ => by
    rw [DoneD] at h; obtain ⟨rfl, -, rfl⟩ := h
    rw [resolveD, anchoredD, ShowsD]; exact ⟨rfl, rfl⟩
  | (k, x) :: xs, _, _, _, _, _, _, h, hl => by
    rw [DoneD] at h; obtain ⟨mid, r, rest, L1, L2, rfl, rfl, h1, h2⟩ := h
    rw [LocalDocD] at hl
    obtain ⟨a1, a2⟩ := Done.shows h1 hl.1
    obtain ⟨b1, b2⟩ := DoneD.shows h2 hl.2
    rw [resolveD, anchoredD]
    exact ⟨by rw [ShowsD]; exact ⟨r, rest, rfl, a1, b1⟩, a2.append b2⟩
end

/-- Creating and loading one more document. -/
theorem load_mirrors (E : Env) {s : St} {docs : List Doc} (hm : Mirrors s docs) (hst : s.storage = []) {voc : List Kw}
    (hvoc : (voc.filter fun k => !k.isAssertion) = [.ref, .anchor, .id]) {kvs : List (Str × Val)} (hl : LocalDoc E.ip (wrap (.dict kvs))) :
    ∃ s1 s2, newDocument (.dict kvs) voc s = (.ok docs.length, s1) ∧ Runs (fun f => (ops E f).load docs.length) s1 (.ok ()) s2 ∧
      s2.storage = [] ∧ Mirrors s2 (docs ++ [docOf E.ip docs.length (wrap (.dict kvs))]) := by
  obtain ⟨ext, -, e⟩ := newDocument_spec (.inr ⟨kvs, rfl⟩) voc s
  obtain ⟨hi, r, L, s2, x, h1, -, h3, h4, h5, h6, h7, h8, h9, h10, h11⟩ := load_full E hvoc (by rw [hst]; simp [dictGet]) e hl
  have hlen := hm.length
  rw [← hlen] at e h1 h7 h11
  refine ⟨_, s2, e, h1, h3.trans hst, ⟨by simp [h4, hlen], fun i y D hy hD => ?_⟩⟩
  have keep : ∀ (j : Nat) c, s.mem[j]? = some c → s2.mem[j]? = some c := fun j c hc => by
    rw [h5 j (List.getElem?_eq_some_iff.1 hc).1]; exact hc
  by_cases hi' : i < docs.length
  · rw [List.getElem?_append_left hi'] at hD
    have hs : s.docs[i]? = some s.docs[i] := List.getElem?_eq_getElem (by omega)
    rw [h6 i _ hs] at hy
    obtain ⟨a, b, c⟩ := hm.doc i _ D (hs.trans hy) hD
    exact ⟨a, b.keep keep, c.keep keep⟩
  · have hlt := (List.getElem?_eq_some_iff.1 hD).1
    simp only [List.length_append, List.length_singleton] at hlt
    obtain rfl : i = docs.length := by omega
    rw [h7] at hy; cases hy
    simp only [List.getElem?_concat_length, Option.some.injEq] at hD
    subst hD
    obtain ⟨a, b⟩ := h11.shows hl
    refine ⟨h9, by rw [h8]; exact a, ?_⟩
    rw [h10]
    exact b.fold (by rw [ShowsD])

end Verif.Obj
