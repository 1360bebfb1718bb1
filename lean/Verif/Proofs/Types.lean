import Verif.Proofs.Dict
import Verif.Spec.Json
import Verif.Spec.Map
/-! # Lemmas about wrapped values -/

namespace Verif

theorem wrapList_length (xs : List Val) : (wrapList xs).length = xs.length := by
  induction xs with
  | nil => rfl
  | cons x xs ih => simp [wrapList, ih]

theorem wrapDict_length (xs : List (Str × Val)) : (wrapDict xs).length = xs.length := by
  induction xs with
  | nil => rfl
  | cons x xs ih => obtain ⟨k, x⟩ := x; simp [wrapDict, ih]

theorem Num.eq_self {n : Num} (h : n.notNaN) : n.eq n = true := by
  cases n <;> simp_all [Num.eq, Num.notNaN]

mutual
theorem wrapped_node : ∀ v : Val, v.Plain → nodeEqVal (wrap v) v = .ok true
  | .null, _ => by simp [wrap, nodeEqVal]
  | .bool b, _ => by simp [wrap, nodeEqVal]
  | .int n, _ => by simp [wrap, nodeEqVal, Num.eq]
  | .flt x, h => by
    have : x.shownNum.notNaN := by cases x <;> simp_all [Val.Plain, Flt.notNaN, Flt.shownNum, Num.notNaN]
    simp [wrap, nodeEqVal, Num.eq_self this]
  | .dec d, h => by simp [wrap, nodeEqVal, Num.eq_self (show d.notNaN from h)]
  | .str s, _ => by simp [wrap, nodeEqVal]
  | .list xs, h => by
    simp only [wrap, nodeEqVal, wrapList_length, if_true]
    exact wrapped_list xs h
  | .dict kvs, h => by
    simp only [wrap, nodeEqVal, wrapDict_length, if_true]
    exact wrapped_dict kvs kvs h.2 (fun k x hx => dictGet_of_mem h.1 hx)
theorem wrapped_list : ∀ xs : List Val, Val.PlainL xs → listEqVal (wrapList xs) xs = .ok true
  | [], _ => by simp [wrapList, listEqVal]
  | x :: xs, h => by simp [wrapList, listEqVal, wrapped_node x h.1, wrapped_list xs h.2]
theorem wrapped_dict : ∀ (kvs kws : List (Str × Val)), Val.PlainD kvs →
    (∀ k x, (k, x) ∈ kvs → dictGet k kws = some x) → dictEqVal (wrapDict kvs) kws = .ok true
  | [], _, _, _ => by simp [wrapDict, dictEqVal]
  | (k, x) :: xs, kws, h, hg => by
    simp [wrapDict, dictEqVal, hg k x (by simp), wrapped_node x h.1,
      wrapped_dict xs kws h.2 (fun k y hy => hg k y (by simp [hy]))]
end

theorem opVal_num {o : Operand} {q : Rat} (h : opVal o = some q) : o.num = .ok (.fin q) := by
  cases o with
  | node n =>
    cases n with
    | num n => cases n <;> simp_all [opVal, Operand.num]
    | _ => simp [opVal] at h
  | val v =>
    cases v with
    | bool b => simp_all [opVal, Operand.num]
    | int n => simp_all [opVal, Operand.num]
    | flt x => cases x <;> simp_all [opVal, Operand.num, Flt.shownNum]
    | dec d => cases d <;> simp_all [opVal, Operand.num]
    | _ => simp [opVal] at h

/-- Simulation relation. -/
def MapRel (d : List (Str × Node)) (m : OMap) : Prop :=
  (d.map Prod.fst).Nodup ∧ m.order = d.map Prod.fst ∧ ∀ k, m.val k = dictGet k d

theorem values_filterMap (d : List (Str × Node)) (hn : (d.map Prod.fst).Nodup) :
    (d.map Prod.fst).filterMap (fun k => dictGet k d) = d.map Prod.snd := by
  rw [List.filterMap_map]
  have : ∀ p ∈ d, ((fun k => dictGet k d) ∘ Prod.fst) p = some p.2 := by
    intro p hp; exact dictGet_of_mem hn hp
  clear hn
  generalize hf : ((fun k => dictGet k d) ∘ Prod.fst) = f at this
  clear hf
  induction d with
  | nil => rfl
  | cons p d ih =>
    rw [List.filterMap_cons, this p (by simp), List.map_cons, ih fun q hq => this q (by simp [hq])]

theorem mapRel_step (d : List (Str × Node)) (m : OMap) (h : MapRel d m) (o : ObjOp) :
    (objStep d o).2 = (m.step o).2 ∧ MapRel (objStep d o).1 (m.step o).1 := by
  obtain ⟨hn, ho, hv⟩ := h
  cases o with
  | set k x =>
    refine ⟨rfl, nodup_set _ _ _ hn, ?_, ?_⟩
    · simp only [OMap.step, objStep, ho, keys_set]
    · intro j; simp only [OMap.step, objStep, dictGet_set, hv]
  | del k =>
    have e : dictHas k d = false → dictDel k d = d := by
      intro h
      have hk : k ∉ d.map Prod.fst := by rw [← dictHas_iff, h]; simp
      clear hn ho hv h
      induction d with
      | nil => rfl
      | cons p d ih =>
        simp at hk
        obtain ⟨j, y⟩ := p
        simp only [dictDel]
        rw [if_neg (fun e => hk.1 e.symm), ih (by simpa using hk.2)]
    have e' : (objStep d (.del k)).1 = dictDel k d := by
      simp only [objStep]
      split
      · next h => exact (e (by simpa using h)).symm
      · rfl
    have e2 : (objStep d (.del k)).2 = .ok .none := by simp only [objStep]; split <;> rfl
    refine ⟨e2, ?_⟩
    rw [e']
    refine ⟨nodup_del _ _ hn, ?_, ?_⟩
    · simp only [OMap.step, ho, keys_del k d hn]
    · intro j; simp only [OMap.step, dictGet_del k j d hn, hv]
  | get k =>
    have e1 : (objStep d (.get k)).1 = d := by simp only [objStep]; split <;> rfl
    refine ⟨?_, by rw [e1]; exact ⟨hn, ho, hv⟩⟩
    simp only [OMap.step, objStep, hv]
    split
    · rfl
    · next h =>
      have : dictGet k d = none := by simpa [dictHas] using h
      rw [this]
  | has k =>
    refine ⟨?_, hn, ho, hv⟩
    simp only [OMap.step, objStep, ho]
    congr 2
    rw [Bool.eq_iff_iff, dictHas_iff]; simp
  | len => exact ⟨by simp [OMap.step, objStep, ho], hn, ho, hv⟩
  | keys => exact ⟨by simp [OMap.step, objStep, ho], hn, ho, hv⟩
  | values =>
    refine ⟨?_, hn, ho, hv⟩
    simp only [OMap.step, objStep, ho]
    rw [show m.val = fun k => dictGet k d from funext hv, values_filterMap d hn]

theorem wrapDict_eq_map (d : List (Str × Val)) : wrapDict d = d.map fun p => (p.1, wrap p.2) := by
  induction d with
  | nil => rfl
  | cons p d ih => obtain ⟨k, x⟩ := p; simp [wrapDict, ih]

theorem dictGet_wrapDict (k : Str) (d : List (Str × Val)) : dictGet k (wrapDict d) = (dictGet k d).map wrap := by
  induction d with
  | nil => rfl
  | cons p d ih => obtain ⟨j, x⟩ := p; simp only [wrapDict, dictGet]; split <;> simp [ih]

mutual
theorem nodeEq_cases : ∀ a b : Node, a.RefFree → b.RefFree →
    (∃ r, nodeEq a b = .ok r) ∨ nodeEq a b = .err .typeError
  | .null, b, _, hb => by cases b <;> simp_all [nodeEq, Node.RefFree]
  | .bool x, b, _, _ => by cases b <;> simp [nodeEq]
  | .num n, b, _, _ => by cases b <;> simp [nodeEq]
  | .str s, b, _, hb => by cases b <;> simp_all [nodeEq, Node.RefFree]
  | .arr xs, b, ha, hb => by
    cases b with
    | arr ys =>
      simp only [nodeEq]
      split
      · exact nodeListEq_cases xs ys ha hb
      · exact .inl ⟨_, rfl⟩
    | ref => simp [Node.RefFree] at hb
    | _ => exact .inl ⟨false, by simp [nodeEq]⟩
  | .obj kvs, b, ha, hb => by
    cases b with
    | obj kws =>
      simp only [nodeEq]
      split
      · exact nodeDictEq_cases kvs kws ha.2 hb.2
      · exact .inl ⟨_, rfl⟩
    | ref => simp [Node.RefFree] at hb
    | _ => exact .inl ⟨false, by simp [nodeEq]⟩
  | .ref _ _ _, _, ha, _ => by simp [Node.RefFree] at ha
theorem nodeListEq_cases : ∀ xs ys : List Node, Node.RefFreeL xs → Node.RefFreeL ys →
    (∃ r, nodeListEq xs ys = .ok r) ∨ nodeListEq xs ys = .err .typeError
  | [], _, _, _ => by simp [nodeListEq]
  | _ :: _, [], _, _ => by simp [nodeListEq]
  | x :: xs, y :: ys, hx, hy => by
    rcases nodeEq_cases x y hx.1 hy.1 with ⟨r, h⟩ | h
    · cases r
      · exact .inl ⟨false, by simp [nodeListEq, h]⟩
      · simp only [nodeListEq, h, Res.ok_bind, if_true]
        exact nodeListEq_cases xs ys hx.2 hy.2
    · exact .inr (by simp [nodeListEq, h])
theorem nodeDictEq_cases : ∀ xs ys : List (Str × Node), Node.RefFreeD xs → Node.RefFreeD ys →
    (∃ r, nodeDictEq xs ys = .ok r) ∨ nodeDictEq xs ys = .err .typeError
  | [], _, _, _ => by simp [nodeDictEq]
  | (k, x) :: xs, ys, hx, hy => by
    simp only [nodeDictEq]
    cases hg : dictGet k ys with
    | none => exact .inl ⟨false, rfl⟩
    | some y =>
      have hy' : y.RefFree := Node.refFreeD_iff.1 hy _ (dictGet_mem hg)
      rcases nodeEq_cases x y hx.1 hy' with ⟨r, h⟩ | h
      · cases r
        · exact .inl ⟨false, by simp [h]⟩
        · simp only [h, Res.ok_bind, if_true]
          exact nodeDictEq_cases xs ys hx.2 hy
      · exact .inr (by simp [h])
end

theorem nodeDictEq_true_iff (xs ys : List (Str × Node)) :
    nodeDictEq xs ys = .ok true ↔ ∀ p ∈ xs, ∃ y, dictGet p.1 ys = some y ∧ nodeEq p.2 y = .ok true := by
  induction xs with
  | nil => simp [nodeDictEq]
  | cons p xs ih =>
    obtain ⟨k, x⟩ := p
    simp only [nodeDictEq, List.mem_cons, forall_eq_or_imp]
    cases hg : dictGet k ys with
    | none => simp
    | some y =>
      simp only [Option.some.injEq, exists_eq_left']
      cases h : nodeEq x y with
      | ok r => cases r <;> simp [ih]
      | err e => simp
      | timeout => simp

/-- Two duplicate-free lists of equal length, one included in the other, have the same members. -/
theorem subset_of_length {l m : List Str} (hl : l.Nodup) (hs : ∀ x ∈ l, x ∈ m) (hlen : m.length ≤ l.length) :
    ∀ x ∈ m, x ∈ l := by
  induction l generalizing m with
  | nil => simp at hlen; subst hlen; simp
  | cons a l ih =>
    simp only [List.nodup_cons] at hl
    have ham : a ∈ m := hs a (by simp)
    intro x hx
    by_cases hxa : x = a
    · simp [hxa]
    · have := ih (m := m.erase a) hl.2 (by
        intro y hy
        have : y ≠ a := by rintro rfl; exact hl.1 hy
        exact (List.mem_erase_of_ne this).2 (hs y (by simp [hy])))
        (by rw [List.length_erase_of_mem ham]; simp at hlen; omega) x ((List.mem_erase_of_ne hxa).2 hx)
      simp [this]

theorem Num.eq_comm (n m : Num) : n.eq m = m.eq n := by
  cases n <;> cases m <;> simp [Num.eq, _root_.eq_comm]

mutual
theorem nodeEq_true_symm : ∀ a b : Node, a.RefFree → b.RefFree → nodeEq a b = .ok true → nodeEq b a = .ok true
  | .null, b, _, _, h => by cases b <;> simp_all [nodeEq]
  | .bool x, b, _, _, h => by
    cases b <;> simp [nodeEq] at h ⊢
    exact h.symm
  | .num n, b, _, _, h => by
    cases b <;> simp only [nodeEq, reduceCtorEq, Res.ok.injEq] at h ⊢
    rw [Num.eq_comm]; exact h
  | .str t, b, _, _, h => by
    cases b <;> simp [nodeEq] at h ⊢
    exact h.symm
  | .arr xs, b, ha, hb, h => by
    cases b with
    | arr ys =>
      simp only [nodeEq] at h ⊢
      by_cases hl : xs.length = ys.length
      · rw [if_pos hl] at h
        rw [if_pos hl.symm]
        exact nodeListEq_true_symm xs ys ha hb hl h
      · rw [if_neg hl] at h; simp at h
    | _ => simp_all [nodeEq, Node.RefFree]
  | .obj kvs, b, ha, hb, h => by
    cases b with
    | obj kws =>
      simp only [nodeEq] at h ⊢
      by_cases hl : kvs.length = kws.length
      · rw [if_pos hl] at h
        rw [if_pos hl.symm]
        have hsub := (nodeDictEq_true_iff _ _).1 h
        have hk : ∀ x ∈ kvs.map Prod.fst, x ∈ kws.map Prod.fst := by
          intro x hx
          obtain ⟨p, hp, rfl⟩ := List.mem_map.1 hx
          obtain ⟨y, hy, _⟩ := hsub p hp
          exact List.mem_map.2 ⟨_, dictGet_mem hy, rfl⟩
        have hk' := subset_of_length ha.1 hk (by simp [hl])
        rw [nodeDictEq_true_iff]
        intro p hp
        obtain ⟨q, hq, hqe⟩ := List.mem_map.1 (hk' p.1 (List.mem_map_of_mem (f := Prod.fst) hp))
        obtain ⟨y, hy, he⟩ := hsub q hq
        have : dictGet p.1 kws = some p.2 := dictGet_of_mem hb.1 hp
        rw [hqe, this] at hy
        injection hy with hy
        subst hy
        exact ⟨q.2, hqe ▸ dictGet_of_mem ha.1 hq,
          nodeDict_true_symm kvs ha.2 q hq p.2 (Node.refFreeD_iff.1 hb.2 p hp) he⟩
      · rw [if_neg hl] at h; simp at h
    | _ => simp_all [nodeEq, Node.RefFree]
  | .ref _ _ _, _, ha, _, _ => by simp [Node.RefFree] at ha
theorem nodeListEq_true_symm : ∀ xs ys : List Node, Node.RefFreeL xs → Node.RefFreeL ys → xs.length = ys.length →
    nodeListEq xs ys = .ok true → nodeListEq ys xs = .ok true
  | [], ys, _, _, hl, _ => by cases ys <;> simp_all [nodeListEq]
  | x :: xs, [], _, _, hl, _ => by simp at hl
  | x :: xs, y :: ys, hx, hy, hl, h => by
    simp only [nodeListEq] at h ⊢
    cases he : nodeEq x y with
    | ok r =>
      cases r
      · simp [he] at h
      · simp only [he, Res.ok_bind, if_true] at h
        simp only [nodeEq_true_symm x y hx.1 hy.1 he, Res.ok_bind, if_true]
        exact nodeListEq_true_symm xs ys hx.2 hy.2 (by simpa using hl) h
    | err e => simp [he] at h
    | timeout => simp [he] at h
theorem nodeDict_true_symm : ∀ kvs : List (Str × Node), Node.RefFreeD kvs → ∀ p ∈ kvs, ∀ y : Node, y.RefFree →
    nodeEq p.2 y = .ok true → nodeEq y p.2 = .ok true
  | [], _, p, hp, _, _, _ => by simp at hp
  | (k, x) :: kvs, h, p, hp, y, hy, he => by
    rcases List.mem_cons.1 hp with rfl | hp
    · exact nodeEq_true_symm x y h.1 hy he
    · exact nodeDict_true_symm kvs h.2 p hp y hy he
end

end Verif
