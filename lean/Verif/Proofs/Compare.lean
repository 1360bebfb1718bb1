import Verif.Model.Compare
import Verif.Spec.Compare
import Verif.Proofs.Types

namespace Verif

/-- Which number is smaller. -/
def numOrd : Num → Num → Ordering
  | .fin p, .fin q => if p < q then .lt else if p = q then .eq else .gt
  | .inf s, .inf t => if s = t then .eq else if s then .lt else .gt
  | .inf s, _ => if s then .lt else .gt
  | .fin _, .inf s => if s then .gt else .lt
  | _, _ => .eq

mutual

/-- Which of two values of one shape comes first, computed. -/
def ord : Node → Node → Ordering
  | .num m, .num n => numOrd m n
  | .str s, .str t => strCompare s t
  | .bool a, .bool b => natCompare a.toNat b.toNat
  | .arr xs, .arr ys => listOrd xs ys
  | _, _ => .eq

def listOrd : List Node → List Node → Ordering
  | [], ys => natCompare 0 ys.length
  | _ :: xs, [] => natCompare (xs.length + 1) 0
  | x :: xs, y :: ys => match ord x y with
    | .eq => listOrd xs ys
    | o => o

end

theorem numOrd_refl (n : Num) : numOrd n n = .eq := by cases n <;> simp [numOrd, Rat.lt_irrefl]

theorem strCompare_refl (s : Str) : strCompare s s = .eq := by induction s <;> simp_all [strCompare]

theorem natCompare_refl (n : Nat) : natCompare n n = .eq := by simp [natCompare]

mutual
theorem ord_refl : ∀ a : Node, ord a a = .eq
  | .num n => numOrd_refl n
  | .str s => strCompare_refl s
  | .bool _ => natCompare_refl _
  | .arr xs => listOrd_refl xs
  | .null => rfl
  | .obj _ => rfl
  | .ref .. => rfl
theorem listOrd_refl : ∀ xs : List Node, listOrd xs xs = .eq
  | [] => rfl
  | x :: xs => by rw [listOrd, ord_refl x]; exact listOrd_refl xs
end

theorem strCompare_char (p s t : Str) (c d : Char) (h : c.toNat < d.toNat) : strCompare (p ++ c :: s) (p ++ d :: t) = .lt := by
  induction p with
  | nil => have : c ≠ d := by rintro rfl; omega
           simp [strCompare, this, h]
  | cons e p ih => simpa [strCompare] using ih

theorem strCompare_longer (s t : Str) (c : Char) : strCompare s (s ++ c :: t) = .lt := by
  induction s with
  | nil => rfl
  | cons e p ih => simpa [strCompare] using ih

theorem listOrd_append (ps xs ys : List Node) : listOrd (ps ++ xs) (ps ++ ys) = listOrd xs ys := by
  induction ps with
  | nil => rfl
  | cons p ps ih => simp only [List.cons_append, listOrd, ord_refl, ih]

/-- What comes before is found smaller. -/
theorem ord_of_before {a b : Node} (h : Before a b) : ord a b = .lt := by
  induction h with
  | @number m n h =>
    rw [ord]
    cases h with
    | fin p q h => simp [numOrd, h]
    | low p => simp [numOrd]
    | high p => simp [numOrd]
    | ends => simp [numOrd]
  | boolean => rfl
  | char p s t h => rw [ord]; exact strCompare_char p s t _ _ h
  | longer s c t => rw [ord]; exact strCompare_longer s t c
  | item ps xs ys h ih => rw [ord, listOrd_append, listOrd, ih]
  | more ps y ys =>
    rw [ord]
    have := listOrd_append ps [] (y :: ys)
    rw [List.append_nil] at this
    rw [this]; simp [listOrd, natCompare]

/-- The three answers. -/
def Three (a b : Node) (o : Ordering) : Prop :=
  (o = .lt → Before a b) ∧ (o = .eq → a = b) ∧ (o = .gt → Before b a)

theorem strCompare_three (s t : Str) : ∀ p, Three (.str (p ++ s)) (.str (p ++ t)) (strCompare s t) := by
  induction s generalizing t with
  | nil =>
    intro p
    cases t with
    | nil => exact ⟨by simp [strCompare], by simp, by simp [strCompare]⟩
    | cons d t => refine ⟨fun _ => ?_, by simp [strCompare], by simp [strCompare]⟩; simpa using Before.longer p d t
  | cons c s ih =>
    intro p
    cases t with
    | nil => refine ⟨by simp [strCompare], by simp [strCompare], fun _ => ?_⟩; simpa using Before.longer p c s
    | cons d t =>
      unfold strCompare
      split
      · next h => subst h; simpa using ih t (p ++ [c])
      · next h =>
        split
        · next hl => exact ⟨fun _ => .char p s t hl, by simp, by simp⟩
        · next hl =>
          refine ⟨by simp, by simp, fun _ => .char p t s ?_⟩
          have : c.toNat ≠ d.toNat := fun e => h (Char.toNat_inj.1 e)
          omega

theorem numOrd_three (m n : Num) (hm : m ≠ .nan) (hn : n ≠ .nan) : Three (.num m) (.num n) (numOrd m n) := by
  cases m with
  | nan => exact absurd rfl hm
  | fin p =>
    cases n with
    | nan => exact absurd rfl hn
    | fin q =>
      simp only [numOrd]
      split
      · next h => exact ⟨fun _ => .number (.fin _ _ h), by simp, by simp⟩
      split
      · next h => subst h; exact ⟨by simp, by simp, by simp⟩
      · next h1 h2 => exact ⟨by simp, by simp, fun _ => .number (.fin _ _ (by grind))⟩
    | inf s =>
      cases s
      · exact ⟨fun _ => .number (.high _), by simp [numOrd], by simp [numOrd]⟩
      · exact ⟨by simp [numOrd], by simp [numOrd], fun _ => .number (.low _)⟩
  | inf s =>
    cases n with
    | nan => exact absurd rfl hn
    | fin q =>
      cases s
      · exact ⟨by simp [numOrd], by simp [numOrd], fun _ => .number (.high _)⟩
      · exact ⟨fun _ => .number (.low _), by simp [numOrd], by simp [numOrd]⟩
    | inf t =>
      cases s <;> cases t
      · exact ⟨by simp [numOrd], by simp, by simp [numOrd]⟩
      · exact ⟨by simp [numOrd], by simp [numOrd], fun _ => .number .ends⟩
      · exact ⟨fun _ => .number .ends, by simp [numOrd], by simp [numOrd]⟩
      · exact ⟨by simp [numOrd], by simp, by simp [numOrd]⟩

theorem listOrd_three (s : Shape) (ih : ∀ a b, HasShape s a → HasShape s b → Three a b (ord a b)) (xs : List Node) :
    ∀ ps ys, (∀ x ∈ xs, HasShape s x) → (∀ y ∈ ys, HasShape s y) → Three (.arr (ps ++ xs)) (.arr (ps ++ ys)) (listOrd xs ys) := by
  induction xs with
  | nil =>
    intro ps ys _ _
    cases ys with
    | nil => exact ⟨by simp [listOrd, natCompare], by simp, by simp [listOrd, natCompare]⟩
    | cons y ys => refine ⟨fun _ => ?_, by simp [listOrd, natCompare], by simp [listOrd, natCompare]⟩; simpa using Before.more ps y ys
  | cons x xs ihx =>
    intro ps ys hx hy
    cases ys with
    | nil => refine ⟨by simp [listOrd, natCompare], by simp [listOrd, natCompare], fun _ => ?_⟩; simpa using Before.more ps x xs
    | cons y ys =>
      have h3 := ih x y (hx x (by simp)) (hy y (by simp))
      rw [listOrd]
      cases h : ord x y with
      | lt => exact ⟨fun _ => .item ps xs ys (h3.1 h), by simp, by simp⟩
      | gt => exact ⟨by simp, by simp, fun _ => .item ps ys xs (h3.2.2 h)⟩
      | eq =>
        have e := h3.2.1 h
        subst e
        simpa using ihx (ps ++ [x]) ys (fun z hz => hx z (by simp [hz])) (fun z hz => hy z (by simp [hz]))

theorem ord_three (s : Shape) : ∀ a b, HasShape s a → HasShape s b → Three a b (ord a b) := by
  induction s with
  | number => rintro _ _ ⟨m, hm⟩ ⟨n, hn⟩; exact numOrd_three m n hm hn
  | string => rintro _ _ ⟨⟩ ⟨⟩; next s t => rw [ord]; simpa using strCompare_three s t []
  | boolean =>
    rintro _ _ ⟨⟩ ⟨⟩
    next a b =>
      rw [ord]
      cases a <;> cases b
      · exact ⟨by simp [natCompare], by simp, by simp [natCompare]⟩
      · exact ⟨fun _ => .boolean, by simp [natCompare], by simp [natCompare]⟩
      · exact ⟨by simp [natCompare], by simp [natCompare], fun _ => .boolean⟩
      · exact ⟨by simp [natCompare], by simp, by simp [natCompare]⟩
  | array s ih =>
    rintro _ _ ⟨⟩ ⟨⟩
    next xs hx ys hy => rw [ord]; simpa using listOrd_three s ih xs [] ys hx hy

/-- The model's comparisons of two numbers. -/
theorem onNum_ord (op : CmpOp) (m n : Num) (hm : m ≠ .nan) (hn : n ≠ .nan) : op.onNum m n = .ok (op.holds (numOrd m n)) := by
  cases m with
  | nan => exact absurd rfl hm
  | fin p =>
    cases n with
    | nan => exact absurd rfl hn
    | fin q =>
      cases op <;> simp only [CmpOp.onNum, Num.lt, Num.le, numOrd, Res.ok.injEq]
      all_goals (by_cases h1 : p < q <;> by_cases h2 : p = q <;> simp [h1, h2, CmpOp.holds, Rat.lt_irrefl] <;> grind)
    | inf s => cases s <;> cases op <;> rfl
  | inf s =>
    cases n with
    | nan => exact absurd rfl hn
    | fin q => cases s <;> cases op <;> rfl
    | inf t => cases s <;> cases t <;> cases op <;> rfl

theorem onJson_num (op : CmpOp) (m n : Num) : op.onJson m (.node (.num n)) = op.onNum m n := by cases op <;> rfl

theorem numEq_ord (m n : Num) (hm : m ≠ .nan) (hn : n ≠ .nan) : m.eq n = (numOrd m n == .eq) := by
  cases m with
  | nan => exact absurd rfl hm
  | fin p =>
    cases n with
    | nan => exact absurd rfl hn
    | fin q =>
      simp only [Num.eq, numOrd]
      by_cases h1 : p < q <;> by_cases h2 : p = q <;> simp [h1, h2, Rat.lt_irrefl]
    | inf s => cases s <;> rfl
  | inf s =>
    cases n with
    | nan => exact absurd rfl hn
    | fin q => cases s <;> rfl
    | inf t => cases s <;> cases t <;> rfl

theorem listEq_ord (s : Shape) (ih : ∀ a b, HasShape s a → HasShape s b → nodeEq a b = .ok (ord a b == .eq)) (xs : List Node) :
    ∀ ys, (∀ x ∈ xs, HasShape s x) → (∀ y ∈ ys, HasShape s y) →
      (if xs.length = ys.length then nodeListEq xs ys else .ok false) = .ok (listOrd xs ys == .eq) := by
  induction xs with
  | nil =>
    intro ys _ _
    cases ys with
    | nil => rfl
    | cons y ys => simp [listOrd, natCompare]
  | cons x xs ihx =>
    intro ys hx hy
    cases ys with
    | nil => simp [listOrd, natCompare]
    | cons y ys =>
      have h3 := ih x y (hx x (by simp)) (hy y (by simp))
      have h4 := ihx ys (fun z hz => hx z (by simp [hz])) (fun z hz => hy z (by simp [hz]))
      simp only [List.length_cons, Nat.add_right_cancel_iff, nodeListEq, h3, Res.ok_bind, listOrd]
      cases h : ord x y <;> simp
      exact h4

theorem nodeEq_ord (s : Shape) : ∀ a b, HasShape s a → HasShape s b → nodeEq a b = .ok (ord a b == .eq) := by
  induction s with
  | number => rintro _ _ ⟨m, hm⟩ ⟨n, hn⟩; rw [nodeEq, ord, numEq_ord m n hm hn]
  | string =>
    rintro _ _ ⟨⟩ ⟨⟩
    next s t =>
      rw [nodeEq, ord]
      have h3 := strCompare_three s t []
      congr 1
      by_cases h : s = t
      · subst h; simp [strCompare_refl]
      · have : strCompare s t ≠ .eq := fun e => h (by simpa using h3.2.1 e)
        cases hc : strCompare s t <;> simp_all
  | boolean => rintro _ _ ⟨⟩ ⟨⟩; next a b => cases a <;> cases b <;> rfl
  | array s ih =>
    rintro _ _ ⟨⟩ ⟨⟩
    next xs hx ys hy => rw [nodeEq, ord]; exact listEq_ord s ih xs ys hx hy

theorem listCmp_ord (s : Shape) (op : CmpOp) (ih : ∀ a b, HasShape s a → HasShape s b → nodeCmp op a b = .ok (op.holds (ord a b)))
    (xs : List Node) : ∀ ys, (∀ x ∈ xs, HasShape s x) → (∀ y ∈ ys, HasShape s y) → listCmp op xs ys = .ok (op.holds (listOrd xs ys)) := by
  induction xs with
  | nil => intro ys _ _; rfl
  | cons x xs ihx =>
    intro ys hx hy
    cases ys with
    | nil => rfl
    | cons y ys =>
      have h3 := ih x y (hx x (by simp)) (hy y (by simp))
      have h5 := nodeEq_ord s x y (hx x (by simp)) (hy y (by simp))
      have h4 := ihx ys (fun z hz => hx z (by simp [hz])) (fun z hz => hy z (by simp [hz]))
      rw [listCmp, h5, Res.ok_bind, listOrd, h3, h4]
      cases h : ord x y <;> simp

theorem nodeCmp_ord (s : Shape) (op : CmpOp) : ∀ a b, HasShape s a → HasShape s b → nodeCmp op a b = .ok (op.holds (ord a b)) := by
  induction s with
  | number => rintro _ _ ⟨m, hm⟩ ⟨n, hn⟩; rw [nodeCmp, ord, onJson_num, onNum_ord op m n hm hn]
  | string => rintro _ _ ⟨⟩ ⟨⟩; rfl
  | boolean => rintro _ _ ⟨⟩ ⟨⟩; rfl
  | array s ih =>
    rintro _ _ ⟨⟩ ⟨⟩
    next xs hx ys hy => rw [nodeCmp, ord]; exact listCmp_ord s op ih xs ys hx hy

/-- With plain data on the right the answer is that for the wrapped data. -/
theorem eqVal_wrap (s : Shape) : ∀ a v, HasShape s a → HasShape s (wrap v) → nodeEqVal a v = nodeEq a (wrap v) := by
  induction s with
  | number =>
    intro a v ha hv
    cases ha
    cases v <;> simp only [wrap] at hv <;> first | (exfalso; cases hv; done) | rfl
  | string =>
    intro a v ha hv
    cases ha
    cases v <;> simp only [wrap] at hv <;> first | (exfalso; cases hv; done) | rfl
  | boolean =>
    intro a v ha hv
    cases ha
    cases v <;> simp only [wrap] at hv <;> first | (exfalso; cases hv; done) | rfl
  | array s ih =>
    intro a v ha hv
    cases ha
    next xs hx =>
    cases v <;> simp only [wrap] at hv <;> first | (exfalso; cases hv; done) | skip
    next ys =>
    cases hv
    next hy =>
    rw [nodeEqVal, wrap, nodeEq]
    have hl : (wrapList ys).length = ys.length := by
      clear hy; induction ys <;> simp_all [wrapList]
    rw [hl]
    congr 1
    clear hl
    induction xs generalizing ys with
    | nil => rfl
    | cons x xs ihx =>
      cases ys with
      | nil => rfl
      | cons y ys =>
        rw [listEqVal, wrapList, nodeListEq, ih x y (hx x (by simp)) (hy _ (by simp [wrapList])),
          ihx (fun z hz => hx z (by simp [hz])) ys (fun z hz => hy z (by simp [wrapList, hz]))]

theorem cmpVal_wrap (s : Shape) (op : CmpOp) : ∀ a v, HasShape s a → HasShape s (wrap v) → nodeCmpVal op a v = nodeCmp op a (wrap v) := by
  induction s with
  | number =>
    intro a v ha hv
    cases ha
    cases v <;> simp only [wrap] at hv <;> first | (exfalso; cases hv; done) | (cases op <;> rfl)
  | string =>
    intro a v ha hv
    cases ha
    cases v <;> simp only [wrap] at hv <;> first | (exfalso; cases hv; done) | rfl
  | boolean =>
    intro a v ha hv
    cases ha
    cases v <;> simp only [wrap] at hv <;> first | (exfalso; cases hv; done) | skip
    next a b => cases a <;> cases b <;> cases op <;> decide +kernel
  | array s ih =>
    intro a v ha hv
    cases ha
    next xs hx =>
    cases v <;> simp only [wrap] at hv <;> first | (exfalso; cases hv; done) | skip
    next ys =>
    cases hv
    next hy =>
    rw [nodeCmpVal, wrap, nodeCmp]
    induction xs generalizing ys with
    | nil =>
      have hl : (wrapList ys).length = ys.length := by
        clear hy; induction ys <;> simp_all [wrapList]
      rw [listCmpVal, listCmp, hl]
    | cons x xs ihx =>
      cases ys with
      | nil => rfl
      | cons y ys =>
        rw [listCmpVal, wrapList, listCmp, ih x y (hx x (by simp)) (hy _ (by simp [wrapList])),
          eqVal_wrap s x y (hx x (by simp)) (hy _ (by simp [wrapList])),
          ihx (fun z hz => hx z (by simp [hz])) ys (fun z hz => hy z (by simp [wrapList, hz]))]

theorem before_trans (s : Shape) : ∀ a b c, HasShape s a → HasShape s b → HasShape s c → Before a b → Before b c → Before a c := by
  induction s with
  | number =>
    rintro _ _ _ ⟨⟩ ⟨⟩ ⟨⟩ ⟨h1⟩ ⟨h2⟩
    refine .number ?_
    cases h1 <;> cases h2 <;> constructor
    grind
  | string =>
    rintro _ _ _ ⟨⟩ ⟨⟩ ⟨⟩ h1 h2
    next s t u =>
    have a := ord_of_before h1
    have b := ord_of_before h2
    rw [ord] at a b
    refine (by simpa using (strCompare_three s u []).1 : _ → _) ?_
    clear h1 h2
    induction s generalizing t u with
    | nil =>
      cases t with
      | nil => cases a
      | cons d t => cases u <;> simp_all [strCompare]
    | cons e s ih =>
      cases t with
      | nil => cases a
      | cons d t =>
        cases u with
        | nil => cases b
        | cons f u =>
          simp only [strCompare] at a b ⊢
          split at a
          · next h =>
            subst h
            split at b
            · next h' => subst h'; rw [if_pos rfl]; exact ih t u a b
            · next h' => split at b
                         · next hl => rw [if_neg h', if_pos hl]
                         · cases b
          · next h =>
            split at a
            · next hl =>
              split at b
              · next h' => subst h'; rw [if_neg h, if_pos hl]
              · next h' =>
                split at b
                · next hl' =>
                  rw [if_neg (by rintro rfl; omega), if_pos (by omega)]
                · cases b
            · cases a
  | boolean => rintro _ _ _ ⟨⟩ ⟨⟩ ⟨⟩ ⟨⟩ h2; cases h2
  | array s ih =>
    rintro _ _ _ ⟨⟩ ⟨⟩ ⟨⟩ h1 h2
    next xs hx ys hy zs hz =>
    have a := ord_of_before h1
    have b := ord_of_before h2
    rw [ord] at a b
    refine (by simpa using (listOrd_three s (ord_three s) xs [] zs hx hz).1 : _ → _) ?_
    clear h1 h2
    induction xs generalizing ys zs with
    | nil =>
      cases ys with
      | nil => cases a
      | cons y ys => cases zs <;> simp_all [listOrd, natCompare]
    | cons x xs ihx =>
      cases ys with
      | nil => simp [listOrd, natCompare] at a
      | cons y ys =>
        cases zs with
        | nil => simp [listOrd, natCompare] at b
        | cons z zs =>
          have sx := hx x (by simp)
          have sy := hy y (by simp)
          have sz := hz z (by simp)
          simp only [listOrd] at a b ⊢
          cases e1 : ord x y with
          | gt => rw [e1] at a; cases a
          | eq =>
            have := (ord_three s x y sx sy).2.1 e1
            subst this
            rw [e1] at a
            cases e2 : ord x z with
            | gt => rw [e2] at b; cases b
            | lt => rfl
            | eq =>
              rw [e2] at b
              exact ihx (fun z hz => hx z (by simp [hz])) ys (fun z hz => hy z (by simp [hz])) zs (fun w hw => hz w (by simp [hw])) a b
          | lt =>
            have bxy := (ord_three s x y sx sy).1 e1
            cases e2 : ord y z with
            | gt => rw [e2] at b; cases b
            | eq =>
              have := (ord_three s y z sy sz).2.1 e2
              subst this
              rw [e1]
            | lt => rw [ord_of_before (ih x y z sx sy sz bxy ((ord_three s y z sy sz).1 e2))]

end Verif
