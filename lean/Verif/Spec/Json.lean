import Verif.Model.Types
/-! # Well-formed JSON data (no reference to the behaviour of the code) -/

namespace Verif

def Num.notNaN : Num → Prop
  | .nan => False
  | _ => True

def Flt.notNaN : Flt → Prop
  | .nan => False
  | _ => True

mutual
/-- Python data as it can exist: dictionaries have distinct keys.  NaN is excluded, being unequal to itself. -/
def Val.Plain : Val → Prop
  | .flt x => x.notNaN
  | .dec d => d.notNaN
  | .list xs => Val.PlainL xs
  | .dict kvs => (kvs.map Prod.fst).Nodup ∧ Val.PlainD kvs
  | _ => True
def Val.PlainL : List Val → Prop
  | [] => True
  | x :: xs => x.Plain ∧ Val.PlainL xs
def Val.PlainD : List (Str × Val) → Prop
  | [] => True
  | (_, x) :: xs => x.Plain ∧ Val.PlainD xs
end

mutual
/-- A wrapped tree without references and with distinct keys in every object. -/
def Node.RefFree : Node → Prop
  | .arr xs => Node.RefFreeL xs
  | .obj kvs => (kvs.map Prod.fst).Nodup ∧ Node.RefFreeD kvs
  | .ref _ _ _ => False
  | _ => True
def Node.RefFreeL : List Node → Prop
  | [] => True
  | x :: xs => x.RefFree ∧ Node.RefFreeL xs
def Node.RefFreeD : List (Str × Node) → Prop
  | [] => True
  | (_, x) :: xs => x.RefFree ∧ Node.RefFreeD xs
end

theorem Node.refFreeL_iff {xs : List Node} : Node.RefFreeL xs ↔ ∀ x ∈ xs, x.RefFree := by
  induction xs with
  | nil => simp [Node.RefFreeL]
  | cons x xs ih => simp [Node.RefFreeL, ih]

theorem Node.refFreeD_iff {xs : List (Str × Node)} : Node.RefFreeD xs ↔ ∀ p ∈ xs, p.2.RefFree := by
  induction xs with
  | nil => simp [Node.RefFreeD]
  | cons x xs ih => obtain ⟨k, x⟩ := x; simp [Node.RefFreeD, ih]

theorem Val.plainL_iff {xs : List Val} : Val.PlainL xs ↔ ∀ x ∈ xs, x.Plain := by
  induction xs with
  | nil => simp [Val.PlainL]
  | cons x xs ih => simp [Val.PlainL, ih]

theorem Val.plainD_iff {xs : List (Str × Val)} : Val.PlainD xs ↔ ∀ p ∈ xs, p.2.Plain := by
  induction xs with
  | nil => simp [Val.PlainD]
  | cons x xs ih => obtain ⟨k, x⟩ := x; simp [Val.PlainD, ih]

end Verif
