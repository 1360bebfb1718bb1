import Verif.Model.Edit
import Verif.Spec.Json
import Verif.Spec.Placed
import Verif.Spec.Bridge
/-! # What C76 and C77 speak about: data that is written to in one place -/

namespace Verif.Spec
open Verif

/-- Going down by the tokens, through members, elements and the members beside `$ref`, leads to a value that was changed as `P` says; everything
else is as before, in the same order. -/
inductive Rewritten (P : Node → Node → Prop) : List Str → Node → Node → Prop
  | here {n n' : Node} (h : P n n') : Rewritten P [] n n'
  | member {a b : List (Str × Node)} {k : Str} {x x' : Node} {ks : List Str} (h : Rewritten P ks x x') :
      Rewritten P (k :: ks) (.obj (a ++ (k, x) :: b)) (.obj (a ++ (k, x') :: b))
  | elem {a b : List Node} {x x' : Node} {ks : List Str} (h : Rewritten P ks x x') :
      Rewritten P (natStr a.length :: ks) (.arr (a ++ x :: b)) (.arr (a ++ x' :: b))
  | node {own own' : List (Str × Node)} {ks : List Str} {d : Nat} {p : List Str} (h : Rewritten P ks (.obj own) (.obj own')) :
      Rewritten P ks (.ref own d p) (.ref own' d p)

/-- An object with other members. -/
inductive OnMembers (P : List (Str × Node) → List (Str × Node) → Prop) : Node → Node → Prop
  | mk {a b : List (Str × Node)} (h : P a b) : OnMembers P (.obj a) (.obj b)

/-- An array with other elements. -/
inductive OnElements (P : List Node → List Node → Prop) : Node → Node → Prop
  | mk {a b : List Node} (h : P a b) : OnElements P (.arr a) (.arr b)

/-- The element counted `t` from the front, or `-t` from the back, is gone. -/
inductive Removes (t : Int) : List Node → List Node → Prop
  | front {a b : List Node} {x : Node} (h : t = a.length) : Removes t (a ++ x :: b) (a ++ b)
  | back {a b : List Node} {x : Node} (h : t = -(b.length + 1 : Int)) : Removes t (a ++ x :: b) (a ++ b)

/-- The element counted `t` from the front, or `-t` from the back, is another. -/
inductive Replaces (t : Int) (y : Node) : List Node → List Node → Prop
  | front {a b : List Node} {x : Node} (h : t = a.length) : Replaces t y (a ++ x :: b) (a ++ y :: b)
  | back {a b : List Node} {x : Node} (h : t = -(b.length + 1 : Int)) : Replaces t y (a ++ x :: b) (a ++ y :: b)

/-- The position of an end of a slice (Python documentation, "Common Sequence Operations", notes 3 and 4). -/
def sliceEnd (n : Nat) (default : Int) : Option Int → Int
  | none => default
  | some t => if t < 0 then max 0 (n + t) else t

/-- `ys` is `xs[a:b]`: the elements at the positions from the one end on, before the other. -/
def SliceOf (a b : Option Int) (xs ys : List Node) : Prop :=
  ∀ (t : Nat) (x : Node), ys[t]? = some x ↔ ∃ u : Nat, u = sliceEnd xs.length 0 a + t ∧ (u : Int) < sliceEnd xs.length xs.length b ∧ xs[u]? = some x

/-- The member `k` has the new value: where it was if there was one, else behind the others. -/
inductive Sets (k : Str) (y : Node) : List (Str × Node) → List (Str × Node) → Prop
  | over {a b : List (Str × Node)} {x : Node} (h : k ∉ (a ++ b).map Prod.fst) : Sets k y (a ++ (k, x) :: b) (a ++ (k, y) :: b)
  | new {kvs : List (Str × Node)} (h : k ∉ kvs.map Prod.fst) : Sets k y kvs (kvs ++ [(k, y)])

/-- The member `k`, which was `x`, is gone. -/
inductive Drops (k : Str) (x : Node) : List (Str × Node) → List (Str × Node) → Prop
  | gone {a b : List (Str × Node)} (h : k ∉ (a ++ b).map Prod.fst) : Drops k x (a ++ (k, x) :: b) (a ++ b)

/-- The members were written one after the other. -/
inductive SetsAll : List (Str × Val) → List (Str × Node) → List (Str × Node) → Prop
  | nil (kvs : List (Str × Node)) : SetsAll [] kvs kvs
  | cons {k : Str} {v : Val} {r : List (Str × Val)} {x y z : List (Str × Node)} (h : Sets k (wrap v) x y) (h' : SetsAll r y z) :
      SetsAll ((k, v) :: r) x z

/-- From the object `i` one gets to `j` through the members and elements named by the tokens, and through the objects that references
stand for, which takes no token. -/
inductive Leading (m : Obj.Mem) : Nat → List Str → Nat → Prop
  | here (i : Nat) : Leading m i [] i
  | member {i j l : Nat} {c : Obj.Cell} {kvs : List (Str × Nat)} {k : Str} {ks : List Str}
      (hc : m[i]? = some c) (hs : c.shape = .obj kvs) (hk : (k, j) ∈ kvs) (h : Leading m j ks l) : Leading m i (k :: ks) l
  | elem {i j l : Nat} {c : Obj.Cell} {xs : List Nat} {t : Nat} {ks : List Str} (hc : m[i]? = some c) (hs : c.shape = .arr xs) (hk : xs[t]? = some j)
      (h : Leading m j ks l) : Leading m i (natStr t :: ks) l
  | node {i j l e : Nat} {ptr : List Str} {c : Obj.Cell} {ks : List Str} (hc : m[i]? = some c) (hs : c.shape = .ref j e ptr) (h : Leading m j ks l) :
      Leading m i ks l

/-- Steps that write plain data to objects, besides the calls on schemas. -/
def PlainEdit : Obj.Edit → Prop
  | .call (.create v _) => v.Plain
  | .set _ _ v => v.Plain
  | .setdefault _ _ v => v.Plain
  | .update _ kvs => ∀ k v, (k, v) ∈ kvs → v.Plain
  | .put .. | .delAt .. | .putAt .. | .slice .. => False
  | _ => True

/-- States that programs of such steps get to, with files of plain data; whatever the steps raised. -/
def Reached (s : Obj.St) : Prop :=
  ∃ (E : Obj.Env) (f : Nat) (cs : List Obj.Edit), (∀ u v, E.file u = .ok v → v.Plain) ∧ (∀ e ∈ cs, PlainEdit e) ∧ (Obj.edits E f cs Obj.St.empty).2 = s

/-- Between the two states the object `i` changed as `P` says and nothing else did: data that leads to `i` is rewritten there, data that
does not is the same, and so are the schemas. -/
structure Written (P : Node → Node → Prop) (i : Nat) (s s' : Obj.St) : Prop where
  inside : ∀ n j ks, Obj.Shows s.mem n j → Leading s.mem j ks i → ∃ n', Obj.Shows s'.mem n' j ∧ Rewritten P ks n n'
  apart : ∀ n j, Obj.Shows s.mem n j → (∀ ks, ¬ Leading s.mem j ks i) → Obj.Shows s'.mem n j
  docs : s'.docs = s.docs
  storage : s'.storage = s.storage

/-- The object `i` has these members. -/
def Members (s : Obj.St) (i : Nat) (kvs : List (Str × Node)) : Prop := Obj.Shows s.mem (.obj kvs) i

end Verif.Spec
