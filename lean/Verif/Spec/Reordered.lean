import Verif.Model.Types
/-!
# Values that differ in the order of members only

Written from JSON, without reference to the code: an object is an unordered collection of members (RFC 8259, section 1), so the members of the
objects in a value may be written in any order.
-/

namespace Verif.Spec
open Verif

mutual
/-- The same value, with the members of the objects inside possibly in another order. -/
inductive Reordered : Val → Val → Prop
  | same (v : Val) : Reordered v v
  | list {xs ys : List Val} : ReorderedL xs ys → Reordered (.list xs) (.list ys)
  | dict {kvs mid kws : List (Str × Val)} : (kvs.map Prod.fst).Nodup → ReorderedD kvs mid → mid.Perm kws → Reordered (.dict kvs) (.dict kws)
/-- The same items in the same order, each up to the order of members. -/
inductive ReorderedL : List Val → List Val → Prop
  | nil : ReorderedL [] []
  | cons {x y : Val} {xs ys : List Val} : Reordered x y → ReorderedL xs ys → ReorderedL (x :: xs) (y :: ys)
/-- The same members in the same order, the value of each up to the order of members. -/
inductive ReorderedD : List (Str × Val) → List (Str × Val) → Prop
  | nil : ReorderedD [] []
  | cons {k : Str} {x y : Val} {kvs kws : List (Str × Val)} : Reordered x y → ReorderedD kvs kws → ReorderedD ((k, x) :: kvs) ((k, y) :: kws)
end

end Verif.Spec
