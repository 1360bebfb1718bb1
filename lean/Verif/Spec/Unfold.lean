import Verif.Spec.Refs
/-!
# Schemas with references written out, for C66

`unfold see k n` is the schema `n` in which the references at the places of subschemas are replaced by what they stand for, `k` subschemas deep.
What lies deeper stays as it is.  `see` tells what a node stands for, as far as that is known.
-/

namespace Verif.Spec
open Verif

/-- The member `key` of a schema object, its subschemas replaced by `sub`. -/
def unfoldAt (see : Node → Option Node) (sub : Node → Node) (key : Str) (n : Node) : Node :=
  match n with
  | .arr xs => if key ∈ elementKeys then .arr (xs.map sub) else if key ∈ valueKeys then sub n else n
  | .obj kvs => if key ∈ valueKeys then sub n else if key ∈ mapKeys then .obj (kvs.map fun p => (p.1, sub p.2)) else n
  | _ =>
    if key ∈ valueKeys then sub n
    else if key ∈ mapKeys then
      match see n with
      | some (.obj kvs) => .obj (kvs.map fun p => (p.1, sub p.2))
      | _ => n
    else n

/-- The schema with its references written out, `k` subschemas deep. -/
def unfold (see : Node → Option Node) : Nat → Node → Node
  | 0, n => n
  | k + 1, n =>
    match see n with
    | some (.bool b) => .bool b
    | some (.obj items) => .obj (items.map fun p => (p.1, unfoldAt see (unfold see k) p.1 p.2))
    | _ => n

/-- What `see` tells is what the node shows in these documents. -/
def Truthful (docs : List Doc) (see : Node → Option Node) : Prop := ∀ n m, see n = some m → ∃ f, view docs f n = .ok m

end Verif.Spec
