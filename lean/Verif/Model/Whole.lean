import Verif.Model.Objects
/-!
# Validation by a schema made from data

`Model/Objects.lean` makes and loads schemas as objects that refer to each other; `Model/Schema.lean` validates with trees, in which a
reference is its own members, a document and a pointer.  Here `JsonSchema.validate` is run on the objects: they are read as trees and then validated
with.  (The code does not build trees: its validators hold the objects.  It reads them through `type`, `value` and the members, of which
C65_node says that they are those of the trees.)
-/

namespace Verif.Obj
open Verif

/-- Read each (not a function of the code). -/
def allL {α β : Type} (g : α → Option β) : List α → Option (List β)
  | [] => some []
  | x :: xs => match g x, allL g xs with
    | some y, some ys => some (y :: ys)
    | _, _ => none

/-- Read each under its name (not a function of the code). -/
def allD {α β : Type} (g : α → Option β) : List (Str × α) → Option (List (Str × β))
  | [] => some []
  | (k, x) :: xs => match g x, allD g xs with
    | some y, some ys => some ((k, y) :: ys)
    | _, _ => none

/-- The tree an object and those below it make up, at most `f` deep (not a function of the code). -/
def treeOf (m : Mem) : Nat → Nat → Option Node
  | 0, _ => none
  | f + 1, i => match m[i]? with
    | none => none
    | some c => match c.shape with
      | .null => some .null
      | .bool b => some (.bool b)
      | .num n => some (.num n)
      | .str t => some (.str t)
      | .arr ids => (allL (treeOf m f) ids).map .arr
      | .obj ids => (allD (treeOf m f) ids).map .obj
      | .ref j d p => match m[j]? with
        | some ⟨.obj ids, _, _⟩ => (allD (treeOf m f) ids).map fun own => .ref own d p
        | _ => none

/-- A loaded schema as a document (not a function of the code). -/
def docTree (m : Mem) (f : Nat) (x : Schema) : Option Doc :=
  if x.ready then match treeOf m f x.value, allD (treeOf m f) x.anchors with
    | some r, some a => some ⟨r, a⟩
    | _, _ => none
  else none

/-- `JsonSchema.validate(value)` (json_core.py 114-127, 90-94), with all schemas loaded. -/
def validate (E : Env) (f : Nat) (d : Nat) (v : Val) : M Unit := fun s =>
  match (ops E f).load d s with
  | (.ok _, s1) => match s1.docs[d]?, allL (docTree s1.mem f) s1.docs with
    | some x, some docs => match docs[d]? with
      | some D => (schemaValidate E.w docs x.vocabulary f D.root v, s1)
      | none => (.err .unmodelled, s1)
    | _, _ => (.err .unmodelled, s1)
  | (.err e, s1) => (.err e, s1)
  | (.timeout, s1) => (.timeout, s1)

end Verif.Obj
