import Verif.Model.Schema
/-!
# A reference as a container, and comparing and testing what contains references

`JsonReference` (keywords/ref_keyword.py) of a loaded schema hands everything on to `_value`, which is the dict of merged members or the
fragment it leads to.  What it shows is `view` of `Verif.Model.Schema`.

Not modelled: references of a schema that is being loaded, which show their own object; elements of arrays that are references, in `in`.
-/

namespace Verif

/-- What is asked for in `ref[key]` and `key in ref` (keywords/ref_keyword.py 60-69). -/
inductive RefKey where
  | text (k : Str)
  | index (i : Int)

section
variable (docs : List Doc) (f : Nat)

/-- `key in ref` (keywords/ref_keyword.py 60-61): in a dict of texts there is no number; in a text, `UserString.__contains__` looks for
a part and refuses numbers; numbers, booleans and null have no elements. -/
def refHas (n : Node) (key : RefKey) : Res Bool := do
  match ← view docs f n, key with
  | .obj kvs, .text k => .ok (dictHas k kvs)
  | .obj _, .index _ => .ok false
  | .arr xs, .text k => keyInArr k xs
  | .arr xs, .index i => intInArr i xs
  | .str s, .text k => .ok (strContains k s)
  | _, _ => .err .typeError

/-- `_value[key]` once `key in _value` has answered yes (keywords/ref_keyword.py 67-68): neither a list nor a text takes a text for an
index. -/
def heldAt : Node → RefKey → Res Node
  | .obj kvs, .text k => match dictGet k kvs with
    | some x => .ok x
    | none => .err .keyError
  | .arr xs, .index i => pyIndex xs i
  | _, _ => .err .typeError

/-- `ref[key]` (keywords/ref_keyword.py 66-69) -/
def refGet (n : Node) (key : RefKey) : Res Node := do
  if ← refHas docs f n key then do
    let x ← view docs f n
    heldAt x key
  else .err .keyError

/-- `len(ref)` (keywords/ref_keyword.py 63-64) -/
def refLen (n : Node) : Res Nat := do
  match ← view docs f n with
  | .obj kvs => .ok kvs.length
  | .arr xs => .ok xs.length
  | .str s => .ok s.length
  | _ => .err .typeError

/-- `ref.items()` (keywords/ref_keyword.py 77-78): only objects have it. -/
def refItems (n : Node) : Res (List (Str × Node)) := do
  match ← view docs f n with
  | .obj kvs => .ok kvs
  | _ => .err .attributeError

/-- `ref.values()` (keywords/ref_keyword.py 74-75) -/
def refValues (n : Node) : Res (List Node) := do
  let kvs ← refItems docs f n
  .ok (kvs.map Prod.snd)

/-- `ref.keys()` (keywords/ref_keyword.py 71-72): a set, so that the order tells nothing. -/
def refKeys (n : Node) : Res (List Str) := do
  let kvs ← refItems docs f n
  .ok (kvs.map Prod.fst)

end

/-- Comparing the elements of lists of equal length, as `list.__eq__` does (not a function of the code). -/
def eqEach (eq : Node → Val → Res Bool) : List Node → List Val → Res Bool
  | x :: xs, y :: ys => do
    if ← eq x y then eqEach eq xs ys else .ok false
  | _, _ => .ok true

/-- Comparing the members of dicts of equal size, as `dict.__eq__` does (not a function of the code). -/
def eqMembers (eq : Node → Val → Res Bool) : List (Str × Node) → List (Str × Val) → Res Bool
  | [], _ => .ok true
  | (k, x) :: xs, kws =>
    match dictGet k kws with
    | none => .ok false
    | some y => do
      if ← eq x y then eqMembers eq xs kws else .ok false

/-- `node == v` for plain `v` (types/json_type.py 57-61), where the node or what is below it may be a reference: its `_value`
(keywords/ref_keyword.py 34-58) is compared, the merged members as a dict and any other fragment by its own method.  The fuel bounds the
references followed. -/
def eqThrough (docs : List Doc) : Nat → Node → Val → Res Bool
  | 0, _, _ => .timeout
  | f + 1, n, v => do
    match ← view docs f n with
    | .arr xs => match v with
      | .list ys => if xs.length = ys.length then eqEach (eqThrough docs f) xs ys else .ok false
      | _ => .ok false
    | .obj kvs => match v with
      | .dict kws => if kvs.length = kws.length then eqMembers (eqThrough docs f) kvs kws else .ok false
      | _ => .ok false
    | x => nodeEqVal x v

/-- `bool(node)`: `JsonType.__bool__` (types/json_type.py 87-88) for what is not a reference; it comes before `UserString` and
`MutableMapping` in the order of the classes. -/
def nodeTruth : Node → Bool
  | .null => false
  | .bool b => b
  | .num (.fin q) => q != 0
  | .num _ => true
  | .str s => !s.isEmpty
  | .arr xs => !xs.isEmpty
  | .obj kvs => !kvs.isEmpty
  | .ref .. => false

/-- `bool(node)` where the node may be a reference (types/json_type.py 87-88, keywords/ref_keyword.py 34-58). -/
def truthThrough (docs : List Doc) (f : Nat) (n : Node) : Res Bool := do
  let x ← view docs f n
  .ok (nodeTruth x)

end Verif
