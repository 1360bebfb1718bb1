import Verif.Model.Objects
/-!
# Wrapped objects and arrays as collections that are written to

`JsonObject` and `JsonArray` (types/json_complex.py) are changed in place.  `JsonObject` is a `MutableMapping`, whose `pop`,
`popitem`, `clear`, `update` and `setdefault` (Python 3.11, `_collections_abc.py` 907-965) are made of its own methods.

Not modelled: keys that are no texts (`KeyError`); plain values written into an array, which `JsonArray.__setitem__` (lines 71-72) stores
as they are; steps in slices.
-/

namespace Verif.Obj
open Verif

/-- `JsonObject.__setitem__` with plain data (types/json_complex.py 36-40, 94-117).  Neither references nor texts have the method, and a
list takes no text for an index. -/
def setItem (i : Nat) (k : Str) (v : Val) : M Nat := do
  match (← cell i).shape with
  | .obj kvs => do
    let s ← state
    let r := build v (some i) k s.mem
    setMem r.2
    setShape i (.obj (dictSet k r.1 kvs))
    pure r.1
  | _ => raise .typeError

/-- `JsonObject.__setitem__` with a wrapped value (types/json_complex.py 36-40, 96-97). -/
def putItem (i : Nat) (k : Str) (j : Nat) : M Unit := do
  match (← cell i).shape with
  | .obj kvs => setShape i (.obj (dictSet k j kvs))
  | _ => raise .typeError

/-- `JsonObject.__delitem__` (types/json_complex.py 42-46). -/
def delItem (i : Nat) (k : Str) : M Unit := do
  match (← cell i).shape with
  | .obj kvs => if dictHas k kvs then setShape i (.obj (dictDel k kvs)) else pure ()
  | _ => raise .typeError

/-- `JsonObject.__getitem__` (types/json_complex.py 22-25), called by the methods below, which only objects have. -/
def getItem (i : Nat) (k : Str) : M Nat := do
  match (← cell i).shape with
  | .obj kvs => match dictGet k kvs with
    | some x => pure x
    | none => raise .keyError
  | _ => raise .attributeError

/-- `MutableMapping.pop(key)` (types/json_complex.py 12 inherits it from `MutableMapping`). -/
def popKey (i : Nat) (k : Str) : M Nat := do
  let x ← getItem i k
  delItem i k
  pure x

/-- `MutableMapping.popitem()`: the first member (types/json_complex.py 12 inherits it from `MutableMapping`). -/
def popItem (i : Nat) : M (Str × Nat) := do
  match (← cell i).shape with
  | .obj [] => raise .keyError
  | .obj ((k, _) :: _) => do
    let x ← getItem i k
    delItem i k
    pure (k, x)
  | _ => raise .attributeError

/-- The loop of `clear`; the bound is the number of rounds (types/json_complex.py 12 inherits it from `MutableMapping`). -/
def clearN (i : Nat) : Nat → M Unit
  | 0 => lift .timeout
  | n + 1 => do
    match (← cell i).shape with
    | .obj [] => pure ()
    | _ => do
      let _ ← popItem i
      clearN i n

/-- `MutableMapping.clear()`: `popitem` until it raises `KeyError` (types/json_complex.py 12 inherits it from `MutableMapping`). -/
def clearAll (i : Nat) : M Unit := do
  match (← cell i).shape with
  | .obj kvs => clearN i (kvs.length + 1)
  | _ => raise .attributeError

/-- The loop of `update` (types/json_complex.py 12 inherits it from `MutableMapping`). -/
def updateLoop (i : Nat) : List (Str × Val) → M Unit
  | [] => pure ()
  | (k, v) :: r => do
    let _ ← setItem i k v
    updateLoop i r

/-- `MutableMapping.update(mapping)` with plain data (types/json_complex.py 12 inherits it from `MutableMapping`). -/
def updateAll (i : Nat) (kvs : List (Str × Val)) : M Unit := do
  match (← cell i).shape with
  | .obj _ => updateLoop i kvs
  | _ => raise .attributeError

/-- `MutableMapping.setdefault(key, default)` with plain data; where the member is missing the plain data is returned.
(types/json_complex.py 12 inherits it from `MutableMapping`.) -/
def setDefault (i : Nat) (k : Str) (v : Val) : M (Option Nat) := do
  match (← cell i).shape with
  | .obj kvs => match dictGet k kvs with
    | some x => pure (some x)
    | none => do
      let _ ← setItem i k v
      pure none
  | _ => raise .attributeError

/-- The position an index means, if there is one (`list` indices, used at types/json_complex.py 65-75). -/
def position (xs : List Nat) (t : Int) : Option Nat :=
  if 0 ≤ t then (if t.toNat < xs.length then some t.toNat else none)
  else if 0 ≤ t + xs.length then some (t + xs.length).toNat else none

/-- `JsonArray.__delitem__` with an index (types/json_complex.py 74-75). -/
def delElem (i : Nat) (t : Int) : M Unit := do
  match (← cell i).shape with
  | .arr xs => match position xs t with
    | some p => setShape i (.arr (xs.eraseIdx p))
    | none => raise .indexError
  | _ => raise .typeError

/-- `JsonArray.__setitem__` with an index and a wrapped value (types/json_complex.py 71-72). -/
def putElem (i : Nat) (t : Int) (j : Nat) : M Unit := do
  match (← cell i).shape with
  | .arr xs => match position xs t with
    | some p => setShape i (.arr (xs.set p j))
    | none => raise .indexError
  | _ => raise .typeError

/-- Where a bound of a slice is, in a list of `n` (`PySlice_AdjustIndices` of CPython, used at types/json_complex.py 66-67). -/
def bound (n : Nat) (d : Nat) : Option Int → Nat
  | none => d
  | some t => if 0 ≤ t then min t.toNat n else (t + n).toNat

/-- `JsonArray.__getitem__` with a slice (types/json_complex.py 65-67): a new array of the same elements. -/
def slice (i : Nat) (a b : Option Int) : M Nat := do
  match (← cell i).shape with
  | .arr xs =>
    let lo := bound xs.length 0 a
    let hi := bound xs.length xs.length b
    newCell ⟨.arr ((xs.take hi).drop lo), none, []⟩
  | _ => raise .typeError

/-- What a program does with schemas and with objects it holds (types/json_complex.py 36-46 and 71-75, json_core.py 97-201). -/
inductive Edit where
  | call (c : Call)
  | set (i : Nat) (k : Str) (v : Val)
  | del (i : Nat) (k : Str)
  | pop (i : Nat) (k : Str)
  | popitem (i : Nat)
  | clear (i : Nat)
  | update (i : Nat) (kvs : List (Str × Val))
  | setdefault (i : Nat) (k : Str) (v : Val)
  | put (i : Nat) (k : Str) (j : Nat)
  | delAt (i : Nat) (t : Int)
  | putAt (i : Nat) (t : Int) (j : Nat)
  | slice (i : Nat) (a b : Option Int)

/-- One step (types/json_complex.py 36-46 and 71-75, json_core.py 97-201). -/
def edit (E : Env) (f : Nat) : Edit → M Ans
  | .call c => call E f c
  | .set i k v => do let _ ← setItem i k v; pure .none
  | .del i k => do delItem i k; pure .none
  | .pop i k => do let x ← popKey i k; pure (.object x)
  | .popitem i => do let x ← popItem i; pure (.object x.2)
  | .clear i => do clearAll i; pure .none
  | .update i kvs => do updateAll i kvs; pure .none
  | .setdefault i k v => do
    match ← setDefault i k v with
    | some x => pure (.object x)
    | none => pure .none
  | .put i k j => do putItem i k j; pure .none
  | .delAt i t => do delElem i t; pure .none
  | .putAt i t j => do putElem i t j; pure .none
  | .slice i a b => do let x ← Obj.slice i a b; pure (.object x)

/-- A program: its steps in order, each with what it returned or raised (not a function of the code). -/
def edits (E : Env) (f : Nat) : List Edit → St → List (Res Ans) × St
  | [], s => ([], s)
  | c :: cs, s =>
    let r := edit E f c s
    let rs := edits E f cs r.2
    (r.1 :: rs.1, rs.2)

end Verif.Obj
