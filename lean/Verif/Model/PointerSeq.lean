import Verif.Model.Pointer
/-!
# `JsonPointer` as a sequence (json_pointer.py 16-53)

`JsonPointer` is a `typing.Sequence`, so that `index`, `count` and `reversed` come from `collections.abc.Sequence` and call
`__getitem__` and `__len__`.
-/

namespace Verif.Pointer
open Verif

/-- The argument of `__getitem__`: an `int`, a `slice` with its three parts, or anything else (json_pointer.py 27). -/
inductive Index where
  | int (i : Int)
  | slice (start stop step : Option Int)
  | other

/-- What `__getitem__` returns (json_pointer.py 27-35). -/
inductive Item where
  | token (s : Str)
  | pointer (nodes : List Str)
deriving DecidableEq, Repr

/-- `list[i]` (`list.__getitem__`, used at json_pointer.py 27-35) -/
def listAt {α : Type} (xs : List α) (i : Int) : Res α :=
  let j := if i < 0 then i + xs.length else i
  if j < 0 then .err .indexError
  else match xs[j.toNat]? with
    | some x => .ok x
    | none => .err .indexError

/-- One end of a slice as CPython's `PySlice_AdjustIndices` has it: counted from the end if negative, then brought into `lo … hi` (used at json_pointer.py 27-35). -/
def adjust (n lo hi : Int) (dflt : Int) : Option Int → Int
  | none => dflt
  | some i => if i < 0 then max (i + n) lo else min i hi

/-- The number of items (CPython `PySlice_AdjustIndices`) (used at json_pointer.py 27-35). -/
def sliceLen (start stop step : Int) : Nat :=
  if step < 0 then (if stop < start then ((start - stop - 1) / -step + 1).toNat else 0)
  else if start < stop then ((stop - start - 1) / step + 1).toNat else 0

/-- `list[start:stop:step]` (used at json_pointer.py 27-35) -/
def listSlice {α : Type} (xs : List α) (start stop step : Option Int) : Res (List α) :=
  let n : Int := xs.length
  let st := step.getD 1
  if st = 0 then .err .valueError
  else
    let lo : Int := if st < 0 then -1 else 0
    let hi : Int := if st < 0 then n - 1 else n
    let a := adjust n lo hi (if st < 0 then hi else lo) start
    let b := adjust n lo hi (if st < 0 then lo else hi) stop
    .ok ((List.range (sliceLen a b st)).filterMap fun (k : Nat) => xs[(a + k * st).toNat]?)

/-- `JsonPointer.__getitem__` (json_pointer.py 27-35). -/
def getItem (nodes : List Str) : Index → Res Item
  | .int i => do .ok (.token (← listAt nodes i))
  | .slice a b c => do .ok (.pointer (← listSlice nodes a b c))
  | .other => .err .typeError

/-- `JsonPointer.__contains__` (json_pointer.py 16-17). -/
def contains (nodes : List Str) (item : Str) : Bool := nodes.any (· == item)

/-- `JsonPointer.__len__` (json_pointer.py 37-38). -/
def len (nodes : List Str) : Nat := nodes.length

/-- `JsonPointer.__iter__` (json_pointer.py 45-46). -/
def iter (nodes : List Str) : List Str := nodes

/-- `JsonPointer.from_list` (json_pointer.py 48-53): the list is taken as it is, without a check. -/
def fromList (xs : List Str) : List Str := xs

/-- The loop of `collections.abc.Sequence.index` (Python 3.11, _collections_abc.py): `__getitem__` until `stop` or `IndexError`; then
`ValueError` is raised. -/
def indexLoop (nodes : List Str) (value : Str) (stop : Option Int) : Nat → Nat → Res Nat
  | 0, _ => .timeout
  | f + 1, i =>
    if stop.any (fun b : Int => decide (b ≤ (i : Int))) then .err .valueError
    else match getItem nodes (.int i) with
      | .ok (.token v) => if v = value then .ok i else indexLoop nodes value stop f (i + 1)
      | .ok (.pointer _) => indexLoop nodes value stop f (i + 1)
      | .err .indexError => .err .valueError
      | .err e => .err e
      | .timeout => .timeout

/-- `pointer.index(value, start, stop)`; with `None` for `start`, both `None < stop` and `self[None]` raise `TypeError`.
(`Sequence.index`, which json_pointer.py 7 inherits.) -/
def indexFrom (nodes : List Str) (value : Str) (start stop : Option Int) : Res Nat :=
  match start with
  | none => .err .typeError
  | some a =>
    indexLoop nodes value (stop.map fun b => if b < 0 then b + len nodes else b) (nodes.length + 1)
      (if a < 0 then max (len nodes + a) 0 else a).toNat

/-- `pointer.index(value)` (`Sequence.index`, which json_pointer.py 7 inherits) -/
def index (nodes : List Str) (value : Str) : Res Nat := indexFrom nodes value (some 0) none

/-- `pointer.count(value)`: `collections.abc.Sequence.count` goes through `__iter__` (json_pointer.py 7 inherits it). -/
def count (nodes : List Str) (value : Str) : Nat := (iter nodes).countP (· == value)

/-- `reversed(pointer)`: `collections.abc.Sequence.__reversed__` calls `__getitem__` from the last index down (json_pointer.py 7 inherits it). -/
def reversedFrom (nodes : List Str) : Nat → Res (List Str)
  | 0 => .ok []
  | i + 1 => do
    match ← getItem nodes (.int i) with
    | .token v => .ok (v :: (← reversedFrom nodes i))
    | .pointer _ => .err .typeError

/-- `list(reversed(pointer))` (json_pointer.py 7 inherits it) -/
def reversed (nodes : List Str) : Res (List Str) := reversedFrom nodes (len nodes)

/-- A pointer object: `JsonPointer` has no `__eq__`, so that `==` asks whether it is the same object (json_pointer.py 7-14). -/
structure Obj where
  addr : Nat
  nodes : List Str

/-- `a == b` for two `JsonPointer`s (`object.__eq__`) (json_pointer.py 7 inherits it). -/
def objEq (a b : Obj) : Bool := a.addr == b.addr

end Verif.Pointer
