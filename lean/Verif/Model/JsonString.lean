import Verif.Model.PointerSeq
import Verif.Model.Types
/-!
# `JsonString` as a text (types/json_string.py)

`JsonString` inherits from `JsonType` and from `collections.UserString`.  In its method resolution order `JsonType` comes first: the
comparisons, `__bool__`, `__repr__` and `__hash__` are those of `JsonType` (types/json_type.py 51-91; a class with `__eq__` and without
`__hash__` gets `__hash__ = None`), everything else is `UserString` of Python 3.11, which reads `self.data` (types/json_string.py 18-20)
and makes its results with `self.__class__(…)`, that is `JsonString(…)`.  The `str` methods of CPython that are called are modelled by
what they do to the characters: the searches as plain searches (CPython uses faster ones), `start` and `end` brought into range as in
`ADJUST_INDICES` (Objects/unicodeobject.c).  Not modelled: tuples given to `startswith` and `endswith`, the methods that look at what the
characters mean (`upper`, `isalpha`, `strip`, …), `%`, `format`, `replace`, `split` and `partition`.
-/

namespace Verif.JStr
open Verif

/-- A `JsonString` (types/json_string.py 8-20): its text, and where it is. -/
structure JString where
  value : Str
  parent : Option Nat
  key : Str
deriving DecidableEq, Repr

/-- What is given to an operation: a `str`, a `JsonString`, or something else, with its `str(…)` (not a function of the code). -/
inductive Arg where
  | str (s : Str)
  | json (j : JString)
  | other (shown : Str)

/-- `JsonString(value)` (types/json_string.py 11-15). -/
def make : Arg → Res JString
  | .str s => .ok ⟨s, none, []⟩
  | .json _ => .err .typeError
  | .other _ => .err .typeError

/-- `data` (types/json_string.py 17-19). -/
def data (j : JString) : Str := j.value

/-- `repr(x)` (types/json_type.py 90-91). -/
def repr (j : JString) : Str := j.value ++ c!")"

/-- `str(x)` (`UserString.__str__`) (types/json_string.py 8 inherits it). -/
def toStr (j : JString) : Str := data j

/-- `str(x)` of the scalars whose `_value` is written without numbers: `JsonBoolean` (types/json_boolean.py 34-35) and `JsonNull`
(types/json_type.py 90-91), which have no `__str__` of their own. -/
def shown : Node → Option Str
  | .bool true => some c!"JsonBool(True)"
  | .bool false => some c!"JsonBool(False)"
  | .null => some c!"None)"
  | _ => none

/-- `hash(x)`: `JsonType` defines `__eq__` (types/json_type.py 51-55) and no `__hash__`. -/
def hash (_ : JString) : Res Int := .err .typeError

/-- `len(x)` (`UserString.__len__`) (types/json_string.py 8 inherits it). -/
def len (j : JString) : Nat := (data j).length

/-- `x[…]` (`UserString.__getitem__`) (types/json_string.py 8 inherits it). -/
def getItem (j : JString) : Pointer.Index → Res JString
  | .int i => do make (.str [← Pointer.listAt (data j) i])
  | .slice a b c => do make (.str (← Pointer.listSlice (data j) a b c))
  | .other => .err .typeError

/-- The loop of `Sequence.__iter__`: `x[0]`, `x[1]`, … until `IndexError` (types/json_string.py 8 inherits it). -/
def iterLoop (j : JString) : Nat → Nat → Res (List JString)
  | 0, _ => .timeout
  | f + 1, i =>
    match getItem j (.int i) with
    | .ok x => do .ok (x :: (← iterLoop j f (i + 1)))
    | .err .indexError => .ok []
    | .err e => .err e
    | .timeout => .timeout

/-- `list(x)` (types/json_string.py 8 inherits it) -/
def iter (j : JString) : Res (List JString) := iterLoop j (len j + 1) 0

/-- `list(reversed(x))`: `Sequence.__reversed__` calls `__getitem__` from the last index down (types/json_string.py 8 inherits it). -/
def reversedFrom (j : JString) : Nat → Res (List JString)
  | 0 => .ok []
  | i + 1 => do .ok ((← getItem j (.int i)) :: (← reversedFrom j i))

/-- `list(reversed(x))` (types/json_string.py 8 inherits it) -/
def reversed (j : JString) : Res (List JString) := reversedFrom j (len j)

/-- `x + other` (`UserString.__add__`) (types/json_string.py 8 inherits it). -/
def add (j : JString) : Arg → Res JString
  | .json k => make (.str (data j ++ data k))
  | .str s => make (.str (data j ++ s))
  | .other t => make (.str (data j ++ t))

/-- `other + x` (`UserString.__radd__`) (types/json_string.py 8 inherits it). -/
def radd (j : JString) : Arg → Res JString
  | .str s => make (.str (s ++ data j))
  | .json k => make (.str (toStr k ++ data j))
  | .other t => make (.str (t ++ data j))

/-- `s * n` of a `str`: no text for a negative number (`str.__mul__`, used by `UserString.__mul__`, which types/json_string.py 8 inherits). -/
def times (s : Str) : Nat → Str
  | 0 => []
  | n + 1 => s ++ times s n

/-- `x * n` and `n * x` (`UserString.__mul__`) (types/json_string.py 8 inherits it). -/
def mul (j : JString) (n : Int) : Res JString := make (.str (times (data j) n.toNat))

/-- `ADJUST_INDICES` (of CPython; the methods types/json_string.py 8 inherits end there). -/
def ends (n : Nat) (start stop : Int) : Int × Int :=
  let b : Int := if stop > n then n else if stop < 0 then (if stop + n < 0 then 0 else stop + n) else stop
  let a : Int := if start < 0 then (if start + n < 0 then 0 else start + n) else start
  (a, b)

/-- The first place of a text in another (not a function of the code). -/
def search (sub : Str) : Str → Nat → Option Nat
  | [], i => if sub.isEmpty then some i else none
  | c :: r, i => if sub.isPrefixOf (c :: r) then some i else search sub r (i + 1)

/-- The last place of a text in another, from place `i` down (not a function of the code). -/
def searchBack (sub s : Str) : Nat → Option Nat
  | 0 => if sub.isPrefixOf s then some 0 else none
  | i + 1 => if sub.isPrefixOf (s.drop (i + 1)) then some (i + 1) else searchBack sub s i

/-- `str.find` and `str.index` (the methods types/json_string.py 8 inherits call it) -/
def strFind (s sub : Str) (start stop : Int) : Option Int :=
  let (a, b) := ends s.length start stop
  if b - a < sub.length then none
  else (search sub ((s.take b.toNat).drop a.toNat) 0).map fun (i : Nat) => a + i

/-- `str.rfind` and `str.rindex` (the methods types/json_string.py 8 inherits call it) -/
def strRfind (s sub : Str) (start stop : Int) : Option Int :=
  let (a, b) := ends s.length start stop
  if b - a < sub.length then none
  else (searchBack sub ((s.take b.toNat).drop a.toNat) (b - a - sub.length).toNat).map fun (i : Nat) => a + i

/-- The loop of `str.count` for a text of `k + 1` characters; `skip` characters belong to what has been counted (not a function of the code). -/
def countLoop (sub : Str) : Nat → Str → Nat
  | _, [] => 0
  | skip + 1, _ :: r => countLoop sub skip r
  | 0, c :: r => if sub.isPrefixOf (c :: r) then countLoop sub (sub.length - 1) r + 1 else countLoop sub 0 r

/-- `str.count` (the methods types/json_string.py 8 inherits call it) -/
def strCount (s sub : Str) (start stop : Int) : Nat :=
  let (a, b) := ends s.length start stop
  if b - a < sub.length then 0
  else
    let w := (s.take b.toNat).drop a.toNat
    if sub.isEmpty then w.length + 1 else countLoop sub 0 w

/-- `str.startswith` (`tailmatch` of CPython) (the methods types/json_string.py 8 inherits call it) -/
def strStarts (s sub : Str) (start stop : Int) : Bool :=
  let (a, b) := ends s.length start stop
  if b - sub.length < a then false
  else sub.isEmpty || ((s.drop a.toNat).take sub.length == sub)

/-- `str.endswith` (`tailmatch` of CPython) (the methods types/json_string.py 8 inherits call it) -/
def strEnds (s sub : Str) (start stop : Int) : Bool :=
  let (a, b) := ends s.length start stop
  if b - sub.length < a then false
  else sub.isEmpty || ((s.drop (b - sub.length).toNat).take sub.length == sub)

/-- `sub in x` (`UserString.__contains__`) (types/json_string.py 8 inherits it). -/
def contains (j : JString) : Arg → Res Bool
  | .json k => .ok (strFind (data j) (data k) 0 (data j).length).isSome
  | .str s => .ok (strFind (data j) s 0 (data j).length).isSome
  | .other _ => .err .typeError

/-- What `find` and `rfind` answer (not a function of the code). -/
def place : Option Int → Int
  | some i => i
  | none => -1

/-- `x.find(sub, start, end)` (`UserString.find`) (types/json_string.py 8 inherits it). -/
def find (j : JString) (start stop : Int) : Arg → Res Int
  | .json k => .ok (place (strFind (data j) (data k) start stop))
  | .str s => .ok (place (strFind (data j) s start stop))
  | .other _ => .err .typeError

/-- `x.rfind(sub, start, end)` (`UserString.rfind`) (types/json_string.py 8 inherits it). -/
def rfind (j : JString) (start stop : Int) : Arg → Res Int
  | .json k => .ok (place (strRfind (data j) (data k) start stop))
  | .str s => .ok (place (strRfind (data j) s start stop))
  | .other _ => .err .typeError

/-- `x.count(sub, start, end)` (`UserString.count`) (types/json_string.py 8 inherits it). -/
def count (j : JString) (start stop : Int) : Arg → Res Nat
  | .json k => .ok (strCount (data j) (data k) start stop)
  | .str s => .ok (strCount (data j) s start stop)
  | .other _ => .err .typeError

/-- `x.index(sub, start, end)` (`UserString.index`, which hands `sub` to `str.index` as it is) (types/json_string.py 8 inherits it). -/
def index (j : JString) (start stop : Int) : Arg → Res Int
  | .str s => match strFind (data j) s start stop with
    | some i => .ok i
    | none => .err .valueError
  | .json _ => .err .typeError
  | .other _ => .err .typeError

/-- `x.rindex(sub, start, end)` (`UserString.rindex`) (types/json_string.py 8 inherits it). -/
def rindex (j : JString) (start stop : Int) : Arg → Res Int
  | .str s => match strRfind (data j) s start stop with
    | some i => .ok i
    | none => .err .valueError
  | .json _ => .err .typeError
  | .other _ => .err .typeError

/-- `x.startswith(prefix, start, end)` (`UserString.startswith`) (types/json_string.py 8 inherits it). -/
def startswith (j : JString) (start stop : Int) : Arg → Res Bool
  | .str s => .ok (strStarts (data j) s start stop)
  | .json _ => .err .typeError
  | .other _ => .err .typeError

/-- `x.endswith(suffix, start, end)` (`UserString.endswith`) (types/json_string.py 8 inherits it). -/
def endswith (j : JString) (start stop : Int) : Arg → Res Bool
  | .str s => .ok (strEnds (data j) s start stop)
  | .json _ => .err .typeError
  | .other _ => .err .typeError

/-- `x.removeprefix(prefix)` (`UserString.removeprefix`) (types/json_string.py 8 inherits it). -/
def removeprefix (j : JString) : Arg → Res JString
  | .json k => make (.str (if (data k).isPrefixOf (data j) then (data j).drop (data k).length else data j))
  | .str s => make (.str (if s.isPrefixOf (data j) then (data j).drop s.length else data j))
  | .other _ => .err .typeError

/-- `x.removesuffix(suffix)` (`UserString.removesuffix`) (types/json_string.py 8 inherits it). -/
def removesuffix (j : JString) : Arg → Res JString
  | .json k => make (.str (if (data k).isSuffixOf (data j) then (data j).take ((data j).length - (data k).length) else data j))
  | .str s => make (.str (if s.isSuffixOf (data j) then (data j).take ((data j).length - s.length) else data j))
  | .other _ => .err .typeError

/-- The parts of `str.join`: every one must be a `str` (not a function of the code). -/
def strParts : List Arg → Res (List Str)
  | [] => .ok []
  | .str s :: r => do .ok (s :: (← strParts r))
  | _ :: _ => .err .typeError

/-- `x.join(seq)` (`UserString.join`): the answer is a `str` (types/json_string.py 8 inherits it). -/
def join (j : JString) (xs : List Arg) : Res Str := do
  .ok ((data j).intercalate (← strParts xs))

end Verif.JStr
