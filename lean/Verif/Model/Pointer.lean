import Verif.Py.Regex
/-! # `jsoned/json_pointer.py` -/

namespace Verif.Pointer
open Verif

/-- `POINTER_REGEX = ^(/(([^/~])|(~[01]))*)*$` (json_pointer.py 8), without the anchor `^`, which `fullmatch`
implies. -/
def pointerRegex : Re :=
  .seq
    (.star (.grp 1 (.seq (.chr '/')
      (.star (.grp 2 (.alt (.grp 3 (.cls fun c => c != '/' && c != '~'))
        (.grp 4 (.seq (.chr '~') (.cls fun c => c == '0' || c == '1')))))))))
    .eol

/-- `JsonPointer.escape` (json_pointer.py 55-57). -/
def escape (s : Str) : Str := strReplace1 '/' c!"~1" (strReplace1 '~' c!"~0" s)

/-- `JsonPointer.unescape` (json_pointer.py 59-61). -/
def unescape (s : Str) : Str := strReplace2 '~' '0' c!"~" (strReplace2 '~' '1' c!"/" s)

/-- `JsonPointer(pointer)` (json_pointer.py 10-14); the object is its list of nodes. -/
def parse (p : Str) : Res (List Str) :=
  if (Re.pyFullmatch pointerRegex p).isSome then .ok ((strSplit '/' p).tail.map unescape)
  else .err .valueError

/-- `JsonPointer.__str__` (json_pointer.py 40-43). -/
def print (nodes : List Str) : Str :=
  if nodes = [] then c!"/" else nodes.flatMap fun n => '/' :: escape n

end Verif.Pointer
