import Verif.Model.Uri
/-!
# `repr` of wrapped values and `JsonSchema.id`

A schema without identifier gets one made of the SHA-256 of its `repr` (json_core.py 129-141).  `JsonType.__repr__`
(types/json_type.py 90-91) is the text of the value followed by a closing bracket without an opening one.

Modelled for documents that are not loaded yet, or have no references.  A number is given by the text of its `Decimal`, since two
`Decimal`s of the same value may have different texts.  The hash function is a parameter.
-/

namespace Verif.Repr
open Verif

/-- Data as `JsonObject(value)` wraps it (types/json_complex.py 94-117). -/
inductive RawDoc where
  | null
  | bool (b : Bool)
  /-- `str` of the `Decimal` that `JsonNumber.__init__` keeps (types/json_number.py 13-20) -/
  | num (t : Str)
  | str (s : Str)
  | list (xs : List RawDoc)
  | dict (kvs : List (Str × RawDoc))

/-- The last `w` hexadecimal digits of `n` (not a function of the code). -/
def hex : Nat → Nat → Str
  | 0, _ => []
  | w + 1, n => hex w (n / 16) ++ [Nat.digitChar (n % 16)]

/-- A character inside `repr(str)` (CPython 3.11, `unicode_repr`); `printable` is `str.isprintable` beyond ASCII (used at types/json_type.py 90-91). -/
def esc (printable : Char → Bool) (q c : Char) : Str :=
  if c = q ∨ c = '\\' then ['\\', c]
  else if c = '\t' then c!"\\t"
  else if c = '\n' then c!"\\n"
  else if c = '\r' then c!"\\r"
  else if c.toNat < 32 ∨ c.toNat = 127 then c!"\\x" ++ hex 2 c.toNat
  else if c.toNat < 127 ∨ printable c then [c]
  else if c.toNat ≤ 255 then c!"\\x" ++ hex 2 c.toNat
  else if c.toNat ≤ 65535 then c!"\\u" ++ hex 4 c.toNat
  else c!"\\U" ++ hex 8 c.toNat

/-- The quotes `repr(str)` uses (used at types/json_type.py 90-91). -/
def quoteOf (s : Str) : Char := if s.contains '\'' && !s.contains '"' then '"' else '\''

/-- `repr` of a `str`, as it stands for the keys in the text of a `dict` (used at types/json_type.py 90-91). -/
def quote (printable : Char → Bool) (s : Str) : Str := quoteOf s :: (s.flatMap (esc printable (quoteOf s)) ++ [quoteOf s])

mutual
/-- `JsonType.__repr__` (types/json_type.py 90-91) and `JsonBoolean.__repr__` (types/json_boolean.py 35-36).  `JsonString` takes the one of
`JsonType`, which is first among its bases (types/json_string.py 8). -/
def reprText (printable : Char → Bool) : RawDoc → Str
  | .null => c!"None" ++ c!")"
  | .bool b => (if b then c!"JsonBool(True" else c!"JsonBool(False") ++ c!")"
  | .num t => t ++ c!")"
  | .str s => s ++ c!")"
  | .list [] => c!"[" ++ c!"])"
  | .list (x :: xs) => c!"[" ++ reprText printable x ++ reprs printable xs ++ c!"])"
  | .dict [] => c!"{" ++ c!"})"
  | .dict (kv :: kvs) => c!"{" ++ quote printable kv.1 ++ c!": " ++ reprText printable kv.2 ++ members printable kvs ++ c!"})"
termination_by d => sizeOf d
decreasing_by all_goals (first | (simp_wf; omega) | (cases kv; simp_wf; omega))

/-- What follows the first element in the text of a `list` (used at types/json_type.py 90-91). -/
def reprs (printable : Char → Bool) : List RawDoc → Str
  | [] => []
  | x :: xs => c!", " ++ reprText printable x ++ reprs printable xs
termination_by xs => sizeOf xs

/-- What follows the first member in the text of a `dict` (used at types/json_type.py 90-91). -/
def members (printable : Char → Bool) : List (Str × RawDoc) → Str
  | [] => []
  | kv :: kvs => c!", " ++ quote printable kv.1 ++ c!": " ++ reprText printable kv.2 ++ members printable kvs
termination_by kvs => sizeOf kvs
decreasing_by all_goals (first | (simp_wf; omega) | (cases kv; simp_wf; omega))
end

/-- What `id` reads and writes of a `JsonSchema` (json_core.py 107-112). -/
structure Schema where
  value : RawDoc
  id : Option Uri

/-- `JsonSchema.id` (json_core.py 129-137): a `Uri` may be false (uri.py 238-245). -/
def readId (ip : Rfc3986.IpRe) (printable : Char → Bool) (sha : Str → Str) (s : Schema) : Res Uri × Schema :=
  let fresh := match Uri.parse ip (c!"local://" ++ sha (reprText printable s.value) ++ c!"/") with
    | .ok u => (.ok u, { s with id := some u })
    | .err e => (.err e, s)
    | .timeout => (.timeout, s)
  match s.id with
  | some u => if u.truth then (.ok u, s) else fresh
  | none => fresh

/-- The setter of `JsonSchema.id` (json_core.py 139-141). -/
def setId (u : Uri) (s : Schema) : Schema := { s with id := some u }

/-- `JsonSchema.__init__` (json_core.py 98-112). -/
def newSchema (d : RawDoc) : Schema := ⟨d, none⟩

/-- What is done to a schema: its `id` is read, its `id` is set, its data are changed (json_core.py 129-141). -/
inductive Act where
  | read
  | set (u : Uri)
  | edit (d : RawDoc)

/-- A sequence of these, with what the reads returned (not a function of the code). -/
def runActs (ip : Rfc3986.IpRe) (printable : Char → Bool) (sha : Str → Str) : List Act → Schema → List (Res Uri) × Schema
  | [], s => ([], s)
  | .read :: r, s =>
    let a := readId ip printable sha s
    let b := runActs ip printable sha r a.2
    (a.1 :: b.1, b.2)
  | .set u :: r, s => runActs ip printable sha r (setId u s)
  | .edit d :: r, s => runActs ip printable sha r { s with value := d }

end Verif.Repr
