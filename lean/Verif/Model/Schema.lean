import Verif.Model.Keywords
import Verif.Model.Pointer
/-!
# `jsoned/json_core.py` and the reading side of `JsonReference`

A loaded document is its tree and its anchors.  The world of documents is a list; a reference names one by position.
-/

namespace Verif

/-- A loaded `JsonSchema`: `_value` and `anchors` (json_core.py 97-112). -/
structure Doc where
  root : Node
  anchors : List (Str × Node) := []

/-- Skip Python whitespace recognised by `int()` (part of `int`, used at json_core.py 189-201). -/
def stripL : Str → Str
  | [] => []
  | c :: cs => if c = ' ' ∨ c = '\n' ∨ c = '\t' ∨ c = '\r' ∨ c = '\x0b' ∨ c = '\x0c' then stripL cs else c :: cs

/-- Digits with single underscores between them (part of `int`, used at json_core.py 189-201). -/
def intDigits : Nat → Bool → Str → Option Nat
  | n, prevDigit, [] => if prevDigit then some n else none
  | n, prevDigit, c :: cs =>
    if '0' ≤ c ∧ c ≤ '9' then intDigits (n * 10 + (c.toNat - 48)) true cs
    else if c = '_' ∧ prevDigit then intDigits n false cs
    else none

/-- An ASCII digit (part of `int`, used at json_core.py 189-201). -/
def asciiDigit (c : Char) : Bool := decide ('0' ≤ c ∧ c ≤ '9')

/-- `int(s)` on an ASCII string: spaces around are dropped, a sign and single underscores between digits are allowed,
and Python refuses more than 4300 digits (used at json_core.py 189-201). -/
def pyInt (s : Str) : Option Int :=
  if 4300 < (s.filter asciiDigit).length then none
  else match (stripL (stripL s).reverse).reverse with
    | '-' :: r => (intDigits 0 false r).map fun (n : Nat) => -(n : Int)
    | '+' :: r => (intDigits 0 false r).map fun (n : Nat) => (n : Int)
    | r => (intDigits 0 false r).map fun (n : Nat) => (n : Int)

/-- All characters are ASCII (not a function of the code). -/
def isAscii (s : Str) : Bool := s.all fun c => decide (c.toNat < 128)

/-- `xs[i]` on a list, negative indices counting from the end (used at json_core.py 189-201). -/
def pyIndex {α : Type} (xs : List α) (i : Int) : Res α :=
  let j := if i < 0 then i + xs.length else i
  if j < 0 then .err .indexError
  else match xs[j.toNat]? with
    | some x => .ok x
    | none => .err .indexError

/-- One step of `query` (json_core.py 191-198) from a node whose view is given.  A reference to an array is indexed by
`JsonReference.__getitem__` (keywords/ref_keyword.py 66-69), which asks first whether the index is an element.  `int` on a text with other
than ASCII characters is not modelled. -/
def queryStep (node view : Node) (key : Str) : Res Node :=
  match view with
  | .arr xs => match node with
    | .ref .. =>
      if !isAscii key then .err .unmodelled
      else match pyInt key with
        | none => .err .valueError
        | some i => do if ← intInArr i xs then pyIndex xs i else .err .keyError
    | _ =>
      if !isAscii key then .err .unmodelled
      else match pyInt key with
        | none => .err .valueError
        | some i => pyIndex xs i
  | .obj kvs => match dictGet key kvs with
    | some x => .ok x
    | none => .err .keyError
  | _ => .err .keyError

/-- The loop of `query` (json_core.py 190-201). -/
def queryLoop (view : Node → Res Node) : Node → List Str → Res Node
  | node, [] => .ok node
  | node, k :: ks => do
    let v ← view node
    let n ← queryStep node v k
    queryLoop view n ks

/-- `JsonSchema.query` on a loaded document (json_core.py 181-201), without its cache. -/
def queryDoc (view : Node → Res Node) (doc : Doc) (ptr : List Str) : Res Node :=
  match ptr with
  | [k] =>
    match dictGet k doc.anchors with
    | some n => .ok n
    | none => if k = [] then .ok doc.root else queryLoop view doc.root [k]
  | _ => queryLoop view doc.root ptr

/-- `JsonSchema.query` with a text (json_core.py 171-180). -/
def queryText (view : Node → Res Node) (doc : Doc) (query : Str) : Res Node := do
  let ptr ← Pointer.parse query
  queryDoc view doc ptr

/-- `JsonReference._ref_value` for an object fragment (ref_keyword.py 48-58): own members except `$ref`, overlaid by
the members of the fragment. -/
def overlay (own frag : List (Str × Node)) : List (Str × Node) :=
  frag.foldl (fun d p => dictSet p.1 p.2 d) (own.filter fun p => p.1 ≠ c!"$ref")

/-- What a node shows: itself, or for a `JsonReference` its fragment (ref_keyword.py 24-58).  The fuel bounds chains of
references; a circular chain is infinite recursion in Python. -/
def view (docs : List Doc) : Nat → Node → Res Node
  | 0, _ => .timeout
  | f + 1, n =>
    match n with
    | .ref own doc ptr =>
      match docs[doc]? with
      | none => .err .unmodelled
      | some d => do
        let frag ← queryDoc (view docs f) d ptr
        match ← view docs f frag with
        | .obj kvs => .ok (.obj (overlay own kvs))
        | x => .ok x
    | n => .ok n

/-- `key in array` for a string key (types/json_complex.py 77-78): `==` on wrapped elements; a number or boolean
raises `TypeError`. -/
def keyInArr (k : Str) : List Node → Res Bool
  | [] => .ok false
  | x :: xs => match x with
    | .num _ => .err .typeError
    | .bool _ => .err .typeError
    | .str s => if s = k then .ok true else keyInArr k xs
    | .ref .. => .err .unmodelled
    | _ => keyInArr k xs

/-- `_load_validator` on a node that is neither object nor boolean (json_core.py 79-86): the membership test raises
for numbers and null, and looks for a substring or an element in strings and arrays; a hit makes `node[key]` raise
`TypeError`. -/
def loadNonObject (n : Node) : List Kw → Res Unit
  | [] => .ok ()
  | k :: ks =>
    if k.isAssertion then
      match n with
      | .str s => if strContains k.key s then .err .typeError else loadNonObject n ks
      | .arr xs => do
        if ← keyInArr k.key xs then .err .typeError else loadNonObject n ks
      | _ => .err .typeError
    else loadNonObject n ks

/-- `LazyValidator(schema, node).validate(value, context)` on a fresh validator (json_core.py 64-94). -/
def validateN (w : World) (docs : List Doc) (voc : List Kw) : Nat → Node → Val → Ctx → Res Unit
  | 0, _, _, _ => .timeout
  | f + 1, n, v, ctx => do
    match ← view docs f n with
    | .bool b => if b then .ok () else .err (raisePlain ctx.path)
    | .obj items =>
      match loadAll w (view docs f) id items voc [] with
      | (d, .ok _) => runAll (validateN w docs voc f) w f v ctx d
      | (_, .err e) => .err e
      | (_, .timeout) => .timeout
    | x => loadNonObject x voc

/-- `JsonSchema.validate` on a loaded schema whose root is `root` (json_core.py 114-127): a root that is not an object
gets an empty validator. -/
def schemaValidate (w : World) (docs : List Doc) (voc : List Kw) (f : Nat) (root : Node) (v : Val) : Res Unit := do
  match ← view docs f root with
  | .obj _ => validateN w docs voc f root v []
  | _ => .ok ()

end Verif
