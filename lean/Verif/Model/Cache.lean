import Verif.Model.Objects
/-!
# The caches of `query` and of references

`JsonSchema.query` is wrapped in `lru_cache()` (json_core.py 170): one bounded table for all schemas, keyed by the schema and the argument.
`JsonReference.fragment` and `_ref_value` are `cached_property` (keywords/ref_keyword.py 31-33, 42-58): one slot in every reference.  An exception is
remembered nowhere.

Here the objects and schemas are fixed and all schemas are loaded; what is remembered while schemas are being loaded is not modelled.
-/

namespace Verif.Obj
open Verif

/-- A `JsonPointer` object.  It has no `__eq__`, so the table tells pointers apart by identity (json_pointer.py 7-61). -/
inductive Ptr where
  /-- the `pointer` of the reference `i` (keywords/ref_keyword.py 20) -/
  | own (i : Nat)
  /-- a pointer made by the caller -/
  | made (j : Nat)
deriving DecidableEq

/-- The argument of `query`: a text or a pointer (json_core.py 173-180). -/
inductive Arg where
  | text (t : Str)
  | ptr (p : Ptr)
deriving DecidableEq

/-- What is remembered: the table of `query`, most recently used first; the slot `fragment` and the slot `_ref_value` of the references.
(json_core.py 170, keywords/ref_keyword.py 27, 31, 42.) -/
structure Caches where
  table : List ((Nat × Arg) × Nat)
  fragments : List (Nat × Nat)
  values : List (Nat × List (Str × Nat))

/-- Nothing is remembered yet (not a function of the code) -/
def Caches.empty : Caches := ⟨[], [], []⟩

/-- Programs that read the objects and change what is remembered (not a function of the code). -/
def C (α : Type) := Caches → Res α × Caches

instance : Monad C where
  pure a := fun c => (.ok a, c)
  bind x f := fun c => match x c with
    | (.ok a, c) => f a c
    | (.err e, c) => (.err e, c)
    | (.timeout, c) => (.timeout, c)

/-- A step that remembers nothing (not a function of the code) -/
def liftC {α : Type} (x : Res α) : C α := fun c => (x, c)

/-- The entry for a key, of a list of entries (not a function of the code; the search of `lru_cache` in its table). -/
def look {κ β : Type} [DecidableEq κ] (k : κ) : List (κ × β) → Option β
  | [] => none
  | (k', b) :: xs => if k' = k then some b else look k xs

/-- `lru_cache`: a known key becomes the most recently used one; otherwise the function is called; its result is entered unless the
call itself entered the key, and with more than `cap` entries the least recently used one is dropped (json_core.py 170). -/
def remembered (cap : Nat) (k : Nat × Arg) (x : C Nat) : C Nat := fun c =>
  match look k c.table with
  | some i => (.ok i, { c with table := (k, i) :: c.table.filter fun e => e.1 ≠ k })
  | none => match x c with
    | (.ok i, c') => (.ok i, if (look k c'.table).isSome then c' else { c' with table := ((k, i) :: c'.table).take cap })
    | r => r

/-- `cached_property` for `fragment` (keywords/ref_keyword.py 31-33). -/
def slotFragment (i : Nat) (x : C Nat) : C Nat := fun c =>
  match look i c.fragments with
  | some j => (.ok j, c)
  | none => match x c with
    | (.ok j, c') => (.ok j, { c' with fragments := (i, j) :: c'.fragments })
    | r => r

/-- `cached_property` for `_ref_value` (keywords/ref_keyword.py 42-58). -/
def slotValue (i : Nat) (x : C (List (Str × Nat))) : C (List (Str × Nat)) := fun c =>
  match look i c.values with
  | some j => (.ok j, c)
  | none => match x c with
    | (.ok j, c') => (.ok j, { c' with values := (i, j) :: c'.values })
    | r => r

/-- The functions that call each other, with less fuel (not a function of the code). -/
structure COps where
  kind : Nat → C Kind
  members : Nat → C (List (Str × Nat))
  elems : Nat → C (List Nat)
  query : Nat → Arg → C Nat

section
variable (cap : Nat) (made : Nat → List Str) (s : St) (r : COps)

/-- The object at an address (not a function of the code) -/
def cellOf (i : Nat) : Res Cell := match s.mem[i]? with
  | some c => .ok c
  | none => .err .unmodelled

/-- A schema; one that is not loaded is not modelled here (json_core.py 97-112; not a function of the code). -/
def readyOf (d : Nat) : Res Schema := match s.docs[d]? with
  | some x => if x.ready then .ok x else .err .unmodelled
  | none => .err .unmodelled

/-- The names a pointer consists of; the constructor of a pointer may raise (json_core.py 173-174). -/
def namesOf : Arg → Res (List Str)
  | .text t => Pointer.parse t
  | .ptr (.made j) => .ok (made j)
  | .ptr (.own i) => do
    match (← cellOf s i).shape with
    | .ref _ _ p => .ok p
    | _ => .err .attributeError

/-- `type` (keywords/ref_keyword.py 23-25, 31-33). -/
def kindC (i : Nat) : C Kind := do
  match (← liftC (cellOf s i)).shape with
  | .null => pure .null
  | .bool _ => pure .boolean
  | .num _ => pure .number
  | .str _ => pure .string
  | .arr _ => pure .array
  | .obj _ => pure .object
  | .ref _ d _ => do
    let frag ← slotFragment i (r.query d (.ptr (.own i)))
    r.kind frag

/-- `_value` and `_ref_value` (keywords/ref_keyword.py 35-58). -/
def membersC (i : Nat) : C (List (Str × Nat)) := do
  match (← liftC (cellOf s i)).shape with
  | .obj kvs => pure kvs
  | .ref n d _ => do
    let _ ← liftC (readyOf s d)
    slotValue i do
      let frag ← slotFragment i (r.query d (.ptr (.own i)))
      let k ← r.kind frag
      if k ≠ .object then liftC (.err .unmodelled)
      else do
        let own ← r.members n
        let theirs ← r.members frag
        pure (overlayIds own theirs)
  | _ => liftC (.err .attributeError)

/-- The elements behind `_value` of an array or of a reference to one (types/json_complex.py 58-60; keywords/ref_keyword.py 35-46, 60-69). -/
def elemsC (i : Nat) : C (List Nat) := do
  match (← liftC (cellOf s i)).shape with
  | .arr xs => pure xs
  | .ref _ d _ => do
    let _ ← liftC (readyOf s d)
    let frag ← slotFragment i (r.query d (.ptr (.own i)))
    r.elems frag
  | _ => liftC (.err .unmodelled)

/-- `i in array` for a number `i` (types/json_complex.py 77-78). -/
def intInOf (i : Int) : List Nat → Res Bool
  | [] => .ok false
  | x :: xs => do
    match (← cellOf s x).shape with
    | .num n => if n.eq (.fin i) then .ok true else intInOf i xs
    | .bool _ => .err .typeError
    | .ref .. => .err .unmodelled
    | _ => intInOf i xs

/-- The loop of `query` (json_core.py 190-201). -/
def walkC : Nat → List Str → C Nat
  | n, [] => pure n
  | n, k :: ks => do
    match ← r.kind n with
    | .array => do
      match (← liftC (cellOf s n)).shape with
      | .arr xs =>
        if !isAscii k then liftC (.err .unmodelled)
        else match pyInt k with
          | none => liftC (.err .valueError)
          | some i => do
            let x ← liftC (pyIndex xs i)
            walkC x ks
      | _ =>
        if !isAscii k then liftC (.err .unmodelled)
        else match pyInt k with
          | none => liftC (.err .valueError)
          | some i => do
            let xs ← r.elems n
            if ← liftC (intInOf s i xs) then do
              let x ← liftC (pyIndex xs i)
              walkC x ks
            else liftC (.err .keyError)
    | .object => do
      let kvs ← r.members n
      match dictGet k kvs with
      | some x => walkC x ks
      | none => liftC (.err .keyError)
    | _ => liftC (.err .keyError)

/-- `JsonSchema.query` with its cache (json_core.py 170-201). -/
def queryC (d : Nat) (a : Arg) : C Nat := remembered cap (d, a) do
  let ptr ← liftC (namesOf made s a)
  let x ← liftC (readyOf s d)
  match ptr with
  | [k] =>
    match dictGet k x.anchors with
    | some n => pure n
    | none => if k = [] then pure x.value else walkC s r x.value [k]
  | _ => walkC s r x.value ptr

end

/-- Everything times out (not a function of the code). -/
def COps.none : COps where
  kind _ := liftC .timeout
  members _ := liftC .timeout
  elems _ := liftC .timeout
  query _ _ := liftC .timeout

/-- The functions, with a bound on the depth of calls (not a function of the code). -/
def copsOf (cap : Nat) (made : Nat → List Str) (s : St) : Nat → COps
  | 0 => COps.none
  | f + 1 =>
    { kind := kindC s (copsOf cap made s f)
      members := membersC s (copsOf cap made s f)
      elems := elemsC s (copsOf cap made s f)
      query := queryC cap made s (copsOf cap made s f) }

/-- A caller queries schemas and reads references (json_core.py 171-201, keywords/ref_keyword.py 32-58). -/
inductive Use where
  | query (d : Nat) (a : Arg)
  | kind (i : Nat)
  | members (i : Nat)

/-- What a use returns (not a function of the code). -/
inductive Seen where
  | object (i : Nat)
  | kind (k : Kind)
  | members (kvs : List (Str × Nat))
deriving DecidableEq

/-- One use, with caches (not a function of the code). -/
def useC (cap : Nat) (made : Nat → List Str) (s : St) (f : Nat) : Use → C Seen
  | .query d a => do
    let i ← (copsOf cap made s f).query d a
    pure (.object i)
  | .kind i => do
    let k ← (copsOf cap made s f).kind i
    pure (.kind k)
  | .members i => do
    let kvs ← (copsOf cap made s f).members i
    pure (.members kvs)

/-- The same use on the same objects without any cache (Model/Objects.lean) (not a function of the code). -/
def useFresh (E : Env) (made : Nat → List Str) (f : Nat) : Use → M Seen
  | .query d a => do
    let s ← state
    let p ← lift (namesOf made s a)
    let i ← (ops E f).query d p
    pure (.object i)
  | .kind i => do
    let k ← (ops E f).kind i
    pure (.kind k)
  | .members i => do
    let kvs ← (ops E f).members i
    pure (.members kvs)

/-- A history of uses, each of the objects as they are then, and what each returned or raised (not a function of the code). -/
def usesC (cap : Nat) (made : Nat → List Str) (f : Nat) : List (St × Use) → Caches → List (Res Seen) × Caches
  | [], c => ([], c)
  | (s, u) :: us, c =>
    let r := useC cap made s f u c
    let rs := usesC cap made f us r.2
    (r.1 :: rs.1, rs.2)

end Verif.Obj
