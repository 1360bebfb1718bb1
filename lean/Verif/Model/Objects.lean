import Verif.Model.Schema
import Verif.Model.Store
/-!
# Documents as mutable objects: construction, parents, `query`, loading

Here a wrapped value is an object with an identity and the slots `_value`, `parent` and `key`
(types/json_type.py 22-40); an identity is a position in the memory.  Loading (`JsonSchema.load`) changes the
objects in place, allocates references, fills the anchors of its schema and registers schemas in the store.

Not modelled: the caches (`lru_cache` of `query`; `cached_property` of `JsonReference`, of `path`
and of `root`) – every use is evaluated afresh; a dictionary that changes size while it is iterated over (possible only when a
schema is loaded again while it is being loaded); objects that are given several parents by the caller.
-/

namespace Verif.Obj
open Verif Rfc3986

/-- The slot `_value`, and for a `JsonReference` (keywords/ref_keyword.py 16-21) its `node`, `schema` and `pointer`. -/
inductive Shape where
  | null
  | bool (b : Bool)
  | num (n : Num)
  | str (s : Str)
  | arr (xs : List Nat)
  | obj (kvs : List (Str × Nat))
  | ref (node doc : Nat) (ptr : List Str)
deriving DecidableEq

/-- A `JsonType` object (types/json_type.py 22-40). -/
structure Cell where
  shape : Shape
  parent : Option Nat
  key : Str
deriving DecidableEq

/-- All objects; the address is the position (not a function of the code). -/
abbrev Mem := List Cell

/-! ## Construction -/

mutual

/-- `_map_value(value, parent, key)` (types/json_complex.py 94-117) on plain data, with the constructors it calls (lines
15-17, 58-60): an object exists before its children, which get it as their parent, and receives its own slots after
they are made. -/
def build : Val → Option Nat → Str → Mem → Nat × Mem
  | .null, p, k, m => (m.length, m ++ [⟨.null, p, k⟩])
  | .bool b, p, k, m => (m.length, m ++ [⟨.bool b, p, k⟩])
  | .int n, p, k, m => (m.length, m ++ [⟨.num (.fin n), p, k⟩])
  | .flt x, p, k, m => (m.length, m ++ [⟨.num x.shownNum, p, k⟩])
  | .dec d, p, k, m => (m.length, m ++ [⟨.num d, p, k⟩])
  | .str s, p, k, m => (m.length, m ++ [⟨.str s, p, k⟩])
  | .list xs, p, k, m =>
    let r := buildList xs 0 m.length (m ++ [⟨.null, none, []⟩])
    (m.length, r.2.set m.length ⟨.arr r.1, p, k⟩)
  | .dict kvs, p, k, m =>
    let r := buildDict kvs m.length (m ++ [⟨.null, none, []⟩])
    (m.length, r.2.set m.length ⟨.obj r.1, p, k⟩)

/-- `[_map_value(item, self, str(key)) for key, item in enumerate(value)]` (types/json_complex.py 59) -/
def buildList : List Val → Nat → Nat → Mem → List Nat × Mem
  | [], _, _, m => ([], m)
  | x :: xs, i, self, m =>
    let r := build x (some self) (natStr i) m
    let rs := buildList xs (i + 1) self r.2
    (r.1 :: rs.1, rs.2)

/-- `{key: _map_value(item, self, key) for key, item in value.items()}` (types/json_complex.py 16) -/
def buildDict : List (Str × Val) → Nat → Mem → List (Str × Nat) × Mem
  | [], _, m => ([], m)
  | (k, x) :: xs, self, m =>
    let r := build x (some self) k m
    let rs := buildDict xs self r.2
    ((k, r.1) :: rs.1, rs.2)

end

/-! ## Parents -/

/-- The loop of `JsonType.path` (types/json_type.py 48-55); the fuel bounds the number of rounds. -/
def pathUp (m : Mem) : Nat → Nat → List Str → Res (List Str)
  | 0, _, _ => .timeout
  | f + 1, i, keys =>
    match m[i]? with
    | none => .err .unmodelled
    | some c => match c.parent with
      | none => .ok keys.reverse
      | some j => pathUp m f j (keys ++ [c.key])

/-- `JsonType.path` (types/json_type.py 47-55). -/
def path (m : Mem) (i : Nat) : Res (List Str) := pathUp m (m.length + 1) i []

/-- `JsonType.root` (types/json_type.py 96-101). -/
def rootUp (m : Mem) : Nat → Nat → Res Nat
  | 0, _ => .timeout
  | f + 1, i =>
    match m[i]? with
    | none => .err .unmodelled
    | some c => match c.parent with
      | none => .ok i
      | some j => rootUp m f j

/-- `JsonType.root` (types/json_type.py 96-101) -/
def root (m : Mem) (i : Nat) : Res Nat := rootUp m (m.length + 1) i

/-! ## Schemas and the store -/

/-- `JsonSchema` (json_core.py 98-112), without its validator. -/
structure Schema where
  value : Nat
  ready : Bool
  vocabulary : List Kw
  anchors : List (Str × Nat)
  ident : Option Uri
deriving DecidableEq

/-- All objects, all schemas, and the storage of the (one) store (json_core.py 107-112, json_store.py 17; the record itself is not a function of the code). -/
structure St where
  mem : Mem
  docs : List Schema
  storage : List (Str × Nat)
deriving DecidableEq

/-- What loading consults: the pattern of IP literals, the text of values, and the loader (resolution of the URI and reading of the
file, `uri_loader.py` 63-77; the files do not change). -/
structure Env where
  ip : IpRe
  w : World
  file : Uri → Res Val

/-- Programs that change the state; an exception keeps the changes (not a function of the code). -/
def M (α : Type) := St → Res α × St

instance : Monad M where
  pure a := fun s => (.ok a, s)
  bind x f := fun s => match x s with
    | (.ok a, s) => f a s
    | (.err e, s) => (.err e, s)
    | (.timeout, s) => (.timeout, s)

/-- A step that does not touch the state (not a function of the code). -/
def lift {α : Type} (x : Res α) : M α := fun s => (x, s)
/-- `raise` (not a function of the code). -/
def raise {α : Type} (e : PyErr) : M α := fun s => (.err e, s)

/-- The state (not a function of the code). -/
def state : M St := fun s => (.ok s, s)
/-- An object (not a function of the code). -/
def cell (i : Nat) : M Cell := fun s => match s.mem[i]? with
  | some c => (.ok c, s)
  | none => (.err .unmodelled, s)
/-- A schema (not a function of the code). -/
def schema (d : Nat) : M Schema := fun s => match s.docs[d]? with
  | some x => (.ok x, s)
  | none => (.err .unmodelled, s)
/-- Change what an object is (not a function of the code). -/
def setShape (i : Nat) (sh : Shape) : M Unit := fun s => match s.mem[i]? with
  | some c => (.ok (), { s with mem := s.mem.set i { c with shape := sh } })
  | none => (.err .unmodelled, s)
/-- Change a schema (not a function of the code). -/
def setSchema (d : Nat) (x : Schema) : M Unit := fun s => (.ok (), { s with docs := s.docs.set d x })
/-- Replace the objects (not a function of the code). -/
def setMem (m : Mem) : M Unit := fun s => (.ok (), { s with mem := m })
/-- Make an object (not a function of the code). -/
def newCell (c : Cell) : M Nat := fun s => (.ok s.mem.length, { s with mem := s.mem ++ [c] })
/-- Make a schema (not a function of the code). -/
def newSchema (x : Schema) : M Nat := fun s => (.ok s.docs.length, { s with docs := s.docs ++ [x] })
/-- Replace the storage (not a function of the code). -/
def setStorage (x : List (Str × Nat)) : M Unit := fun s => (.ok (), { s with storage := x })

/-- `JsonSchema(value, vocabulary)` with plain data (json_core.py 98-112). -/
def newDocument (v : Val) (voc : List Kw) : M Nat :=
  match v with
  | .list _ | .dict _ => do
    let s ← state
    let r := build v none [] s.mem
    setMem r.2
    newSchema ⟨r.1, false, voc, [], none⟩
  | _ => raise .valueError

/-- The functions that call each other, with less fuel (not a function of the code). -/
structure Ops where
  /-- `node.type` -/
  kind : Nat → M Kind
  /-- `node._value` or `node.items()` of an object or a reference to one -/
  members : Nat → M (List (Str × Nat))
  /-- the elements of an array or a reference to one -/
  elems : Nat → M (List Nat)
  /-- The tree below a node, for printing. -/
  node : Nat → M Node
  /-- `schema.query(pointer)` -/
  query : Nat → List Str → M Nat
  /-- `schema.load()` -/
  load : Nat → M Unit
  /-- `schema._process_node(node, keywords)` -/
  process : Nat → List Kw → Nat → M Nat

section
variable (E : Env) (r : Ops)

/-- `type` (the classes of types/*.py; keywords/ref_keyword.py 23-25). -/
def kindS (i : Nat) : M Kind := do
  match (← cell i).shape with
  | .null => pure .null
  | .bool _ => pure .boolean
  | .num _ => pure .number
  | .str _ => pure .string
  | .arr _ => pure .array
  | .obj _ => pure .object
  | .ref _ d p => do
    let frag ← r.query d p
    r.kind frag

/-- `JsonReference._ref_value` (keywords/ref_keyword.py 42-58): own members except `$ref`, overlaid. -/
def overlayIds (own frag : List (Str × Nat)) : List (Str × Nat) :=
  frag.foldl (fun d p => dictSet p.1 p.2 d) (own.filter fun p => p.1 ≠ c!"$ref")

/-- `_value` of an object (types/json_complex.py 15-17) or reference (keywords/ref_keyword.py 35-58); that of a
reference to something else than an object is not modelled. -/
def membersS (i : Nat) : M (List (Str × Nat)) := do
  match (← cell i).shape with
  | .obj kvs => pure kvs
  | .ref n d p => do
    if !(← schema d).ready then r.members n
    else do
      let frag ← r.query d p
      let k ← r.kind frag
      if k ≠ .object then raise .unmodelled
      else do
        let own ← r.members n
        let theirs ← r.members frag
        pure (overlayIds own theirs)
  | _ => raise .attributeError

/-- The elements behind `_value` of an array (types/json_complex.py 58-60) or of a reference to one (keywords/ref_keyword.py 35-46, 60-69), in
which an index is looked for; a reference into a schema that is not loaded yet shows its own members, and no index is among their names. -/
def elemsS (i : Nat) : M (List Nat) := do
  match (← cell i).shape with
  | .arr xs => pure xs
  | .ref _ d p => do
    if !(← schema d).ready then raise .keyError
    else do
      let frag ← r.query d p
      r.elems frag
  | _ => raise .unmodelled

/-- `i in array` for a number `i` (types/json_complex.py 77-78): `==` on wrapped elements (types/json_number.py 40-48,
types/json_boolean.py 27-33, types/json_type.py 57-61).  An element that is a reference is not modelled. -/
def intIn (i : Int) : List Nat → M Bool
  | [] => pure false
  | x :: xs => do
    match (← cell x).shape with
    | .num n => if n.eq (.fin i) then pure true else intIn i xs
    | .bool _ => raise .typeError
    | .ref .. => raise .unmodelled
    | _ => intIn i xs

/-- `[f(x) for x in xs]` (not a function of the code) -/
def eachL {α : Type} (f : Nat → M α) : List Nat → M (List α)
  | [] => pure []
  | x :: xs => do
    let y ← f x
    let ys ← eachL f xs
    pure (y :: ys)

/-- `{key: f(value) for key, value in items}` (json_core.py 207-209) -/
def eachD {α : Type} (f : Nat → M α) : List (Str × Nat) → M (List (Str × α))
  | [] => pure []
  | (k, x) :: xs => do
    let y ← f x
    let ys ← eachD f xs
    pure ((k, y) :: ys)

/-- The tree below a node; a reference is not followed (not a function of the code). -/
def nodeS (i : Nat) : M Node := do
  match (← cell i).shape with
  | .null => pure .null
  | .bool b => pure (.bool b)
  | .num n => pure (.num n)
  | .str s => pure (.str s)
  | .arr xs => do
    let ys ← eachL r.node xs
    pure (.arr ys)
  | .obj kvs => do
    let ys ← eachD r.node kvs
    pure (.obj ys)
  | .ref n d p => do
    match ← r.node n with
    | .obj own => pure (.ref own d p)
    | _ => raise .unmodelled

/-- `node[key]` (types/json_complex.py 22-25, keywords/ref_keyword.py 66-69) -/
def item (i : Nat) (k : Str) : M Nat := do
  match dictGet k (← r.members i) with
  | some x => pure x
  | none => raise .keyError

/-- `str(node[key])` (keywords/ref_keyword.py 91) -/
def itemText (i : Nat) (k : Str) : M Str := do
  let x ← item r i k
  let n ← r.node x
  pure (nodeStr E.w n)

/-! ## `JsonSchema` -/

/-- `JsonSchema.load` (json_core.py 150-160) -/
def loadS (d : Nat) : M Unit := do
  let s ← schema d
  if s.ready then pure ()
  else do
    let v ← r.process d (s.vocabulary.filter fun k => !k.isAssertion) s.value
    let s ← schema d
    setSchema d { s with value := v, ready := true }

/-- The loop of `query` (json_core.py 190-201) -/
def walk : Nat → List Str → M Nat
  | n, [] => pure n
  | n, k :: ks => do
    match ← r.kind n with
    | .array => do
      match (← cell n).shape with
      | .arr xs =>
        if !isAscii k then raise .unmodelled
        else match pyInt k with
          | none => raise .valueError
          | some i => do
            let x ← lift (pyIndex xs i)
            walk x ks
      | _ =>
        if !isAscii k then raise .unmodelled
        else match pyInt k with
          | none => raise .valueError
          | some i => do
            let xs ← r.elems n
            if ← intIn i xs then do
              let x ← lift (pyIndex xs i)
              walk x ks
            else raise .keyError
    | .object => do
      let x ← item r n k
      walk x ks
    | _ => raise .keyError

/-- `JsonSchema.query` (json_core.py 171-201), `JsonSchema.value` (json_core.py 143-148) -/
def queryS (d : Nat) (ptr : List Str) : M Nat := do
  r.load d
  let s ← schema d
  match ptr with
  | [k] =>
    match dictGet k s.anchors with
    | some n => pure n
    | none => if k = [] then pure s.value else walk r s.value [k]
  | _ => walk r s.value ptr

/-! ## The core keywords -/

/-- `can_apply_keyword` (json_core.py 46-61) -/
def canApply (k : Kw) (n : Nat) : M Bool := do
  let kvs ← r.members n
  pure (k.keys.any fun x => dictHas x kvs)

/-- `JsonStore.load_uri` (json_store.py 80-90) -/
def storeLoad (u : Uri) (voc : List Kw) : M Nat := do
  let t ← lift (Store.baseText E.ip u)
  let s ← state
  match dictGet t s.storage with
  | some d => pure d
  | none =>
    match E.file u with
    | .ok v => do
      let d ← newDocument v voc
      let s ← state
      setStorage (dictSet t d s.storage)
      pure d
    | .err .fileNotFound => raise .jsonLoadError
    | .err e => raise e
    | .timeout => lift .timeout

/-- `JsonStore.add` (json_store.py 20-23) -/
def storeAdd (u : Uri) (d : Nat) : M Unit := do
  if ← lift (Uri.isAbsolute E.ip u) then do
    let t ← lift (Store.baseText E.ip u)
    let s ← state
    setStorage (dictSet t d s.storage)
  else raise .valueError

/-- `RefKeyword.apply` (keywords/ref_keyword.py 90-98) -/
def applyRef (d n : Nat) : M Nat := do
  let t ← itemText E r n c!"$ref"
  let u ← lift (Uri.parse E.ip t)
  let p ← lift (Pointer.parse u.fragment)
  let b ← lift (Uri.baseUri E.ip u)
  let c ← cell n
  if !Uri.truth b then newCell ⟨.ref n d p, c.parent, c.key⟩
  else do
    let s ← schema d
    let target ← storeLoad E u s.vocabulary
    newCell ⟨.ref n target p, c.parent, c.key⟩

/-- `AnchorKeyword.apply` (keywords/anchor_keyword.py 11-15); a `JsonReference` has no `__delitem__`. -/
def applyAnchor (d n : Nat) : M Nat := do
  let t ← itemText E r n c!"$anchor"
  let s ← schema d
  setSchema d { s with anchors := dictSet t n s.anchors }
  match (← cell n).shape with
  | .obj kvs => do
    setShape n (.obj (if dictHas c!"$anchor" kvs then dictDel c!"$anchor" kvs else kvs))
    pure n
  | _ => raise .typeError

/-- `str(node["$id"]) if "$id" in node else str(node["id"])` (keywords/id_keyword.py 19, 24) -/
def idText (n : Nat) : M Str := do
  let kvs ← r.members n
  if dictHas c!"$id" kvs then itemText E r n c!"$id" else itemText E r n c!"id"

/-- The URI of an embedded schema (keywords/id_keyword.py 33-46) -/
def childUri (n : Nat) (u : Uri) : M Uri := do
  if ← lift (Uri.isAbsolute E.ip u) then pure u
  else do
    let s ← state
    let top ← lift (root s.mem n)
    let kvs ← r.members top
    if dictHas c!"$id" kvs then do
      let b ← lift (Uri.parse E.ip (← itemText E r top c!"$id"))
      lift (Uri.resolve E.ip b u)
    else if dictHas c!"id" kvs then do
      let b ← lift (Uri.parse E.ip (← itemText E r top c!"id"))
      lift (Uri.resolve E.ip b u)
    else raise .valueError

/-- `IdKeyword.apply` (keywords/id_keyword.py 18-54); `JsonSchema(node, …)` takes no reference (json_core.py 99-100). -/
def applyId (d n : Nat) : M Nat := do
  let u ← lift (Uri.parse E.ip (← idText E r n))
  if u.fragment ≠ [] then raise .valueError
  else do
    let c ← cell n
    match c.parent with
    | none => do
      let s ← schema d
      setSchema d { s with ident := some u }
      let t ← lift (Store.baseText E.ip u)
      let s ← state
      if dictHas t s.storage then pure n
      else do
        storeAdd E u d
        pure n
    | some _ => do
      let s ← state
      let p ← lift (path s.mem n)
      if p.contains c!"enum" then pure n
      else do
        let u ← childUri E r n u
        match c.shape with
        | .obj _ => do
          let s ← schema d
          let child ← newSchema ⟨n, false, s.vocabulary, [], some u⟩
          storeAdd E u child
          pure n
        | _ => raise .valueError

/-- `keyword.apply(self, node)` for the applicators (json_core.py 216). -/
def applyCore (d n : Nat) : Kw → M Nat
  | .ref => applyRef E r d n
  | .anchor => applyAnchor E r d n
  | .id => applyId E r d n
  | _ => raise .unmodelled

/-- The loop over the keywords (json_core.py 211-218) -/
def applyAll (d : Nat) : List Kw → Nat → M Nat
  | [], n => pure n
  | k :: ks, n => do
    if ← canApply r k n then do
      let n' ← applyCore E r d n k
      applyAll d ks n'
    else applyAll d ks n

/-- `node._value = …` (json_core.py 207): the property of `JsonReference` has no setter. -/
def setMembers (n : Nat) (kvs : List (Str × Nat)) : M Unit := do
  match (← cell n).shape with
  | .obj _ => setShape n (.obj kvs)
  | _ => raise .attributeError

/-- `JsonSchema._process_node` (json_core.py 203-220) -/
def processS (d : Nat) (kws : List Kw) (n : Nat) : M Nat := do
  let t ← r.kind n
  if t ≠ .object then pure n
  else do
    let kvs ← r.members n
    let kvs' ← eachD (r.process d kws) kvs
    setMembers n kvs'
    applyAll E r d kws n

end

/-- Everything times out (not a function of the code). -/
def Ops.none : Ops where
  kind _ := lift .timeout
  members _ := lift .timeout
  elems _ := lift .timeout
  node _ := lift .timeout
  query _ _ := lift .timeout
  load _ := lift .timeout
  process _ _ _ := lift .timeout

/-- The functions, with a bound on the depth of calls (not a function of the code). -/
def ops (E : Env) : Nat → Ops
  | 0 => Ops.none
  | f + 1 =>
    { kind := kindS (ops E f)
      members := membersS (ops E f)
      elems := elemsS (ops E f)
      node := nodeS (ops E f)
      query := queryS (ops E f)
      load := loadS (ops E f)
      process := processS E (ops E f) }

/-- The calls of a program on its schemas (json_core.py 97-201, json_store.py 20-90). -/
inductive Call where
  | create (v : Val) (voc : List Kw)
  | load (d : Nat)
  | value (d : Nat)
  | query (d : Nat) (text : Str)

/-- What a call returns: nothing, a schema, or an object (not a function of the code). -/
inductive Ans where
  | none
  | schema (d : Nat)
  | object (i : Nat)
deriving DecidableEq

/-- One call: `JsonSchema(...)`, `load` (json_core.py 150-160), `value` (143-148), `query` (171-201). -/
def call (E : Env) (f : Nat) : Call → M Ans
  | .create v voc => do
    let d ← newDocument v voc
    pure (.schema d)
  | .load d => do
    (ops E f).load d
    pure .none
  | .value d => do
    (ops E f).load d
    let s ← schema d
    pure (.object s.value)
  | .query d t => do
    let p ← lift (Pointer.parse t)
    let i ← (ops E f).query d p
    pure (.object i)

/-- A program: its calls in order, each with what it returned or raised (not a function of the code). -/
def calls (E : Env) (f : Nat) : List Call → St → List (Res Ans) × St
  | [], s => ([], s)
  | c :: cs, s =>
    let r := call E f c s
    let rs := calls E f cs r.2
    (r.1 :: rs.1, rs.2)

/-- Nothing made yet (not a function of the code). -/
def St.empty : St := ⟨[], [], []⟩

end Verif.Obj
