import Verif.Model.Objects
import Verif.Model.Prog
import Verif.Model.Updates
/-!
# Validation on the objects

`Model/Schema.lean` validates with trees.  Here the keywords read the objects of `Model/Objects.lean`, as in the code: through `type`, `value` and the
members, which follow references, and following a reference loads the schema it leads to.  So schemas are loaded in the middle of a validation.

What a keyword reads is written as a program (`Look`) over nodes of any kind, which may ask what a node shows, references followed, and for the
node itself.  Played on the objects it is this model; played on trees it is that of `Model/Keywords.lean` (`readKw_tree` in `Proofs/Validating`).
Where the code looks at a node several times, the program looks once (C95_again says that a second look finds the same).
-/

namespace Verif

/-- What a node shows: `node.type`, and `node.value`, `node.items()` or the elements (types/json_type.py 42-44, keywords/ref_keyword.py 23-40 and 77-78). -/
inductive Sight (ν : Type) where
  | null
  | bool (b : Bool)
  | num (n : Num)
  | str (s : Str)
  | arr (xs : List ν)
  | obj (kvs : List (Str × ν))

/-- A computation that looks at nodes (not a function of the code). -/
inductive Look (ν ρ : Type) where
  | done (r : Res ρ)
  /-- what a node shows, references followed -/
  | sight (n : ν) (k : Sight ν → Look ν ρ)
  /-- the node itself and what is below it, references not followed: for `isinstance(node, JsonReference)`, `str(node)` and comparisons -/
  | tree (n : ν) (k : Node → Look ν ρ)

namespace Look
variable {ν ρ σ : Type}

/-- One computation after another (not a function of the code). -/
def bind : Look ν ρ → (ρ → Look ν σ) → Look ν σ
  | .done (.ok a), g => g a
  | .done (.err e), _ => .done (.err e)
  | .done .timeout, _ => .done .timeout
  | .sight n k, g => .sight n fun x => (k x).bind g
  | .tree n k, g => .tree n fun x => (k x).bind g

instance : Monad (Look ν) where
  pure a := .done (.ok a)
  bind := Look.bind

/-- `raise` (not a function of the code). -/
def raise (e : PyErr) : Look ν ρ := .done (.err e)
/-- What a node shows (not a function of the code). -/
def see (n : ν) : Look ν (Sight ν) := .sight n fun x => .done (.ok x)
/-- The tree of a node (not a function of the code). -/
def whole (n : ν) : Look ν Node := .tree n fun x => .done (.ok x)

end Look

open Look

section
variable {ν α : Type} (w : World) (mk : ν → α) (items : List (Str × ν))

/-- `node[key]` (types/json_complex.py 22-25, keywords/ref_keyword.py 66-69) -/
def getL (k : Str) : Look ν ν :=
  match dictGet k items with
  | some n => pure n
  | none => raise .keyError

/-- `[f(x) for x in xs]` for the trees of the nodes (not a function of the code) -/
def wholes : List ν → Look ν (List Node)
  | [] => pure []
  | x :: xs => do
    let t ← whole x
    let ts ← wholes xs
    pure (t :: ts)

/-- `i in array` for a number `i` (types/json_complex.py 77-78), as `intInArr`. -/
def intInL (i : Int) : List ν → Look ν Bool
  | [] => pure false
  | x :: xs => do
    match ← whole x with
    | .num n => if n.eq (.fin i) then pure true else intInL i xs
    | .bool _ => raise .typeError
    | .ref .. => raise .unmodelled
    | _ => intInL i xs

/-- `for x in ref` on a reference to an array (keywords/ref_keyword.py 66-69), as `iterRef`. -/
def iterL (xs : List ν) : Nat → List ν → Look ν (List ν)
  | i, [] => do if ← intInL i xs then pure [] else raise .keyError
  | i, x :: rest => do
    if ← intInL i xs then do
      let r ← iterL xs (i + 1) rest
      pure (x :: r)
    else raise .keyError

/-- `for x in node` on an array or a reference to one (types/json_complex.py 80-81). -/
def seqL (n : ν) (xs : List ν) : Look ν (List ν) := do
  match ← whole n with
  | .ref .. => iterL xs 0 xs
  | _ => pure xs

/-- `node == True` (maximum_keyword.py 17, minimum_keyword.py 17). -/
def eqTrueL (n : ν) : Look ν Bool := do
  match ← see n with
  | .bool b => pure b
  | .num n => pure (n.eq (.fin 1))
  | _ => pure false

/-- `int(node[key])` of a number (min_length_keyword.py 11-15). -/
def intL (k : Str) : Look ν Int := do
  let n ← getL items k
  match ← see n with
  | .num m => do
    match ← whole n with
    | .ref .. => raise .typeError
    | _ => .done m.toInt
  | _ => raise .schemaParse

/-- `int(node[key].value)` (contains_keyword.py 17-25). -/
def intValueL (k : Str) : Look ν Int := do
  let n ← getL items k
  match ← see n with
  | .num m => do
    if (← whole n).isRef then raise .unmodelled else .done m.toInt
  | _ => raise .schemaParse

/-- A keyword whose value must be a number: the node and the number (keywords/maximum_keyword.py, keywords/minimum_keyword.py, keywords/multiple_of_keyword.py). -/
def numL (k : Str) : Look ν (Node × Num) := do
  let n ← getL items k
  match ← see n with
  | .num m => do
    let t ← whole n
    pure (t, m)
  | _ => raise .schemaParse

/-- A keyword whose value must be an object and is used as a subschema (keywords/not_keyword.py 11-16 and those like it). -/
def subL (k : Str) : Look ν α := do
  let n ← getL items k
  match ← see n with
  | .obj _ => pure (mk n)
  | _ => raise .schemaParse

/-- A keyword whose value must be an array of subschemas (keywords/all_of_keyword.py and those like it). -/
def subsL (k : Str) : Look ν (List α) := do
  let n ← getL items k
  match ← see n with
  | .arr xs => do
    let ys ← seqL n xs
    pure (ys.map mk)
  | _ => raise .schemaParse

/-- A keyword whose value must be an object of subschemas (keywords/properties_keyword.py and those like it). -/
def subMapL (k : Str) : Look ν (List (Str × α)) := do
  let n ← getL items k
  match ← see n with
  | .obj kvs => pure (kvs.map fun p => (p.1, mk p.2))
  | _ => raise .schemaParse

/-- The dict comprehension of dependent_required_keyword.py 15. -/
def strMapL : List (Str × ν) → Look ν (List (Str × List Str))
  | [] => pure []
  | (k, n) :: r => do
    let xs ← .done (strItems w (← whole n))
    let rest ← strMapL r
    pure ((k, xs) :: rest)

/-- What `keyword.apply(schema, node, validator)` reads from the schema object, by class; the lines are those at the functions of `Model/Keywords` (keywords/*.py). -/
def readL (k : Kw) : Look ν (Upd α) :=
  match k with
  | .type => do
    let n ← getL items c!"type"
    let ts ← match ← see n with
      | .str _ => do
        let t ← whole n
        pure [nodeStr w t]
      | .arr xs => do
        let ys ← seqL n xs
        let ts ← wholes ys
        pure (ts.map (nodeStr w))
      | _ => raise .schemaParse
    if ts.all (· ∈ validTypes) then pure (.set (.type ts)) else raise .schemaParse
  | .enum => do
    let n ← getL items c!"enum"
    match ← see n with
    | .arr xs => do
      match ← whole n with
      | .ref .. => raise .unmodelled
      | _ => do
        let ts ← wholes xs
        pure (.set (.enum ts))
    | _ => raise .schemaParse
  | .const => do
    let n ← getL items c!"const"
    let x ← match ← see n with
      | .arr _ => raise .schemaParse
      | .obj _ => raise .schemaParse
      | .null => pure .null
      | .bool b => pure (.bool b)
      | .num m => pure (.num m)
      | .str s => pure (.str s)
    let t ← whole n
    pure (.set (if t.isRef then .held (.const x) else .const x))
  | .maximum => do
    let (n, m) ← numL items c!"maximum"
    let excl ← match dictGet c!"exclusiveMaximum" items with
      | some e => eqTrueL e
      | none => pure false
    pure (.set (maxV n m excl))
  | .minimum => do
    let (n, m) ← numL items c!"minimum"
    let excl ← match dictGet c!"exclusiveMinimum" items with
      | some e => eqTrueL e
      | none => pure false
    pure (.set (minV n m excl))
  | .exclusiveMaximum => do
    let n ← getL items c!"exclusiveMaximum"
    match ← see n with
    | .bool _ => if dictHas c!"maximum" items then pure .nop else raise .schemaParse
    | .num m => do
      let t ← whole n
      pure (.set (maxV t m true))
    | _ => raise .schemaParse
  | .exclusiveMinimum => do
    let n ← getL items c!"exclusiveMinimum"
    match ← see n with
    | .bool _ => if dictHas c!"minimum" items then pure .nop else raise .schemaParse
    | .num m => do
      let t ← whole n
      pure (.set (minV t m true))
    | _ => raise .schemaParse
  | .multipleOf => do
    let (n, m) ← numL items c!"multipleOf"
    pure (.set (if n.isRef then .held .multipleOf else .multipleOf m))
  | .minLength => do pure (.set (.minLength (← intL items c!"minLength")))
  | .maxLength => do pure (.set (.maxLength (← intL items c!"maxLength")))
  | .minItems => do pure (.set (.minItems (← intL items c!"minItems")))
  | .maxItems => do pure (.set (.maxItems (← intL items c!"maxItems")))
  | .minProperties => do pure (.set (.minProperties (← intL items c!"minProperties")))
  | .maxProperties => do pure (.set (.maxProperties (← intL items c!"maxProperties")))
  | .uniqueItems => do
    let n ← getL items c!"uniqueItems"
    match ← see n with
    | .bool b => if b then pure (.set .uniqueItems) else pure .nop
    | _ => raise .schemaParse
  | .contains => do
    let c ← subL mk items c!"contains"
    let mn ← if dictHas c!"minContains" items then intValueL items c!"minContains" else pure 1
    let mx ← if dictHas c!"maxContains" items then do
        let m ← intValueL items c!"maxContains"
        pure (some m)
      else pure none
    pure (.set (.contains c mn mx))
  | .items => do
    let n ← getL items c!"items"
    match ← see n with
    | .arr xs => do
      let ys ← seqL n xs
      match dictGet c!"additionalItems" items with
        | none => pure (.itemsArr (ys.map mk) none)
        | some a => do
          match ← see a with
          | .bool true => pure (.itemsArr (ys.map mk) none)
          | _ => pure (.itemsArr (ys.map mk) (some (mk a)))
    | .obj _ => pure (.itemsOne (some (mk n)))
    | .bool b => pure (.itemsOne (if b then none else some (mk n)))
    | _ => raise .schemaParse
  | .prefixItems => do pure (.pre (← subsL mk items c!"prefixItems"))
  | .properties => do pure (.props (← subMapL mk items c!"properties"))
  | .patternProperties => do pure (.patterns (← subMapL mk items c!"patternProperties"))
  | .additionalProperties => do
    let n ← getL items c!"additionalProperties"
    match ← see n with
    | .bool true => pure (.additional none)
    | .bool false => pure (.additional (some .fail))
    | .obj _ => pure (.additional (some (.lazy (mk n))))
    | _ => raise .schemaParse
  | .unevaluatedProperties => do
    let n ← getL items c!"unevaluatedProperties"
    match ← see n with
    | .bool true => pure (.unevaluated false)
    | .bool false => pure (.unevaluated true)
    | _ => raise .schemaParse
  | .propertyNames => do pure (.names (← subL mk items c!"propertyNames"))
  | .required => do
    let n ← getL items c!"required"
    match ← see n with
    | .arr xs => do
      let ys ← seqL n xs
      let ts ← wholes ys
      pure (.set (.required (ts.map (nodeStr w))))
    | _ => raise .schemaParse
  | .dependentRequired => do
    let n ← getL items c!"dependentRequired"
    match ← see n with
    | .obj kvs => do pure (.set (.dependentRequired (← strMapL w kvs)))
    | _ => raise .schemaParse
  | .dependentSchemas => do pure (.set (.dependentSchemas (← subMapL mk items c!"dependentSchemas")))
  | .allOf => do pure (.set (.allOf (← subsL mk items c!"allOf")))
  | .anyOf => do pure (.set (.anyOf (← subsL mk items c!"anyOf")))
  | .oneOf => do pure (.set (.oneOf (← subsL mk items c!"oneOf")))
  | .not => do pure (.set (.not (← subL mk items c!"not")))
  | .if => do pure (.ifs (← subL mk items c!"if"))
  | .then => do pure (.thens (← subL mk items c!"then"))
  | .else => do pure (.elses (← subL mk items c!"else"))
  | .format => do
    let n ← getL items c!"format"
    match ← see n with
    | .str _ => do
      let t ← whole n
      match w.formats (nodeStr w t) with
      | none => raise .schemaParse
      | some _ => pure (.set (.format (nodeStr w t)))
    | _ => raise .schemaParse
  | .pattern => do
    let n ← getL items c!"pattern"
    match ← see n with
    | .str _ => do
      let t ← whole n
      match w.search (nodeStr w t) with
      | none => raise .reError
      | some _ => pure (.set (.pattern (nodeStr w t)))
    | _ => raise .schemaParse
  | .ref => pure .nop
  | .anchor => pure .nop
  | .id => pure .nop

/-- The loop of `LazyValidator._load_validator` over the vocabulary (json_core.py 79-86) on a validator that is new. -/
def loadAllL : List Kw → Data α → Look ν (Data α)
  | [], d => pure d
  | k :: ks, d =>
    if k.isAssertion && dictHas k.key items then do
      let u ← readL w mk items k
      let d' ← .done (u.apply k.key d)
      loadAllL ks d'
    else loadAllL ks d

/-- `key in array` for a string key (types/json_complex.py 77-78), as `keyInArr`. -/
def keyInL (k : Str) : List ν → Look ν Bool
  | [] => pure false
  | x :: xs => do
    match ← whole x with
    | .num _ => raise .typeError
    | .bool _ => raise .typeError
    | .str s => if s = k then pure true else keyInL k xs
    | .ref .. => raise .unmodelled
    | _ => keyInL k xs

/-- `_load_validator` on a node that is neither object nor boolean (json_core.py 79-86), as `loadNonObject`. -/
def loadOtherL (n : Sight ν) : List Kw → Look ν Unit
  | [] => pure ()
  | k :: ks =>
    if k.isAssertion then
      match n with
      | .str s => if strContains k.key s then raise .typeError else loadOtherL n ks
      | .arr xs => do
        if ← keyInL k.key xs then raise .typeError else loadOtherL n ks
      | _ => raise .typeError
    else loadOtherL n ks

end

namespace Obj

/-- The object at the end of a chain of references, whose `value` is that of all of them (keywords/ref_keyword.py 27-46). -/
def final (E : Env) : Nat → Nat → M Nat
  | 0, _ => lift .timeout
  | f + 1, i => do
    match (← cell i).shape with
    | .ref _ d p => do
      let j ← (ops E f).query d p
      final E f j
    | _ => pure i

/-- `node.type`, and the value, members or elements of the node (types/json_complex.py 15-34, 58-81, keywords/ref_keyword.py 23-69). -/
def sightS (E : Env) (f i : Nat) : M (Sight Nat) := do
  match ← (ops E f).kind i with
  | .array => do
    let xs ← (ops E f).elems i
    pure (.arr xs)
  | .object => do
    let kvs ← (ops E f).members i
    pure (.obj kvs)
  | _ => do
    let j ← final E f i
    match (← cell j).shape with
    | .null => pure .null
    | .bool b => pure (.bool b)
    | .num n => pure (.num n)
    | .str s => pure (.str s)
    | _ => raise .unmodelled

/-- What is read is read from the objects (not a function of the code). -/
def lookS (E : Env) (f : Nat) {ρ : Type} : Look Nat ρ → M ρ
  | .done r => lift r
  | .sight n k => do
    let x ← sightS E f n
    lookS E f (k x)
  | .tree n k => do
    let x ← (ops E f).node n
    lookS E f (k x)

/-- A validator runs; its calls to subschemas may change the state, also those that fail (not a function of the code). -/
def interpS {α β : Type} (rec : α → Val → Ctx → M Unit) : Prog α β → M β
  | .done r => lift r
  | .call a v c k => fun s => match rec a v c s with
    | (.timeout, s') => (.timeout, s')
    | (r, s') => interpS rec (k r) s'

/-- `LazyValidator(schema, node).validate(value, context)` on a new validator (json_core.py 64-94). -/
def validateO (E : Env) (voc : List Kw) : Nat → Nat → Val → Ctx → M Unit
  | 0, _, _, _ => lift .timeout
  | f + 1, i, v, ctx => do
    match ← sightS E f i with
    | .bool b => if b then pure () else raise (raisePlain ctx.path)
    | .obj items => do
      let d ← lookS E f (loadAllL E.w id items voc [])
      interpS (validateO E voc f) (progAll E.w f v ctx d)
    | x => lookS E f (loadOtherL x voc)

/-- `JsonSchema.validate(value)` (json_core.py 114-127, 90-94): the schema is loaded, others as they are needed. -/
def validateS (E : Env) (f d : Nat) (v : Val) : M Unit := do
  (ops E f).load d
  let x ← schema d
  match ← (ops E f).kind x.value with
  | .object => validateO E x.vocabulary f x.value v []
  | _ => pure ()

end Obj

end Verif
