import Verif.Model.Prog
/-!
# Lazy validators as mutable objects

`Verif.Model.Schema` builds a fresh validator for every use of a subschema.  Here the validators are objects in a heap that are
created once, filled on their first use, and kept for the later ones, as in the code.
-/

namespace Verif

section trav
variable {α β σ : Type} (g : α → σ → β × σ)

/-- Replace the subschemas in a list one after the other (not a function of the code). -/
def travL : List α → σ → List β × σ
  | [], s => ([], s)
  | a :: as, s =>
    let p := g a s
    let q := travL as p.2
    (p.1 :: q.1, q.2)

/-- Replace the subschemas in a dictionary (not a function of the code). -/
def travD : List (Str × α) → σ → List (Str × β) × σ
  | [], s => ([], s)
  | (k, a) :: as, s =>
    let p := g a s
    let q := travD as p.2
    ((k, p.1) :: q.1, q.2)

/-- Replace an optional part (not a function of the code). -/
def travO : Option α → σ → Option β × σ
  | none, s => (none, s)
  | some a, s =>
    let p := g a s
    (some p.1, p.2)

/-- Replace the subschema in `additional_properties` (not a function of the code). -/
def travSub : Sub α → σ → Sub β × σ
  | .fail, s => (.fail, s)
  | .lazy a, s =>
    let p := g a s
    (.lazy p.1, p.2)

/-- Replace the subschemas in a validator (not a function of the code). -/
def V.trav (x : V α) (s : σ) : V β × σ :=
  match x with
  | .type ts => (.type ts, s)
  | .enum vals => (.enum vals, s)
  | .const n => (.const n, s)
  | .maximum m e => (.maximum m e, s)
  | .minimum m e => (.minimum m e, s)
  | .multipleOf m => (.multipleOf m, s)
  | .minLength n => (.minLength n, s)
  | .maxLength n => (.maxLength n, s)
  | .minItems n => (.minItems n, s)
  | .maxItems n => (.maxItems n, s)
  | .minProperties n => (.minProperties n, s)
  | .maxProperties n => (.maxProperties n, s)
  | .uniqueItems => (.uniqueItems, s)
  | .held h => (.held h, s)
  | .contains c mn mx =>
    let p := g c s
    (.contains p.1 mn mx, p.2)
  | .array pre items =>
    let p := travO (travL g) pre s
    let q := travO g items p.2
    (.array p.1 q.1, q.2)
  | .object o =>
    let p := travD g o.props s
    let q := travO (travD g) o.patterns p.2
    let r := travO (travSub g) o.additional q.2
    let t := travO g o.names r.2
    (.object { props := p.1, patterns := q.1, additional := r.1, unevaluated := o.unevaluated, names := t.1 }, t.2)
  | .required ks => (.required ks, s)
  | .dependentRequired m => (.dependentRequired m, s)
  | .dependentSchemas m =>
    let p := travD g m s
    (.dependentSchemas p.1, p.2)
  | .allOf xs =>
    let p := travL g xs s
    (.allOf p.1, p.2)
  | .anyOf xs =>
    let p := travL g xs s
    (.anyOf p.1, p.2)
  | .oneOf xs =>
    let p := travL g xs s
    (.oneOf p.1, p.2)
  | .not x =>
    let p := g x s
    (.not p.1, p.2)
  | .cond i t e =>
    let p := travO g i s
    let q := travO g t p.2
    let r := travO g e q.2
    (.cond p.1 q.1 r.1, r.2)
  | .format n => (.format n, s)
  | .pattern p => (.pattern p, s)

end trav

/-- Replace the subschemas of a validator (not a function of the code). -/
def V.map {α β : Type} (g : α → β) (x : V α) : V β := (x.trav (fun a (_ : Unit) => (g a, ())) ()).1

/-- Replace the subschemas of all validators of a dictionary (not a function of the code). -/
def Data.map {α β : Type} (g : α → β) (d : Data α) : Data β := List.map (fun p => (p.1, p.2.map g)) d

/-- A `LazyValidator` object (json_core.py 64-69): its node, its dictionary `_data` of validators with subschemas by address, and
the flag `_loaded`.  `fail` says that `_data` has the `FailValidator` under `"_"` (json_core.py 73-74). -/
structure LazyObj (ν : Type) where
  node : ν
  data : Data Nat := []
  fail : Bool := false
  loaded : Bool := false

/-- Its node is a tree (json_core.py 64-69). -/
abbrev Cell := LazyObj Node

/-- The lazy validators that were made so far; the address is the position (not a function of the code). -/
abbrev Heap := List Cell

/-- A subschema of a dictionary that is being loaded: a validator to be made for a node, or one that is already there (json_core.py 65-69). -/
def alloc {ν : Type} : ν ⊕ Nat → List (LazyObj ν) → Nat × List (LazyObj ν)
  | .inl n, h => (h.length, h ++ [{ node := n }])
  | .inr a, h => (a, h)

/-- `LazyValidator._load_validator` (json_core.py 71-88) of the object `c` on a heap: how it ended, and the object and the heap
afterwards.  A failure leaves the validators that earlier keywords added, and the flag unset.  Validators made for a keyword that
then fails are garbage and left out. -/
def loadCell (w : World) (docs : List Doc) (voc : List Kw) (f : Nat) (c : Cell) (h : Heap) : Res Unit × Cell × Heap :=
  match view docs f c.node with
  | .err e => (.err e, c, h)
  | .timeout => (.timeout, c, h)
  | .ok (.bool b) => (.ok (), { c with fail := c.fail || !b, loaded := true }, h)
  | .ok (.obj items) =>
    let p := loadAll w (view docs f) Sum.inl items voc (c.data.map Sum.inr)
    let q := travD (V.trav alloc) p.1 h
    (p.2, { c with data := q.1, loaded := match p.2 with
      | .ok _ => true
      | _ => false }, q.2)
  | .ok x =>
    match loadNonObject x voc with
    | .ok _ => (.ok (), { c with loaded := true }, h)
    | r => (r, c, h)

/-- Run a program whose calls act on a heap (not a function of the code). -/
def interpH {β : Type} (rec : Nat → Val → Ctx → Heap → Res Unit × Heap) : Prog Nat β → Heap → Res β × Heap
  | .done r, h => (r, h)
  | .call a v c k, h =>
    match rec a v c h with
    | (.timeout, h') => (.timeout, h')
    | (r, h') => interpH rec (k r) h'

/-- `CompoundValidator.validate` (core_validators.py 86-88) on a loaded object; the `FailValidator` is alone in its dictionary. -/
def runCell (rec : Nat → Val → Ctx → Heap → Res Unit × Heap) (w : World) (f : Nat) (c : Cell) (v : Val) (ctx : Ctx) (h : Heap) :
    Res Unit × Heap :=
  if c.fail then (.err (raisePlain ctx.path), h) else interpH rec (progAll w f v ctx c.data) h

/-- `LazyValidator.validate` (json_core.py 90-94) of the object at an address. -/
def validateH (w : World) (docs : List Doc) (voc : List Kw) : Nat → Nat → Val → Ctx → Heap → Res Unit × Heap
  | 0, _, _, _, h => (.timeout, h)
  | f + 1, a, v, ctx, h =>
    match h[a]? with
    | none => (.err .unmodelled, h)
    | some c =>
      if c.loaded then runCell (validateH w docs voc f) w f c v ctx h
      else match loadCell w docs voc f c h with
        | (.ok _, c', h') => runCell (validateH w docs voc f) w f c' v ctx (h'.set a c')
        | (r, c', h') => (r, h'.set a c')

/-- What a loaded `JsonSchema` remembers: `_validator` (json_core.py 107, 114-124; `some none` is the empty `CompoundValidator`) and
the lazy validators reachable from it. -/
structure Memo where
  validator : Option (Option Nat) := none
  heap : Heap := []

/-- `JsonSchema.validator` (json_core.py 114-124) of a loaded schema. -/
def Memo.get (docs : List Doc) (f : Nat) (root : Node) (m : Memo) : Res (Option Nat) × Memo :=
  match m.validator with
  | some x => (.ok x, m)
  | none =>
    match view docs f root with
    | .ok (.obj _) => (.ok (some m.heap.length), { validator := some (some m.heap.length), heap := m.heap ++ [{ node := root }] })
    | .ok _ => (.ok none, { m with validator := some none })
    | .err e => (.err e, m)
    | .timeout => (.timeout, m)

/-- `JsonSchema.validate` (json_core.py 126-127) of a loaded schema. -/
def Memo.validate (w : World) (docs : List Doc) (voc : List Kw) (f : Nat) (root : Node) (v : Val) (m : Memo) : Res Unit × Memo :=
  match m.get docs f root with
  | (.ok none, m') => (.ok (), m')
  | (.ok (some a), m') =>
    let p := validateH w docs voc f a v [] m'.heap
    (p.1, { m' with heap := p.2 })
  | (.err e, m') => (.err e, m')
  | (.timeout, m') => (.timeout, m')

end Verif
