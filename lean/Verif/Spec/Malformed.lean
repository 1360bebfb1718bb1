import Verif.Spec.WellFormed
import Verif.Spec.Refs
/-!
# Malformed schemas, for C88

When a keyword of a schema object has a value the keyword does not take, and which schemas belong to a schema.
-/

namespace Verif.Spec
open Verif

/-- The node stands for `x`: it is `x` or a reference that leads there. -/
def Seen (docs : List Doc) (n x : Node) : Prop := ∃ f, view docs f n = .ok x

/-- The schema object with these members gives the keyword `k` a value it does not take: a value of the wrong JSON type, an unknown type or format,
a boolean `exclusiveMaximum` without `maximum`, limits of `contains` that are no numbers.  Types and formats given by reference are counted among these,
since the code does not take them (C87); the limits count only beside `contains`. -/
inductive Malformed (w : World) (docs : List Doc) (items : List (Str × Node)) : Kw → Prop
  | kind {k : Kw} {n x : Node} (ha : k.isAssertion = true) (h : dictGet k.key items = some n) (hx : Seen docs n x) (hk : x.kind ∉ valueKinds k) : Malformed w docs items k
  | typeName {s : Str} (h : dictGet c!"type" items = some (.str s)) (hs : s ∉ validTypes) : Malformed w docs items .type
  | typeNames {xs : List Node} {x : Node} (h : dictGet c!"type" items = some (.arr xs)) (hx : x ∈ xs) (hs : ∀ s ∈ validTypes, x ≠ .str s) :
    Malformed w docs items .type
  | format {s : Str} (h : dictGet c!"format" items = some (.str s)) (hs : w.formats s = none) : Malformed w docs items .format
  | named {k : Kw} {n : Node} {s : Str} (hk : k = .type ∨ k = .format) (h : dictGet k.key items = some n) (hn : n.isRef = true)
      (hs : Seen docs n (.str s)) : Malformed w docs items k
  | maximum {n : Node} {b : Bool} (h : dictGet c!"exclusiveMaximum" items = some n) (hb : Seen docs n (.bool b)) (hm : dictGet c!"maximum" items = none) :
    Malformed w docs items .exclusiveMaximum
  | minimum {n : Node} {b : Bool} (h : dictGet c!"exclusiveMinimum" items = some n) (hb : Seen docs n (.bool b)) (hm : dictGet c!"minimum" items = none) :
    Malformed w docs items .exclusiveMinimum
  | count {s : Str} {n x : Node} (hc : c!"contains" ∈ items.map Prod.fst) (hs : s ∈ [c!"minContains", c!"maxContains"]) (h : dictGet s items = some n) (hx : Seen docs n x)
      (hk : x.kind ≠ .number) : Malformed w docs items .contains

/-- `m` is the schema `n`, a subschema of it, a subschema of that and so on; references lead on. -/
inductive Belongs (docs : List Doc) (n : Node) : Node → Prop
  | self : Belongs docs n n
  | sub {m m' : Node} {f : Nat} {items : List (Str × Node)} {k : Str} (h : Belongs docs n m) (hm : view docs f m = .ok (.obj items))
      (hs : SubAt (view docs f) items k m') : Belongs docs n m'

/-- Some schema that belongs to `n` is malformed in a keyword of the vocabulary. -/
def HasFault (w : World) (docs : List Doc) (voc : List Kw) (n : Node) : Prop :=
  ∃ m items k, Belongs docs n m ∧ Seen docs m (.obj items) ∧ k ∈ voc ∧ Malformed w docs items k

end Verif.Spec
