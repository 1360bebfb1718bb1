import Verif.Spec.Malformed
/-!
# Regular expressions that do not compile, for C91
-/

namespace Verif.Spec
open Verif

/-- The schema object with these members holds a regular expression that does not compile: as the value of `pattern`, or as a key of `patternProperties`.
A `pattern` given by reference is counted too, since the code compiles the text of the reference object instead (C87). -/
inductive BadRegex (w : World) (docs : List Doc) (items : List (Str × Node)) : Kw → Prop
  | pattern {n : Node} {p : Str} (h : dictGet c!"pattern" items = some n) (hs : Seen docs n (.str p)) (hb : w.search p = none ∨ n.isRef = true) :
    BadRegex w docs items .pattern
  | key {n : Node} {m : List (Str × Node)} {p : Str} (h : dictGet c!"patternProperties" items = some n) (hs : Seen docs n (.obj m)) (hp : p ∈ m.map Prod.fst)
      (hb : w.search p = none) : BadRegex w docs items .patternProperties

/-- Some schema that belongs to `n` holds such an expression under a keyword of the vocabulary. -/
def HasBadRegex (w : World) (docs : List Doc) (voc : List Kw) (n : Node) : Prop :=
  ∃ m items k, Belongs docs n m ∧ Seen docs m (.obj items) ∧ k ∈ voc ∧ BadRegex w docs items k

end Verif.Spec
