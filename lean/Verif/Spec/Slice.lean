import Verif.Py.Basic
/-!
# Slices of sequences
-/

namespace Verif

/-- Where a slice begins: a missing end is the near end in the direction of the step, a negative one counts from the end, and what lies
outside is brought to the nearest place. -/
def sliceStart (n : Nat) (forward : Bool) : Option Int → Int
  | none => if forward then 0 else n - 1
  | some i => let j := if i < 0 then i + n else i
    if forward then max 0 j else min (n - 1) j

/-- Whether a position is still before the end of a slice. -/
def sliceInside (n : Nat) (forward : Bool) (i : Int) : Option Int → Prop
  | none => True
  | some e => let j := if e < 0 then e + n else e
    if forward then i < j else j < i

end Verif
