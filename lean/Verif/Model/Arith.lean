import Verif.Model.Types
/-!
# Addition of `JsonNumber`s and conversion to `int`

`JsonNumber` has `__add__` but no `__radd__` (types/json_number.py 154-190).  `float()` is not modelled.
-/

namespace Verif

/-- `a + b` on `Decimal`s under the default context (`Decimal.__add__`, Python 3.11): a quiet NaN is passed on, infinities of opposite
signs raise `InvalidOperation`, finite numbers are added exactly and rounded (used at types/json_number.py 170-184). -/
def Num.add : Num → Num → Res Num
  | nan, _ => .ok nan
  | _, nan => .ok nan
  | inf s, inf t => if s = t then .ok (inf s) else .err .invalidOperation
  | inf s, fin _ => .ok (inf s)
  | fin _, inf t => .ok (inf t)
  | fin q, fin r => do .ok (fin (← fix (q + r)))

/-- `JsonNumber.__add__` (types/json_number.py 170-184): the result is a `JsonNumber` without parent.  The operands are swapped for a
`Decimal` (line 181). -/
def jnAdd (n : Num) : Operand → Res Num
  | .val (.dec d) => d.add n
  | o => do n.add (← o.num)

/-- `a + b` where at least one side is a `JsonNumber`: a plain left operand does not know `JsonNumber`, and there is no
`JsonNumber.__radd__`, so `TypeError` (types/json_number.py 170-184). -/
def pyAdd : Operand → Num → Res Num
  | .node (.num m), n => jnAdd m (.node (.num n))
  | _, _ => .err .typeError

/-- `JsonNumber.__int__` (types/json_number.py 186-187). -/
def jnInt (n : Num) : Res Int := n.toInt

end Verif
