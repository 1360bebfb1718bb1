import Verif.Model.Types
import Verif.Py.Binary64
/-!
# `float`s in `JsonNumber`s (`jsoned/types/json_number.py` 13-22, 189-190)

`Flt` of `Py/Number.lean` pairs the value of a `float` with the value of its text, whatever the two are.  Here they are those of
CPython's `float`s.
-/

namespace Verif
open Flo Num

/-- The value of the text `f"{x}"` of a `float`, as `Decimal` reads it (used at types/json_number.py 13-22). -/
def shown (x : Rat) : Rat :=
  if x = 0 then 0
  else
    let (n, p) := shortest (mag x) 16 1
    if x < 0 then -((n : Rat) * pow10 p) else (n : Rat) * pow10 p

/-- The `float` with the value `x` (not a function of the code). -/
def fltOf (x : Rat) : Flt := .fin x (shown x)

/-- `JsonNumber.__float__` (types/json_number.py 189-190): `float(Decimal)` goes through the text of the `Decimal` and rounds it; numbers out
of range become infinities. -/
def jnFloat : Num → Flt
  | .fin q => if tooLarge q then .inf (decide (q < 0)) else fltOf (fl q)
  | .inf s => .inf s
  | .nan => .nan

end Verif
