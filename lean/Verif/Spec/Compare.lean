import Verif.Model.Types
/-!
# The order of JSON values of one shape
-/

namespace Verif

/-- What a value must look like to be compared with others of its shape. -/
inductive Shape where
  | number | string | boolean
  | array (item : Shape)

/-- `n` is a value of shape `s`; NaN is of no shape. -/
inductive HasShape : Shape → Node → Prop where
  | number (n : Num) (h : n ≠ .nan) : HasShape .number (.num n)
  | string (s : Str) : HasShape .string (.str s)
  | boolean (b : Bool) : HasShape .boolean (.bool b)
  | array (s : Shape) (xs : List Node) (h : ∀ x ∈ xs, HasShape s x) : HasShape (.array s) (.arr xs)

/-- The order of numbers. -/
inductive NumBefore : Num → Num → Prop where
  | fin (p q : Rat) (h : p < q) : NumBefore (.fin p) (.fin q)
  | low (p : Rat) : NumBefore (.inf true) (.fin p)
  | high (p : Rat) : NumBefore (.fin p) (.inf false)
  | ends : NumBefore (.inf true) (.inf false)

/-- Which of two values of one shape comes first: texts by the first different character, arrays by the first different item, and what is
continued comes after. -/
inductive Before : Node → Node → Prop where
  | number {m n : Num} (h : NumBefore m n) : Before (.num m) (.num n)
  | boolean : Before (.bool false) (.bool true)
  | char (p s t : Str) {c d : Char} (h : c.toNat < d.toNat) : Before (.str (p ++ c :: s)) (.str (p ++ d :: t))
  | longer (s : Str) (c : Char) (t : Str) : Before (.str s) (.str (s ++ c :: t))
  | item (ps xs ys : List Node) {x y : Node} (h : Before x y) : Before (.arr (ps ++ x :: xs)) (.arr (ps ++ y :: ys))
  | more (ps : List Node) (y : Node) (ys : List Node) : Before (.arr ps) (.arr (ps ++ y :: ys))

end Verif
