/-!
# Python basics

Strings are lists of Unicode scalar values (Python strings may also hold lone surrogates; those are not modelled).
Exceptions are values.  `Res.timeout` marks a computation that used up its fuel; a Python computation that runs
forever (or until `RecursionError`) is one whose model times out for every amount of fuel.
-/

namespace Verif

/-- A Python `str`. -/
abbrev Str := List Char

open Lean in
/-- `c!"abc"` is the list of characters `['a', 'b', 'c']`. -/
macro:max "c!" s:str : term => do
  let elems : Array (TSyntax `term) := s.getString.toList.toArray.map fun c => Syntax.mkCharLit c
  `(([ $elems,* ] : List Char))

/-- What a `ValidationError` carries (jsoned/errors/validation_error.py 6-20): the class attribute `code`, the
attribute `path`, and one string-valued detail (`expected_property`, `expected_format`, ...) where the class has one.
Not modelled: the other `expected_*` attributes and the message text. -/
structure VErr where
  code : Str
  path : Str
  detail : Str := []
deriving DecidableEq, Repr

/-- Python exceptions, by class.  `unmodelled` is not an exception: it marks the corners of the code that the
model leaves out (listed in DESIGN.md); no theorem claims anything about a run that ends in it. -/
inductive PyErr where
  | validation (e : VErr)
  | schemaParse
  | typeError
  | keyError
  | valueError
  | attributeError
  | indexError
  | overflowError
  | invalidOperation
  | decimalOverflow
  | reError
  | fileNotFound
  | jsonLoadError
  | unmodelled
deriving DecidableEq, Repr

/-- Result of a Python computation. -/
inductive Res (α : Type) where
  | ok (a : α)
  | err (e : PyErr)
  | timeout
deriving DecidableEq, Repr

namespace Res

@[inline] def bind {α β : Type} (x : Res α) (f : α → Res β) : Res β :=
  match x with
  | .ok a => f a
  | .err e => .err e
  | .timeout => .timeout

instance : Monad Res where
  pure := Res.ok
  bind := Res.bind

@[simp] theorem pure_eq {α : Type} (a : α) : (pure a : Res α) = .ok a := rfl
@[simp] theorem ok_bind {α β : Type} (a : α) (f : α → Res β) : (Res.ok a >>= f) = f a := rfl
@[simp] theorem err_bind {α β : Type} (e : PyErr) (f : α → Res β) : (Res.err e >>= f) = .err e := rfl
@[simp] theorem timeout_bind {α β : Type} (f : α → Res β) : (Res.timeout >>= f) = (.timeout : Res β) := rfl

theorem bind_eq_ok {α β : Type} {x : Res α} {f : α → Res β} {b : β} :
    (x >>= f) = .ok b ↔ ∃ a, x = .ok a ∧ f a = .ok b := by
  cases x <;> simp

/-- `x ⊑ y`: `y` is what `x` becomes with more fuel. -/
def Le {α : Type} (x y : Res α) : Prop := x = .timeout ∨ x = y

theorem Le.refl {α : Type} (x : Res α) : Le x x := Or.inr rfl

theorem Le.bind {α β : Type} {x y : Res α} {f g : α → Res β} (h : Le x y) (hf : ∀ a, Le (f a) (g a)) :
    Le (x >>= f) (y >>= g) := by
  rcases h with h | h
  · subst h; exact Or.inl rfl
  · subst h
    cases x with
    | ok a => exact hf a
    | err e => exact Or.inr rfl
    | timeout => exact Or.inl rfl

end Res

/-! ## Dictionaries

A Python `dict` with string keys is an association list in insertion order; keys are distinct by construction
(`dictSet` never duplicates a key). -/

/-- `d.get(k)` -/
def dictGet {α : Type} (k : Str) : List (Str × α) → Option α
  | [] => none
  | (k', a) :: d => if k' = k then some a else dictGet k d

/-- `k in d` -/
def dictHas {α : Type} (k : Str) (d : List (Str × α)) : Bool := (dictGet k d).isSome

/-- `d[k] = a`: replaces in place, or appends. -/
def dictSet {α : Type} (k : Str) (a : α) : List (Str × α) → List (Str × α)
  | [] => [(k, a)]
  | (k', a') :: d => if k' = k then (k', a) :: d else (k', a') :: dictSet k a d

/-- `del d[k]` for a present key; the identity for an absent one. -/
def dictDel {α : Type} (k : Str) : List (Str × α) → List (Str × α)
  | [] => []
  | (k', a) :: d => if k' = k then d else (k', a) :: dictDel k d

/-! ## String methods -/

/-- `sep.join(parts)` -/
def strJoin (sep : Str) : List Str → Str
  | [] => []
  | [x] => x
  | x :: y :: r => x ++ sep ++ strJoin sep (y :: r)

/-- `s.split(c)` for a one-character separator. -/
def strSplit (c : Char) : Str → List Str
  | [] => [[]]
  | x :: xs =>
    if x = c then [] :: strSplit c xs
    else match strSplit c xs with
      | [] => [[x]]
      | p :: ps => (x :: p) :: ps

/-- `s.replace(c, t)` for a one-character pattern. -/
def strReplace1 (c : Char) (t : Str) (s : Str) : Str := s.flatMap fun x => if x = c then t else [x]

/-- `s.replace(ab, t)` for a two-character pattern, scanning left to right without overlap. -/
def strReplace2 (a b : Char) (t : Str) : Str → Str
  | [] => []
  | [x] => [x]
  | x :: y :: r => if x = a ∧ y = b then t ++ strReplace2 a b t r else x :: strReplace2 a b t (y :: r)

/-- `sub in s` -/
def strContains (sub : Str) : Str → Bool
  | [] => sub.isPrefixOf []
  | x :: xs => sub.isPrefixOf (x :: xs) || strContains sub xs

/-- `str(n)` for a natural number. -/
def natStr (n : Nat) : Str := Nat.toDigits 10 n

end Verif
