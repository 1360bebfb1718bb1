import Verif.Model.Keywords
/-!
# What keywords do to the validator dictionary

The second half of the `apply` methods in jsoned/keywords/*.py, after everything was read from the schema object.  `applyKw` of `Model/Keywords` is
reading followed by this (`applyKw_eq` in `Proofs/Load`).
-/

namespace Verif

/-- The change a keyword makes to the validator dictionary: none (exclusive_maximum_keyword.py 12-14, unique_items_keyword.py 15-16), a validator under the
keyword's key, a part of the `ObjectValidator` (properties_keyword.py 15-23, pattern_properties_keyword.py 15-21, additional_properties_keyword.py 15-27,
unevaluated_properties_keyword.py 15-21, property_names_keyword.py 15-18), of the `ConditionalValidator` (if_keyword.py, then_keyword.py, else_keyword.py 15-21) or
of the `ArrayValidator` (items_keyword.py 15-29, prefix_items_keyword.py 15-21). -/
inductive Upd (α : Type) where
  | nop
  | set (x : V α)
  | props (kvs : List (Str × α))
  | patterns (kvs : List (Str × α))
  | additional (s : Option (Sub α))
  | unevaluated (b : Bool)
  | names (a : α)
  | ifs (a : α)
  | thens (a : α)
  | elses (a : α)
  | itemsArr (pre : List α) (its : Option α)
  | itemsOne (its : Option α)
  | pre (xs : List α)

variable {α : Type}

/-- Change the `ObjectValidator`, created on demand (properties_keyword.py 15-23). -/
def setObj (g : ObjV α → ObjV α) (d : Data α) : Data α := dictSet c!"properties" (.object (g (objOf d))) d

/-- Make the change; the lines are those at `Upd`.  prefix_items_keyword.py 16 looks up the wrong key. -/
def Upd.apply (key : Str) (d : Data α) : Upd α → Res (Data α)
  | .nop => .ok d
  | .set x => .ok (dictSet key x d)
  | .props kvs => .ok (setObj (fun o => { o with props := kvs.foldl (fun p x => dictSet x.1 x.2 p) o.props }) d)
  | .patterns kvs => .ok (setObj (fun o => { o with patterns := some kvs }) d)
  | .additional s => .ok (setObj (fun o => { o with additional := s.or o.additional }) d)
  | .unevaluated b => .ok (setObj (fun o => { o with unevaluated := b || o.unevaluated }) d)
  | .names a => .ok (setObj (fun o => { o with names := some a }) d)
  | .ifs a => .ok (dictSet c!"if" (.cond (some a) (condOf d).2.1 (condOf d).2.2) d)
  | .thens a => .ok (dictSet c!"if" (.cond (condOf d).1 (some a) (condOf d).2.2) d)
  | .elses a => .ok (dictSet c!"if" (.cond (condOf d).1 (condOf d).2.1 (some a)) d)
  | .itemsArr ps its => .ok (dictSet c!"items" (.array (some ps) (its.or (arrayOf c!"items" d).2)) d)
  | .itemsOne its => .ok (dictSet c!"items" (.array (arrayOf c!"items" d).1 (its.or (arrayOf c!"items" d).2)) d)
  | .pre xs =>
    if dictHas c!"items" d then
      if dictHas c!"prefixItems" d then
        .ok (dictSet c!"prefixItems" (.array (some xs) (arrayOf c!"prefixItems" d).2) d)
      else .err .keyError
    else .ok (dictSet c!"prefixItems" (.array (some xs) none) d)

end Verif
