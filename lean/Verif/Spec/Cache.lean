import Verif.Model.Cache
/-! # Histories of queries, for C11 -/

namespace Verif.Obj
open Verif

/-- All schemas are loaded. -/
def AllReady (s : St) : Prop := ∀ x ∈ s.docs, x.ready = true

/-- The objects and schemas of `s` are there in `s'`, unmodified. -/
structure Grows (s s' : St) : Prop where
  mem : ∀ (i : Nat) (c : Cell), s.mem[i]? = some c → s'.mem[i]? = some c
  docs : ∀ (d : Nat) (x : Schema), s.docs[d]? = some x → s'.docs[d]? = some x

/-- A history in which nothing that was there is modified, all schemas are loaded, and more of them may come between two uses. -/
inductive History : St → List (St × Use) → Prop
  | nil (s : St) : History s []
  | cons {s s' : St} {u : Use} {us : List (St × Use)} (grows : Grows s s') (ready : AllReady s') (rest : History s' us) :
      History s ((s', u) :: us)

end Verif.Obj
