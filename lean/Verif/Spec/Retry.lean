import Verif.Spec.Web
/-! # What C64 says of failed loads that can be tried again -/

namespace Verif.Spec
open Verif

/-- A document whose references stand in the first layer only: its root has no `$ref`, and each member of the root either has nothing that means something to
loading, or is an object with `$ref` in the other members of which there is no such thing. -/
def Shallow (kvs : List (Str × Node)) : Prop :=
  c!"$ref" ∉ kvs.map Prod.fst ∧ ∀ k n, (k, n) ∈ kvs → Without coreKeys n ∨ ∃ m, n = .obj m ∧ c!"$ref" ∈ m.map Prod.fst ∧ ∀ k' n', (k', n') ∈ m → Without coreKeys n'

end Verif.Spec

namespace Verif.Obj
open Verif Verif.Spec

/-- `E0` is `E` at a time when some of the files cannot be read: for a Uri with one of the identifiers `gone`, the loader raises. -/
def Lacks (E E0 : Env) : Prop :=
  E0.ip = E.ip ∧ ∃ gone : Str → Prop, ∀ u k, Store.baseText E.ip u = .ok k → (gone k → ∃ e, E0.file u = .err e) ∧ (¬gone k → E0.file u = E.file u)

/-- From `s`, any number of attempts to load `d`, each of them while some files cannot be read, lead to `s'`. -/
inductive Attempts (E : Env) (d : Nat) : St → St → Prop
  | nil (s : St) : Attempts E d s s
  | cons {E0 : Env} {s s1 s' : St} {x : Res Unit} (lacks : Lacks E E0) (call : ∃ f0, ∀ f, f0 ≤ f → (ops E0 f).load d s = (x, s1)) (rest : Attempts E d s1 s') :
      Attempts E d s s'

end Verif.Obj
