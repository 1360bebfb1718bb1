import Verif.Model.Uri
/-! # `jsoned/json_store.py`, `jsoned/uri_resolver.py`, `jsoned/uri_loader.py` -/

namespace Verif
open Rfc3986

namespace Store
variable (ip : IpRe)

/-- An argument that may be a `Uri` or a `str` (json_store.py 33-39, 49-57, 67-78). -/
inductive Key where
  | uri (u : Uri)
  | str (s : Str)

/-- The calls of a program; `V` stands for vocabularies, `D` for documents (json_store.py 20-90). -/
inductive Op (V D : Type) where
  | add (u : Uri) (d : D)
  | get (k : Key)
  | contains (k : Key)
  | load (k : Key) (v : V)

/-- What a call returns (not a function of the code). -/
inductive Out (D : Type) where
  | none
  | doc (d : D)
  | bool (b : Bool)

/-- `JsonStore` (json_store.py 16-18): the storage, the state of the loader (and of the files), and — not in the code — the list
of calls of the loader, latest first. -/
structure State (D L : Type) where
  storage : List (Str × D)
  loader : L
  calls : List (Str × Res D)

/-- A loader: it may fail and change its state.  It does not use the store (true of `DefaultLoader`) (uri_loader.py 28-35). -/
abbrev Loader (V D L : Type) := Uri → V → L → Res D × L

variable {V D L : Type} (ld : Loader V D L)

/-- `str(uri.base_uri)` (json_store.py 23, 37, 53, 81) -/
def baseText (u : Uri) : Res Str := do
  let b ← Uri.baseUri ip u
  .ok (Uri.text b)

/-- `JsonStore.add` (json_store.py 20-23) -/
def add (u : Uri) (d : D) (st : State D L) : Res (Out D) × State D L :=
  match Uri.isAbsolute ip u, baseText ip u with
  | .ok true, .ok k => (.ok .none, { st with storage := dictSet k d st.storage })
  | .ok false, _ => (.err .valueError, st)
  | .ok true, .err e => (.err e, st)
  | .ok true, .timeout => (.timeout, st)
  | .err e, _ => (.err e, st)
  | .timeout, _ => (.timeout, st)

/-- The key under which `get` and `__contains__` look (json_store.py 34-37, 50-53): a text is taken as it is. -/
def lookKey : Key → Res Str
  | .str s => .ok s
  | .uri u => baseText ip u

/-- `JsonStore.get` (json_store.py 33-37) -/
def get (k : Key) (st : State D L) : Res (Out D) := do
  let k ← lookKey ip k
  match dictGet k st.storage with
  | some d => .ok (.doc d)
  | none => .err .keyError

/-- `JsonStore.__contains__` (json_store.py 49-53) -/
def contains (k : Key) (st : State D L) : Res (Out D) := do
  let k ← lookKey ip k
  .ok (.bool (dictHas k st.storage))

/-- `JsonStore.load_uri` (json_store.py 80-90) -/
def loadUri (u : Uri) (v : V) (st : State D L) : Res (Out D) × State D L :=
  match baseText ip u with
  | .ok k =>
    match dictGet k st.storage with
    | some d => (.ok (.doc d), st)
    | none =>
      let r := ld u v st.loader
      let st := { st with loader := r.2, calls := (k, r.1) :: st.calls }
      match r.1 with
      | .ok d => (.ok (.doc d), { st with storage := dictSet k d st.storage })
      | .err .fileNotFound => (.err .jsonLoadError, st)
      | .err e => (.err e, st)
      | .timeout => (.timeout, st)
  | .err e => (.err e, st)
  | .timeout => (.timeout, st)

/-- `JsonStore.load` (json_store.py 67-74) -/
def load (k : Key) (v : V) (st : State D L) : Res (Out D) × State D L :=
  match k with
  | .uri u => loadUri ip ld u v st
  | .str s =>
    match Uri.parse ip s with
    | .ok u => loadUri ip ld u v st
    | .err e => (.err e, st)
    | .timeout => (.timeout, st)

/-- One call (json_store.py 20-90). -/
def step (st : State D L) : Op V D → Res (Out D) × State D L
  | .add u d => add ip u d st
  | .get k => (get ip k st, st)
  | .contains k => (contains ip k st, st)
  | .load k v => load ip ld k v st

/-- A history of calls: the calls with their results, latest first, and the state they lead to (not a function of the code). -/
def exec (l : L) : List (Op V D) → List (Op V D × Res (Out D)) × State D L
  | [] => ([], ⟨[], l, []⟩)
  | op :: ops =>
    let r := exec l ops
    let s := step ip ld r.2 op
    ((op, s.1) :: r.1, s.2)

end Store

namespace Resolver
variable (ip : IpRe)

/-- `os.path.join` (posixpath.py) -/
def pathJoin (a : Str) : List Str → Str
  | [] => a
  | b :: bs =>
    if b.head? = some '/' then pathJoin b bs
    else if a = [] ∨ a.getLast? = some '/' then pathJoin (a ++ b) bs
    else pathJoin (a ++ '/' :: b) bs

/-- `MappableUriResolver.resolve` (uri_resolver.py 26-48); `m` is the mapping in the order of registration. -/
def mapResolve (m : List (Str × Str)) (u : Uri) : Res Str := do
  let s ← Store.baseText ip u
  let hit := (m.find? fun p => p.1.isPrefixOf s).getD ([], [])
  if hit.2 ≠ [] then .ok (pathJoin hit.2 (strSplit '/' (s.drop hit.1.length)))
  else if u.scheme = [] ∨ u.scheme = c!"file" then .ok u.path
  else .err .valueError

/-- `DefaultLoader` (uri_loader.py 43-44): resolvers by scheme, and the cache of `resolve`, latest first.  A resolver is what it
answers; one that changes is a new registration. -/
structure State where
  resolvers : List (Str × (Uri → Res Str))
  cache : List (Uri × Str)

/-- The calls (uri_loader.py 46-61) -/
inductive Op where
  | register (scheme : Str) (r : Uri → Res Str)
  | resolve (u : Uri)
  /-- The cache belongs to the class, so that other loaders can push entries out of it. -/
  | others (keep : Uri → Bool)

/-- The body of `DefaultLoader.resolve` (uri_loader.py 51-61) -/
def lookup (rs : List (Str × (Uri → Res Str))) (u : Uri) : Res Str :=
  match dictGet u.scheme rs with
  | some r => r u
  | none => if u.scheme = [] ∨ u.scheme = c!"file" then .ok u.path else .err .valueError

/-- `DefaultLoader.resolve` with its `lru_cache` of 128 entries (uri_loader.py 49). -/
def resolve (u : Uri) (st : State) : Res Str × State :=
  match st.cache.find? fun p => Uri.eq p.1 u with
  | some p => (.ok p.2, { st with cache := p :: st.cache.filter fun q => !Uri.eq q.1 u })
  | none =>
    match lookup st.resolvers u with
    | .ok p => (.ok p, { st with cache := ((u, p) :: st.cache).take 128 })
    | e => (e, st)

/-- One call (uri_loader.py 46-61). -/
def step (st : State) : Op → Res Str × State
  | .register s r => (.ok [], { st with resolvers := dictSet s r st.resolvers })
  | .resolve u => resolve u st
  | .others keep => (.ok [], { st with cache := st.cache.filter fun p => keep p.1 })

/-- The state after a history (latest call first) (not a function of the code). -/
def exec : List Op → State
  | [] => ⟨[], []⟩
  | op :: ops => (step (exec ops) op).2

end Resolver
end Verif
