import Verif.Py.Basic
import Verif.Py.Rfc3986
/-! # `jsoned/uri.py` -/

namespace Verif
open Rfc3986

/-- `Authority` (uri.py 16-21) -/
structure Authority where
  userinfo : Str
  host : Str
  port : Str
deriving DecidableEq

/-- `Uri` (uri.py 78-91) -/
structure Uri where
  scheme : Str
  authority : Authority
  path : Str
  query : Str
  fragment : Str
deriving DecidableEq

namespace Uri
variable (ip : IpRe)

/-- `Authority.__init__` (uri.py 17-21); `None.groupdict()` is an `AttributeError`. -/
def parseAuthority (s : Str) : Res Authority :=
  match Re.pyMatch (subauthorityMatcher ip) s with
  | none => .err .attributeError
  | some m => .ok ⟨(Re.group m 1).getD [], (Re.group m 2).getD [], (Re.group m 3).getD []⟩

/-- `Authority.__str__` (uri.py 35-44) -/
def authorityText (a : Authority) : Str :=
  (if a.userinfo = [] then [] else a.userinfo ++ ['@']) ++ a.host ++ (if a.port = [] then [] else ':' :: a.port)

/-- `Authority.__bool__` (uri.py 46-47) -/
def authorityTrue (a : Authority) : Bool := a.userinfo != [] || a.host != [] || a.port != []

/-- `Uri.__init__` (uri.py 79-91) -/
def parse (s : Str) : Res Uri :=
  match Re.pyMatch uriMatcher s with
  | none => .err .attributeError
  | some m => do
    let scheme := lower ((Re.group m 1).getD [])
    let authority ← parseAuthority ip ((Re.group m 2).getD [])
    let path := (Re.group m 3).getD []
    .ok ⟨scheme, authority, if scheme ≠ [] then normPath path else path, pctUpper ((Re.group m 4).getD []),
      pctUpper ((Re.group m 5).getD [])⟩

/-- The authority of a copy (uri.py 177-179) -/
def authorityOr (u : Uri) : Option Str → Res Authority
  | some a => parseAuthority ip a
  | none => .ok u.authority

/-- `Uri.copy_with` (uri.py 165-189) -/
def copyWith (u : Uri) (scheme authority path query fragment : Option Str := none) : Res Uri := do
  let scheme := match scheme with
    | some s => lower s
    | none => u.scheme
  let authority ← authorityOr ip u authority
  let path := path.getD u.path
  .ok ⟨scheme, authority, if scheme ≠ [] then normPath path else path, (query.map pctUpper).getD u.query,
    (fragment.map pctUpper).getD u.fragment⟩

/-- `Uri.__str__` (uri.py 191-203) -/
def text (u : Uri) : Str :=
  (if u.scheme = [] then [] else u.scheme ++ c!"://") ++ (if authorityTrue u.authority then authorityText u.authority else []) ++
    u.path ++ (if u.query = [] then [] else '?' :: u.query) ++ (if u.fragment = [] then [] else '#' :: u.fragment)

/-- `Uri.__bool__` (uri.py 238-245) -/
def truth (u : Uri) : Bool :=
  u.scheme != [] || authorityTrue u.authority || u.path != [] || u.query != [] || u.fragment != []

/-- `Uri.base_uri` (uri.py 113-115) -/
def baseUri (u : Uri) : Res Uri := copyWith ip u (fragment := some []) (query := some [])

/-- `Uri.is_absolute` (uri.py 117-120) -/
def isAbsolute (u : Uri) : Res Bool := do
  let b ← baseUri ip u
  .ok (Re.pyMatch absoluteMatcher (text b)).isSome

/-- `path[:path.rfind("/")]` (uri.py 156-157); if there is no slash, `rfind` is -1, and the last character is dropped. -/
def upToLastSlash (p : Str) : Str :=
  if p.contains '/' then strJoin c!"/" (strSplit '/' p).dropLast else p.dropLast

/-- `Uri.resolve` with a `Uri` (uri.py 138-160) -/
def resolve (base u : Uri) : Res Uri := do
  if ← isAbsolute ip u then copyWith ip u
  else if u.path = [] then
    copyWith ip base (query := if u.query = [] then none else some u.query) (fragment := some u.fragment)
  else if u.path.head? = some '/' then copyWith ip base (query := some u.query) (fragment := some u.fragment) (path := some u.path)
  else
    copyWith ip base (query := some u.query) (fragment := some u.fragment) (path := some (upToLastSlash base.path ++ '/' :: u.path))

/-- `Uri.resolve` with a `str` (uri.py 139-140) -/
def resolveText (base : Uri) (s : Str) : Res Uri := do
  let u ← parse ip s
  resolve ip base u

/-- `Uri.__eq__` with another `Uri` (uri.py 215-223); `Authority.__eq__` (uri.py 60-66). -/
def eq (a b : Uri) : Bool :=
  a.scheme == b.scheme && (a.authority.userinfo == b.authority.userinfo && a.authority.host == b.authority.host &&
    a.authority.port == b.authority.port) && a.path == b.path && a.query == b.query && a.fragment == b.fragment

/-- `Uri.__eq__` with a `str` (uri.py 225-228) -/
def eqText (a : Uri) (s : Str) : Res Bool := do
  let b ← parse ip s
  .ok (eq a b)

/-- What `Uri.__hash__` hashes (uri.py 205-209): the `repr`, whose text determines and is determined by `str(self)`. -/
def hashKey (a : Uri) : Str := c!"Uri(" ++ text a ++ c!")"

/-- What an authority or a URI is compared with: one of its kind, a text, anything else (uri.py 60-75 and the same method of `Uri`). -/
inductive Other (α : Type) where
  | same (a : α)
  | text (s : Str)
  | else

/-- `Authority.__eq__` (uri.py 60-75) -/
def authorityEq (a : Authority) : Other Authority → Res Bool
  | .same b => .ok (a.userinfo == b.userinfo && a.host == b.host && a.port == b.port)
  | .text s => do
    let b ← parseAuthority ip s
    .ok (a.userinfo == b.userinfo && a.host == b.host && a.port == b.port)
  | .else => .err .typeError

/-- `Uri.__eq__` (uri.py 214-236) -/
def compare (a : Uri) : Other Uri → Res Bool
  | .same b => .ok (eq a b)
  | .text s => eqText ip a s
  | .else => .err .typeError

end Uri
end Verif
