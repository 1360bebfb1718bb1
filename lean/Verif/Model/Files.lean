import Verif.Model.Store
/-!
# Loading files: `DefaultLoader.load` and `load_file` (uri_loader.py 63-77)

What `open` and the two parsers do is given by a `Disk`.  That the file is never closed is not modelled.
-/

namespace Verif.Files
open Verif Rfc3986

/-- The files and the parsers: `open(name, "r")` with the text that can be read, `json.load(…, parse_float=Decimal)` and
`yaml.load(…, FullLoader)`, each followed by `JsonSchema(json, vocabulary)`; all may raise (used at uri_loader.py 70-75). -/
structure Disk (V D : Type) where
  openFile : Str → Res Str
  json : Str → V → Res D
  yaml : Str → V → Res D

/-- `str.rfind` of one character (used by `splitext` at uri_loader.py 71) -/
def rfind (c : Char) : Str → Int
  | [] => -1
  | x :: s =>
    let r := rfind c s
    if 0 ≤ r then r + 1 else if x = c then 0 else -1

/-- `os.path.splitext` (Python 3.11, genericpath.py `_splitext`): the loop looks for a character that is not a dot between the last
slash and the last dot. -/
def splitext (p : Str) : Str × Str :=
  let sep := rfind '/' p
  let dot := rfind '.' p
  if sep < dot then
    if ((p.drop (sep + 1).toNat).take (dot - sep - 1).toNat).any (· != '.') then (p.take dot.toNat, p.drop dot.toNat) else (p, [])
  else (p, [])

variable {V D : Type} (disk : Disk V D)

/-- `DefaultLoader.load_file` (uri_loader.py 68-77) with `_SUPPORTED_FORMATS` (lines 18-22). -/
def loadFile (name : Str) (v : V) : Res D := do
  let text ← disk.openFile name
  let ext := (splitext name).2
  if ext = c!".yaml" then disk.yaml text v
  else if ext = c!".yml" then disk.yaml text v
  else if ext = c!".json" then disk.json text v
  else .err .valueError

/-- `DefaultLoader.load` (uri_loader.py 63-66), as a loader of the store. -/
def loader : Store.Loader V D Resolver.State := fun u v st =>
  match Resolver.resolve u st with
  | (.ok name, st) => (loadFile disk name v, st)
  | (.err e, st) => (.err e, st)
  | (.timeout, st) => (.timeout, st)

end Verif.Files
