import Verif.Model.Whole
import Verif.Model.References
import Verif.Model.Edit
import Verif.Model.Files
import Verif.Check.Texts
/-!
# The project's own tests of schemas as objects, of stores and of resolvers, run on the model

From tests/keywords/test_ref_keyword.py, test_anchor_keyword.py, test_id_keyword.py, test_properties_keyword.py, tests/test_json_schema.py,
tests/test_uri_resolver.py and tests/types.  These are tests of the model, not proofs.
-/

namespace Verif.Check
open Verif Verif.Obj

/-- `tests/fixtures/schema_plain.json`, its first element's first two members. -/
def plain : Val := .list [.dict [(c!"description", .str c!"a schema given for items"),
  (c!"schema", .dict [(c!"items", .dict [(c!"type", .str c!"integer")])])]]

/-- The one file there is (the test maps `file://` to its directory). -/
def objEnv : Obj.Env where
  ip := ip
  w := Formats.withFormats env world []
  file u := if u.authority.host == c!"schema_plain.json" then .ok plain else .err .jsonLoadError

/-- Make a schema, query it, and read what is found. -/
def query (voc : List Kw) (doc : Val) (p : Str) : Res Node := (do
  let d ← newDocument doc voc
  let q ← lift (Pointer.parse p)
  let i ← (ops objEnv 40).query d q
  (ops objEnv 40).node i : M Node) St.empty |>.1

/-- Make a schema, load it, and look at the identifiers in the store. -/
def stored (voc : List Kw) (doc : Val) : List Str := ((do
  let d ← newDocument doc voc
  (ops objEnv 40).load d : M Unit) St.empty).2.storage.map (·.1)

/-- Make a schema and validate. -/
def whole (voc : List Kw) (doc v : Val) : Res Unit := (do
  let d ← newDocument doc voc
  validate objEnv 40 d v : M Unit) St.empty |>.1

/-- Make a schema, load it, and read all documents. -/
def docsOf (voc : List Kw) (doc : Val) : Option (List Doc) :=
  let s := ((do
    let d ← newDocument doc voc
    (ops objEnv 40).load d : M Unit) St.empty).2
  allL (docTree s.mem 40) s.docs

/-- Make a schema, load it, query it, and compare what is found with plain data. -/
def finds (voc : List Kw) (doc : Val) (p : Str) (v : Val) : Bool := match query voc doc p, docsOf voc doc with
  | .ok n, some docs => eqThrough docs 40 n v == .ok true
  | _, _ => false

/-- The found value compares equal to plain data. -/
def isVal (r : Res Node) (v : Val) : Bool := match r with
  | .ok n => nodeEqVal n v == .ok true
  | _ => false

def names : Val := .dict [(c!"properties", .dict [(c!"name", .dict [(c!"$ref", .str c!"#/defs/generic_name")]),
    (c!"last_name", .dict [(c!"$ref", .str c!"#/defs/generic_name")]), (c!"email", .dict [(c!"type", .str c!"string")])]),
  (c!"defs", .dict [(c!"generic_name", .dict [(c!"type", .str c!"string")])])]

-- tests/keywords/test_ref_keyword.py 8-37
#guard finds [.ref] names c!"/properties/name" (.dict [(c!"type", .str c!"string")])
#guard finds [.ref] names c!"/properties/name/type" (.str c!"string")

-- tests/keywords/test_ref_keyword.py 40-65
#guard finds [.ref] (.dict [(c!"properties", .dict [(c!"name", .dict [(c!"type", .dict [(c!"$ref", .str c!"#/defs/generic_name/type")])])]),
  (c!"defs", .dict [(c!"generic_name", .dict [(c!"type", .str c!"string")])])]) c!"/properties/name/type" (.str c!"string")

-- tests/keywords/test_ref_keyword.py 68-86
#guard isVal (query [.ref] (.dict [(c!"properties", .dict [(c!"name", .dict [(c!"type", .str c!"string")]), (c!"$ref", .str c!"#")])])
  c!"/properties/properties/properties/name/type") (.str c!"string")

def nonLocal : Val := .dict [(c!"properties", .dict [(c!"name", .dict [(c!"type", .str c!"string")]),
  (c!"$ref", .str c!"file://schema_plain.json#/0/schema")])]

-- tests/keywords/test_ref_keyword.py 89-117
#guard isVal (query [.ref] nonLocal c!"/properties/name/type") (.str c!"string")
#guard isVal (query [.ref] nonLocal c!"/properties/items/type") (.str c!"integer")

def anchored : Val := .dict [(c!"type", .str c!"object"), (c!"properties", .dict [(c!"$anchor", .str c!"props"),
  (c!"children", .dict [(c!"type", .str c!"array"), (c!"items", .dict [(c!"type", .str c!"object")])])])]

-- tests/keywords/test_anchor_keyword.py 15-37
#guard match query [.anchor] anchored c!"/props" with
  | .ok (.obj kvs) => dictHas c!"children" kvs
  | _ => false

def generic : Val := .dict [
  (c!"genericObject", .dict [(c!"$anchor", .str c!"base-object"), (c!"type", .str c!"object"),
    (c!"properties", .dict [(c!"children", .dict [(c!"type", .str c!"array"), (c!"items", .dict [(c!"$ref", .str c!"#/base-object")])])])]),
  (c!"strictObject", .dict [(c!"additionalProperties", .bool false), (c!"$ref", .str c!"#/base-object")])]

-- tests/keywords/test_anchor_keyword.py 40-67
#guard match query [.ref, .anchor] generic c!"/genericObject/properties/children/items" with
  | .ok (.ref _ _ _) => true
  | _ => false
#guard match query [.ref, .anchor] generic c!"/genericObject/properties/children/items/properties" with
  | .ok (.obj _) => true
  | _ => false

-- tests/keywords/test_id_keyword.py 13-39
#guard stored [.id] (.dict [(c!"id", .str c!"https://test.com/document-id"), (c!"properties", .dict [(c!"a", .int 1), (c!"b", .int 2)])]) ==
  [c!"https://test.com/document-id"]
#guard stored [.id] (.dict [(c!"$id", .str c!"https://test.com/document-id"), (c!"properties", .dict [(c!"a", .int 1), (c!"b", .int 2)])]) ==
  [c!"https://test.com/document-id"]

def customer : Val := .dict [
  (c!"$id", .str c!"https://example.com/schemas/customer"), (c!"$schema", .str c!"https://json-schema.org/draft/2019-09/schema"),
  (c!"type", .str c!"object"),
  (c!"properties", .dict [(c!"first_name", .dict [(c!"type", .str c!"string")]), (c!"last_name", .dict [(c!"type", .str c!"string")]),
    (c!"shipping_address", .dict [(c!"$ref", .str c!"/schemas/address")]), (c!"billing_address", .dict [(c!"$ref", .str c!"/schemas/address")])]),
  (c!"required", .list [.str c!"first_name", .str c!"last_name", .str c!"shipping_address", .str c!"billing_address"]),
  (c!"$defs", .dict [(c!"address", .dict [
    (c!"$id", .str c!"/schemas/address"), (c!"$schema", .str c!"http://json-schema.org/draft-07/schema#"), (c!"type", .str c!"object"),
    (c!"properties", .dict [(c!"street_address", .dict [(c!"type", .str c!"string")]), (c!"city", .dict [(c!"type", .str c!"string")]),
      (c!"state", .dict [(c!"$ref", .str c!"#/definitions/state")])]),
    (c!"required", .list [.str c!"street_address", .str c!"city", .str c!"state"]),
    (c!"definitions", .dict [(c!"state", .dict [(c!"enum", .list [.str c!"CA", .str c!"NY", .str c!"... etc ..."])])])])])]

-- tests/keywords/test_id_keyword.py 42-79
#guard (stored [.id] customer).contains c!"https://example.com/schemas/address"
#guard (stored [.id] customer).contains c!"https://example.com/schemas/customer"

def nested : Val := .dict [(c!"properties", .dict [(c!"name", .dict [(c!"type", .str c!"string")]),
  (c!"email", .dict [(c!"type", .str c!"string"), (c!"format", .str c!"email")]), (c!"extra", .dict [(c!"$ref", .str c!"#/")])])]

-- tests/keywords/test_properties_keyword.py 83-108
#guard refuses [] (some c!"extra.extra.email") none (whole [.properties, .type, .format, .ref] nested
  (.dict [(c!"extra", .dict [(c!"extra", .dict [(c!"email", .int 1)])])]))
-- tests/keywords/test_properties_keyword.py 111-131
#guard accepts (whole [.properties, .type, .format, .ref] nested
  (.dict [(c!"extra", .dict [(c!"extra", .dict [(c!"email", .str c!"test@email.com")])])]))

end Verif.Check
