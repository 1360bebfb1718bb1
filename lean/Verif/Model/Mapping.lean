import Verif.Model.Store
/-! # `MappableUriResolver` with its calls of `map` (`jsoned/uri_resolver.py`) -/

namespace Verif.Resolver
open Verif

/-- `MappableUriResolver.map` (uri_resolver.py 23-24) -/
def mapUri (m : List (Str × Str)) (uri target : Str) : List (Str × Str) := dictSet uri target m

/-- The mapping of a new resolver (uri_resolver.py 20-21) after calls of `map`, the oldest first. -/
def mappings (calls : List (Str × Str)) : List (Str × Str) := calls.foldl (fun m c => mapUri m c.1 c.2) []

end Verif.Resolver
