import Verif.Spec.Uri
/-!
# Dot segments (RFC 3986, 5.2.4)
-/

namespace Verif.UriSpec

/-- Following the segments of a path: `out` is the way from the root (latest first); above the root there is the root. -/
def atRoot : List Str → List Str → List Str
  | out, [] => out.reverse
  | out, x :: r => if x = c!"." then atRoot out r else if x = c!".." then atRoot out.tail r else atRoot (x :: out) r

/-- The path of these segments without dot segments; a last `.` or `..` leaves a slash. -/
def withoutDots (segs : List Str) : Str :=
  '/' :: strJoin c!"/" (if segs.getLast? = some c!"." ∨ segs.getLast? = some c!".." then atRoot [] segs ++ [[]] else atRoot [] segs)

end Verif.UriSpec
