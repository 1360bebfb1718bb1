import Verif.Py.Basic
/-!
# What URI texts consist of

The five parts of a text as in RFC 3986, appendix B, and the characters that may stand in them.
-/

namespace Verif.UriSpec

/-- Unreserved characters and `sub-delims`. -/
def Plain (c : Char) : Prop := c.isAlpha = true ∨ c.isDigit = true ∨ c ∈ c!"._~-!$&'()*+,;="

def Hex (c : Char) : Prop := c.isDigit = true ∨ c ∈ c!"abcdefABCDEF"

/-- Characters satisfying `p` and percent encodings. -/
inductive Enc (p : Char → Prop) : Str → Prop
  | nil : Enc p []
  | chr {c : Char} {s : Str} (h : p c) (hs : Enc p s) : Enc p (c :: s)
  | pct {a b : Char} {s : Str} (ha : Hex a) (hb : Hex b) (hs : Enc p s) : Enc p ('%' :: a :: b :: s)

def SchemeText (s : Str) : Prop :=
  ∃ a r, s = a :: r ∧ a.isAlpha = true ∧ ∀ c ∈ r, c.isAlpha = true ∨ c.isDigit = true ∨ c ∈ c!"+.-"

/-- A scheme is a scheme text before a colon at the start. -/
def SchemeOf (s : Str) : Option Str → Str → Prop
  | some x, r => SchemeText x ∧ s = x ++ ':' :: r
  | none, r => r = s ∧ ¬ ∃ x r', SchemeText x ∧ s = x ++ ':' :: r'

/-- The authority follows `//` and ends before `/`, `\`, `?`, `#`. -/
def AuthorityOf (s : Str) : Option Str → Str → Prop
  | some a, r => s = '/' :: '/' :: (a ++ r) ∧ (∀ c ∈ a, c ∉ c!"\\/?#") ∧ ∀ c, r.head? = some c → c ∈ c!"\\/?#"
  | none, r => r = s ∧ ∀ r', s ≠ '/' :: '/' :: r'

/-- The path ends before `?` and `#`. -/
def PathOf (s p r : Str) : Prop := s = p ++ r ∧ (∀ c ∈ p, c ≠ '?' ∧ c ≠ '#') ∧ ∀ c, r.head? = some c → c = '?' ∨ c = '#'

/-- The query follows `?` and ends before `#`. -/
def QueryOf (s : Str) : Option Str → Str → Prop
  | some q, r => s = '?' :: (q ++ r) ∧ '#' ∉ q ∧ ∀ c, r.head? = some c → c = '#'
  | none, r => r = s ∧ s.head? ≠ some '?'

/-- The fragment follows `#` and ends before a line feed; what comes then is not looked at. -/
def FragmentOf (s : Str) : Option Str → Prop
  | some f => ∃ r, s = '#' :: (f ++ r) ∧ '\n' ∉ f ∧ ∀ c, r.head? = some c → c = '\n'
  | none => s.head? ≠ some '#'

/-- The parts of a text: scheme, authority, path, query, fragment. -/
def Parts (s : Str) (scheme authority : Option Str) (path : Str) (query fragment : Option Str) : Prop :=
  ∃ r1 r2 r3 r4, SchemeOf s scheme r1 ∧ AuthorityOf r1 authority r2 ∧ PathOf r2 path r3 ∧ QueryOf r3 query r4 ∧ FragmentOf r4 fragment

/-- Characters of user information, and of path segments. -/
def UserChar (c : Char) : Prop := Plain c ∨ c = ':'
def SegChar (c : Char) : Prop := Plain c ∨ c = ':' ∨ c = '@'

/-- A path made of the characters RFC 3986 allows. -/
def LegalPath (p : Str) : Prop := ∀ x ∈ strSplit '/' p, Enc SegChar x

/-- One to five digits. -/
def PortText (s : Str) : Prop := s ≠ [] ∧ s.length ≤ 5 ∧ ∀ c ∈ s, c.isDigit = true

/-- What stands behind the host: nothing, a colon, or a port with a colon before it, which may be missing behind an address in brackets. -/
def PortPart (literal : Prop) (s port : Str) : Prop :=
  port = [] ∧ (s = [] ∨ s = [':']) ∨ PortText port ∧ (s = ':' :: port ∨ literal ∧ s = port)

/-- The texts that are taken for authorities, and their parts.  A newline at the end is not looked at.  `literal` says which texts are
addresses in brackets. -/
def AuthorityText (literal : Str → Prop) (s user host port : Str) : Prop :=
  ∃ pp nl, s = (if user = [] then [] else user ++ ['@']) ++ (host ++ (pp ++ nl)) ∧ (user = [] ∨ Enc UserChar user) ∧
    (Enc Plain host ∨ literal host) ∧ PortPart (literal host) pp port ∧ (nl = [] ∨ nl = ['\n'])

/-- `authority = [ userinfo "@" ] host [ ":" port ]` (RFC 3986, 3.2) with the parts that are there. -/
def Authority3986 (literal : Str → Prop) (s : Str) (user : Option Str) (host : Str) (port : Option Str) : Prop :=
  s = (match user with | some u => u ++ ['@'] | none => []) ++ (host ++ match port with | some p => ':' :: p | none => []) ∧
    (∀ u, user = some u → Enc UserChar u) ∧ (Enc Plain host ∨ literal host) ∧ ∀ p, port = some p → ∀ c ∈ p, c.isDigit = true

/-- No `.` and no `..` among the segments. -/
def NoDotSegments (p : Str) : Prop := c!"." ∉ strSplit '/' p ∧ c!".." ∉ strSplit '/' p

/-- Percent encodings are written with capital letters. -/
def UpperEncodings (s : Str) : Prop :=
  ∀ A a b B, s = A ++ '%' :: a :: b :: B → Hex a → Hex b → a.isLower = false ∧ b.isLower = false

/-- The second text is the first with the digits of its percent encodings in upper case. -/
inductive Uppered : Str → Str → Prop
  | nil : Uppered [] []
  | pct {a b : Char} {s t : Str} : Hex a → Hex b → Uppered s t → Uppered ('%' :: a :: b :: s) ('%' :: a.toUpper :: b.toUpper :: t)
  | chr {c : Char} {s t : Str} : (¬ ∃ a b r, c = '%' ∧ s = a :: b :: r ∧ Hex a ∧ Hex b) → Uppered s t → Uppered (c :: s) (c :: t)

/-- Following the segments of a path: `out` is the way from the root (latest first); `none` if it leads above the root. -/
def follow : List Str → List Str → Option (List Str)
  | out, [] => some out.reverse
  | out, x :: r =>
    if x = c!"." then follow out r
    else if x = c!".." then
      match out with
      | [] => none
      | _ :: o => follow o r
    else follow (x :: out) r

end Verif.UriSpec
