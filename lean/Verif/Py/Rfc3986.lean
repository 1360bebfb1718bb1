import Verif.Py.Regex
/-!
# The parts of the library `rfc3986` (1.5.0) that `jsoned/uri.py` uses

The library is not in the sandbox; this is a transcription of its published source: `abnf_regexp.py`, `misc.py`,
`normalizers.py`.  Groups that are not read are left out.  The pattern of what stands between the brackets of an IP literal is
a parameter (`IpRe`).
-/

namespace Verif.Rfc3986
open Verif Re

def alpha (c : Char) : Bool := ('a' ≤ c && c ≤ 'z') || ('A' ≤ c && c ≤ 'Z')
def digit (c : Char) : Bool := '0' ≤ c && c ≤ '9'
def hex (c : Char) : Bool := digit c || ('a' ≤ c && c ≤ 'f') || ('A' ≤ c && c ≤ 'F')
/-- `UNRESERVED_RE` and `SUB_DELIMITERS_RE` (abnf_regexp.py) -/
def regC (c : Char) : Bool := alpha c || digit c || c!"._~-!$&'()*+,;=".contains c

/-- `PCT_ENCODED` (abnf_regexp.py) -/
def pctRe : Re := seqs [chr '%', cls hex, cls hex]
/-- `SCHEME_RE` after the first letter -/
def schemeC (c : Char) : Bool := alpha c || digit c || c!"+.-".contains c
/-- `SCHEME_RE` (abnf_regexp.py) -/
def schemeRe : Re := seq (cls alpha) (star (cls schemeC))
/-- `_AUTHORITY_RE` is `[^\\/?#]*` -/
def authC (c : Char) : Bool := !c!"\\/?#".contains c
/-- `_PATH_RE` is `[^?#]*` -/
def pathC (c : Char) : Bool := !c!"?#".contains c
/-- `_QUERY_RE` is `[^#]*` -/
def queryC (c : Char) : Bool := c != '#'
/-- `_FRAGMENT_RE` is `.*` -/
def dotC (c : Char) : Bool := c != '\n'

/-- `URI_MATCHER` (misc.py); groups: 1 scheme, 2 authority, 3 path, 4 query, 5 fragment -/
def uriMatcher : Re :=
  seq (opt (seq (grp 1 schemeRe) (chr ':'))) (seq (opt (seq (lit c!"//") (grp 2 (star (cls authC)))))
    (seq (grp 3 (star (cls pathC))) (seq (opt (seq (chr '?') (grp 4 (star (cls queryC)))))
      (opt (seq (chr '#') (grp 5 (star (cls dotC))))))))

/-- A pattern for the inside of an IP literal: it matches exactly the texts of a set `inside`, wherever they stand, and these
consist of letters, digits and `._~-!$&'()*+,;=:%`. -/
structure IpRe where
  re : Re
  isBare : bare re = true
  inside : Str → Prop
  lang : ∀ s t, Lang re s t ↔ ∃ T, s = T ++ t ∧ inside T
  chars : ∀ T, inside T → ∀ c ∈ T, (regC c || c == ':' || c == '%') = true

/-- `REG_NAME` (abnf_regexp.py) -/
def regNameRe : Re := star (alt pctRe (cls regC))
/-- `IPv4_RE` (abnf_regexp.py) -/
def ipv4Re : Re := seq (rep (seq (seq (cls digit) (upTo (cls digit) 2)) (chr '.')) 3) (seq (cls digit) (upTo (cls digit) 2))
/-- `HOST_PATTERN` (abnf_regexp.py) -/
def hostRe (ip : IpRe) : Re := alts [regNameRe, ipv4Re, seqs [chr '[', ip.re, chr ']']]
/-- `USERINFO_RE` (abnf_regexp.py) -/
def userinfoRe : Re := plus (alt (cls fun c => regC c || c == ':') pctRe)
/-- `PORT_RE` (abnf_regexp.py) -/
def portRe : Re := seq (cls digit) (upTo (cls digit) 4)

/-- `SUBAUTHORITY_MATCHER` (misc.py); groups: 1 userinfo, 2 host, 3 port -/
def subauthorityMatcher (ip : IpRe) : Re :=
  seq (opt (seq (grp 1 userinfoRe) (chr '@'))) (seq (grp 2 (hostRe ip)) (seq (opt (chr ':')) (seq (opt (grp 3 portRe)) eol)))

/-- `PCHAR` (abnf_regexp.py) -/
def pcharRe : Re := alt (cls fun c => regC c || c == ':' || c == '@') pctRe
/-- `PATH_ABEMPTY` (abnf_regexp.py) -/
def abemptyRe : Re := star (seq (chr '/') (star pcharRe))
/-- `PATH_ROOTLESS` (abnf_regexp.py) -/
def rootlessRe : Re := seq (plus pcharRe) (star (seq (chr '/') (star pcharRe)))
/-- `HIER_PART_RE` (abnf_regexp.py); the last alternative `^$` never matches behind a scheme -/
def hierPartRe : Re :=
  alts [seqs [lit c!"//", star (cls authC), abemptyRe], seq (chr '/') (opt rootlessRe), rootlessRe, cls fun _ => false]
/-- `ABSOLUTE_URI_MATCHER` (misc.py) -/
def absoluteMatcher : Re :=
  seqs [schemeRe, chr ':', hierPartRe,
    opt (seq (chr '?') (star (alt (cls fun c => c!"/?:@".contains c || regC c) pctRe))), eol]

/-- `normalize_percent_characters` (normalizers.py).  The library replaces every triple found by its upper case form, one
`str.replace` for each different triple; triples cannot overlap, so this is one pass. -/
def pctUpper : Str → Str
  | '%' :: a :: b :: s => if hex a && hex b then '%' :: a.toUpper :: b.toUpper :: pctUpper s else '%' :: pctUpper (a :: b :: s)
  | c :: s => c :: pctUpper s
  | [] => []

/-- The loop of `remove_dot_segments` (normalizers.py). -/
def dotStep (out : List Str) (seg : Str) : List Str :=
  if seg = c!"." then out else if seg ≠ c!".." then out ++ [seg] else out.dropLast

/-- `remove_dot_segments` (normalizers.py) -/
def removeDots (s : Str) : Str :=
  let out := (strSplit '/' s).foldl dotStep []
  let out := if s.head? = some '/' && (out.isEmpty || out.head? != some []) then [] :: out else out
  let out := if c!"/.".isSuffixOf s || c!"/..".isSuffixOf s then out ++ [[]] else out
  strJoin c!"/" out

/-- `normalize_path` (normalizers.py); an empty path is returned as it is, which is what the functions do with it. -/
def normPath (s : Str) : Str := removeDots (pctUpper s)

/-- `normalize_scheme` (normalizers.py), for ASCII text. -/
def lower (s : Str) : Str := s.map Char.toLower

end Verif.Rfc3986
