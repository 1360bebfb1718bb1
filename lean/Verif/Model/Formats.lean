import Verif.Model.IsoDuration
import Verif.Model.Validators
import Verif.Model.FormatTexts
/-!
# `jsoned/validators/format_validators.py` and `jsoned/string_format.py`

Groups that are not read are left out of the patterns.  `IPv4Address` and `IPv6Address` are those of Python 3.11's
`ipaddress`, of which only success or `AddressValueError` is kept.  The checkers `pattern`, `byte`, `decimal` and `uuid`
catch every exception of a library function; those of `byte`, `decimal` and `uuid` are modelled in `FormatTexts.lean`, except
`Decimal` of a list; this and `re.compile` are the parameter `lib`.
-/

namespace Verif.Formats
open Verif Re Iso

/-- `[a-z]` under `re.I` (used in the patterns of validators/format_validators.py 115-219) -/
def letterI (c : Char) : Bool :=
  ('a' ≤ c && c ≤ 'z') || ('A' ≤ c && c ≤ 'Z') || c == '\u0130' || c == '\u0131' || c == '\u017f' || c == '\u212a'
/-- `[0-9]` -/
def digitA (c : Char) : Bool := '0' ≤ c && c ≤ '9'
/-- `[a-z0-9]` -/
def alnumI (c : Char) : Bool := letterI c || digitA c
/-- `[a-z0-9-]` -/
def alnumDashI (c : Char) : Bool := alnumI c || c == '-'

/-- `[a-z0-9](?:[a-z0-9-]{0,61}[a-z0-9])?` (format_validators.py 114, 134) -/
def labelRe : Re := seq (cls alnumI) (opt (seq (upTo (cls alnumDashI) 61) (cls alnumI)))
/-- A label and more labels, each after a point (validators/format_validators.py 135-138). -/
def labelsRe : Re := seq labelRe (star (seq (chr '.') labelRe))
/-- `HOSTNAME_REGEX` (format_validators.py 133-136) -/
def hostnameRe : Re := seq labelsRe eol

/-- `[a-zA-Z0-9.!#$%&'*+\/=?^_`{|}~-]` -/
def localI (c : Char) : Bool := alnumDashI c || c!".!#$%&'*+/=?^_`{|}~".contains c
/-- `EMAIL_REGEX` (format_validators.py 112-116) -/
def emailRe : Re := seqs [plus (cls localI), chr '@', labelsRe, eol]

/-- `[0-9a-z-]+(?:\.[0-9a-z-]+)*` -/
def identsRe : Re := seq (plus (cls alnumDashI)) (star (seq (chr '.') (plus (cls alnumDashI))))
/-- `SEMVER_REGEX` (format_validators.py 191-194) -/
def semverRe : Re :=
  seqs [plus (cls digitA), chr '.', plus (cls digitA), chr '.', plus (cls digitA), opt (seq (chr '-') identsRe),
    opt (seq (chr '+') identsRe), eol]

/-- `URI_REGEX` (format_validators.py 205); `+-.` is the range from `+` to `.` -/
def uriRe (u : UDB) : Re :=
  seqs [cls letterI, star (cls fun c => alnumI c || ('+' ≤ c && c ≤ '.')), chr ':',
    opt (seqs [chr '\\', opt (chr '/'), chr '\\', chr '/']), star (cls fun c => !u.space c), eol]

/-- `[a-z¡-￿]` under `re.I` (validators/format_validators.py 216-219) -/
def wideI (c : Char) : Bool := ('a' ≤ c && c ≤ 'z') || ('A' ≤ c && c ≤ 'Z') || (0xa1 ≤ c.toNat && c.toNat ≤ 0xffff)
/-- `[a-z¡-￿0-9_]` -/
def wideNumI (c : Char) : Bool := wideI c || digitA c || c == '_'
/-- `\d{1,3}` (validators/format_validators.py 216-219) -/
def d13 (u : UDB) : Re := seq (cls u.isDigit) (upTo (cls u.isDigit) 2)
/-- `(?:\.\d{1,3}){n}` (validators/format_validators.py 216-219) -/
def dots (u : UDB) (n : Nat) : Re := rep (seq (chr '.') (d13 u)) n
/-- `(?:[1-9]\d?|1\d\d|2[01]\d|22[0-3])` -/
def octet1 (u : UDB) : Re :=
  alts [seq (rng '1' '9') (opt (cls u.isDigit)), seqs [chr '1', cls u.isDigit, cls u.isDigit],
    seqs [chr '2', rng '0' '1', cls u.isDigit], seqs [chr '2', chr '2', rng '0' '3']]
/-- `(?:1?\d{1,2}|2[0-4]\d|25[0-5])` -/
def octet2 (u : UDB) : Re :=
  alts [seqs [opt (chr '1'), cls u.isDigit, opt (cls u.isDigit)], seqs [chr '2', rng '0' '4', cls u.isDigit],
    seqs [chr '2', chr '5', rng '0' '5']]
/-- `(?:[1-9]\d?|1\d\d|2[0-4]\d|25[0-4])` -/
def octet4 (u : UDB) : Re :=
  alts [seq (rng '1' '9') (opt (cls u.isDigit)), seqs [chr '1', cls u.isDigit, cls u.isDigit],
    seqs [chr '2', rng '0' '4', cls u.isDigit], seqs [chr '2', chr '5', rng '0' '4']]
/-- The private ranges that are looked for (validators/format_validators.py 216-219). -/
def privateRes (u : UDB) : List Re :=
  [seq (lit c!"10") (dots u 3), seq (lit c!"127") (dots u 3), seq (lit c!"169.254") (dots u 2),
    seq (lit c!"192.168") (dots u 2),
    seqs [lit c!"172.", alts [seq (chr '1') (rng '6' '9'), seq (chr '2') (cls u.isDigit), seq (chr '3') (rng '0' '1')], dots u 2]]
/-- The address branch (validators/format_validators.py 216-219). -/
def urlIpRe (u : UDB) : Re :=
  seqs ((privateRes u).map nlook ++ [octet1 u, rep (seq (chr '.') (octet2 u)) 2, seq (chr '.') (octet4 u)])
/-- `(?:[a-z¡-￿0-9_]+-?)*[a-z¡-￿0-9_]+` -/
def urlLabelRe : Re := seq (star (seq (plus (cls wideNumI)) (opt (chr '-')))) (plus (cls wideNumI))
/-- The name branch (validators/format_validators.py 216-219). -/
def urlNameRe : Re :=
  seqs [urlLabelRe, star (seq (chr '.') urlLabelRe), seqs [chr '.', cls wideI, cls wideI, star (cls wideI)]]
/-- One of the letters in either case (not a function of the code). -/
def ci (a : Char) (b : Char) : Re := cls fun c => c == a || c == b
/-- `(?:https?|ftp):\/\/` (validators/format_validators.py 216-219) -/
def urlSchemeRe : Re :=
  seq (alt (seqs [ci 'h' 'H', ci 't' 'T', ci 't' 'T', ci 'p' 'P', opt (cls isS)]) (seqs [ci 'f' 'F', ci 't' 'T', ci 'p' 'P']))
    (lit c!"://")
/-- `\S` (validators/format_validators.py 205-219) -/
def nonSpace (u : UDB) : Re := cls fun c => !u.space c
/-- `URL_REGEX` (format_validators.py 216-219) -/
def urlRe (u : UDB) : Re :=
  seqs [urlSchemeRe, opt (seqs [plus (nonSpace u), opt (seq (chr ':') (star (nonSpace u))), chr '@']),
    alt (urlIpRe u) urlNameRe,
    opt (seqs [chr ':', cls u.isDigit, cls u.isDigit, upTo (cls u.isDigit) 3]),
    opt (seq (chr '/') (star (nonSpace u))), eol]

/-- `pattern.match(s)` is not `None` (used in validators/format_validators.py 122-227). -/
def matches? (r : Re) (s : Str) : Bool := (pyMatch r s).isSome

/-- `_parse_octet` (Python 3.11, ipaddress.py 1210-1243): the octet is accepted. -/
def octetOk (s : Str) : Bool :=
  !s.isEmpty && s.all digitA && s.length ≤ 3 && !(s != c!"0" && s.head? == some '0') && UDB.ascii.natOf s ≤ 255

/-- `IPv4Address(s)` for a string succeeds (ipaddress.py 1188-1208, 1313-1319). -/
def ipv4Ok (s : Str) : Bool :=
  !s.contains '/' && !s.isEmpty && (strSplit '.' s).length == 4 && (strSplit '.' s).all octetOk

/-- `_HEX_DIGITS` (of `ipaddress`, used at validators/format_validators.py 171-176) -/
def hexDigit (c : Char) : Bool := digitA c || ('a' ≤ c && c ≤ 'f') || ('A' ≤ c && c ≤ 'F')

/-- `_parse_hextet` succeeds (ipaddress.py 1752-1779); `int("", 16)` is a `ValueError`. -/
def hextetOk (s : Str) : Bool := s.all hexDigit && s.length ≤ 4 && !s.isEmpty

/-- Positions of the empty parts, the ends disregarded (ipaddress.py 1692-1701). -/
def innerEmpty (parts : List Str) : List Nat := (List.range (parts.length - 1)).filter fun i => 1 ≤ i && parts[i]? == some []

/-- The part from ipaddress.py 1685 on: `parts` has the IPv4 suffix replaced. -/
def ipv6Parts (parts : List Str) : Bool :=
  if parts.length > 9 then false
  else match innerEmpty parts with
    | [] => parts.length == 8 && parts.all hextetOk
    | [i] =>
      let lead := parts.head? == some []
      let trail := parts.getLast? == some []
      let hi := if lead then i - 1 else i
      let lo := if trail then parts.length - i - 2 else parts.length - i - 1
      !(lead && hi != 0) && !(trail && lo != 0) && hi + lo < 8 && (parts.take hi).all hextetOk &&
        (parts.drop (parts.length - lo)).all hextetOk
    | _ => false

/-- `IPv6Address(s)` for a string succeeds (ipaddress.py 1652-1749, 1866-1884, 1928-1934).  An IPv4 suffix counts as two
groups of at most four hexadecimal digits. -/
def ipv6Ok (s : Str) : Bool :=
  if s.contains '/' then false
  else match strSplit '%' s with
    | [a] => addr a
    | [a, scope] => !scope.isEmpty && addr a
    | _ => false
where
  addr (a : Str) : Bool :=
    let parts := strSplit ':' a
    if parts.length < 3 then false
    else
      let last := parts.getLast?.getD []
      if last.contains '.' then ipv4Ok last && ipv6Parts (parts.dropLast ++ [c!"0", c!"0"])
      else ipv6Parts parts

/-- The members of `FALSY_EXPRESSION` and `TRUTHY_EXPRESSION` (format_validators.py 53-54). -/
def boolExpressions : List Val :=
  [.int 0, .str c!"0", .str c!"no", .str c!"n", .str c!"nope", .str c!"false", .str c!"f", .str c!"off",
   .int 1, .str c!"1", .str c!"ok", .str c!"yes", .str c!"y", .str c!"yup", .str c!"true", .str c!"t", .str c!"on"]

/-- What the checkers use and is not modelled (validators/format_validators.py 37-235). -/
structure Env where
  u : UDB
  secs : Secs u
  /-- `str(value)` of a value that is not a string -/
  str : Val → Str
  /-- whether `re.compile` succeeds, and `Decimal` of a list -/
  lib : Str → Val → Bool

variable (E : Env)

/-- `str(value)` (used in validators/format_validators.py 57-132) -/
def Env.text : Val → Str
  | .str s => s
  | v => E.str v

/-- `try: parse(value) ... except ValueError: return False` (validators/format_validators.py 67-235) -/
def orFalse {α : Type} : Res α → Res Bool
  | .ok _ => .ok true
  | .err .valueError => .ok false
  | .err e => .err e
  | .timeout => .timeout

/-- `try: parse(value) ... except Exception: return False` (validators/format_validators.py 37-50) -/
def orFalseAny {α : Type} : Res α → Res Bool
  | .ok _ => .ok true
  | .err _ => .ok false
  | .timeout => .timeout

/-- Integers are read as addresses by `IPv4Address` and `IPv6Address` (ipaddress.py 1301-1304, 1915-1919). -/
def asInt : Val → Option Int
  | .bool b => some (if b then 1 else 0)
  | .int n => some n
  | _ => none

/-- `validate_format_ipv4` (validators/format_validators.py 163-168) -/
def ipv4 (v : Val) : Bool :=
  match asInt v with
  | some n => 0 ≤ n && n < 4294967296
  | none => ipv4Ok (E.text v)

/-- `validate_format_ipv6` (validators/format_validators.py 171-176) -/
def ipv6 (v : Val) : Bool :=
  match asInt v with
  | some n => 0 ≤ n && n < 340282366920938463463374607431768211456
  | none => ipv6Ok (E.text v)

/-- Matching a pattern against something that is not a string raises `TypeError` (validators/format_validators.py 122-227). -/
def onStr (p : Str → Bool) : Val → Res Bool
  | .str s => .ok (p s)
  | _ => .err .typeError

/-- `validate_format_bytes` (format_validators.py 45-50): anything but a text raises `TypeError`, which is caught. -/
def byteOk : Val → Bool
  | .str s => b64Ok s
  | _ => false

/-- `validate_format_decimal` (format_validators.py 148-160). -/
def decimalV : Val → Bool
  | .dec _ => true
  | .str s => decimalOk E.u s
  | .bool _ => true
  | .int _ => true
  | .flt (.fin ..) => true
  | .flt _ => false
  | .list xs => E.lib c!"decimal" (.list xs)
  | _ => false

/-- `validate_format_uuid` (format_validators.py 230-235): only texts have `replace`. -/
def uuidV : Val → Bool
  | .str s => uuidOk E.u s
  | _ => false

/-- The checkers in the order of the registry (string_format.py 46-65; format_validators.py). -/
def builtin : List (Str × (Val → Res Bool)) :=
  [(c!"boolean", fun v => if hashable v then .ok (boolExpressions.any (scalarEq v)) else .err .typeError),
   (c!"byte", fun v => .ok (byteOk v)),
   (c!"date", fun v => orFalse (parseDate E.u (E.text v))),
   (c!"date-time", fun v => orFalse (parseDatetime E.u (E.text v))),
   (c!"decimal", fun v => .ok (decimalV E v)),
   (c!"email", onStr fun s => matches? emailRe s && !strContains c!".." s),
   (c!"hostname", onStr fun s => matches? hostnameRe s),
   (c!"ip-address", fun v => .ok (ipv4 E v || ipv6 E v)),
   (c!"ip-address-v4", fun v => .ok (ipv4 E v)),
   (c!"ip-address-v6", fun v => .ok (ipv6 E v)),
   (c!"pattern", fun v => .ok (E.lib c!"pattern" v)),
   (c!"semver", fun v => .ok (matches? semverRe (E.text v))),
   (c!"time", fun v => orFalse (parseTime E.u (E.text v))),
   (c!"time-duration", fun v => orFalseAny (parseDuration E.u E.secs (E.text v))),
   (c!"uri", fun v => .ok (matches? (uriRe E.u) (E.text v))),
   (c!"url", fun v => .ok (matches? (urlRe E.u) (E.text v))),
   (c!"uuid", fun v => .ok (uuidV E v))]

/-- The registry after some registrations `StringFormat[name] = checker` (string_format.py 72-73), oldest first. -/
def registry (hist : List (Str × (Val → Res Bool))) : List (Str × (Val → Res Bool)) :=
  hist.foldl (fun r p => dictSet p.1 p.2 r) (builtin E)

/-- The world in which the registry has that content (string_format.py 67-70, 75-76). -/
def withFormats (w : World) (hist : List (Str × (Val → Res Bool))) : World :=
  { w with formats := fun name => dictGet name (registry E hist) }

end Verif.Formats
