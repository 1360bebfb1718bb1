import Verif.Py.Basic
/-!
# A model of Python's `re`

The patterns of the code base, transcribed as syntax trees, are run by a backtracking matcher that lists all ways to
match a prefix of the input in Python's priority order.  Covered: character classes, sequence, ordered alternative,
greedy repetition, numbered groups, look-ahead, `$`.  Not covered (and not used by the code): back references,
lazy or possessive repetition, look-behind.
-/

namespace Verif

/-- Syntax of patterns. -/
inductive Re where
  | eps
  | cls (p : Char → Bool)
  | seq (r s : Re)
  | alt (r s : Re)
  | star (r : Re)
  | grp (n : Nat) (r : Re)
  | look (r : Re)
  | nlook (r : Re)
  | eol

namespace Re

/-- A literal character. -/
def chr (c : Char) : Re := cls (· == c)
/-- A literal string. -/
def lit : Str → Re
  | [] => eps
  | c :: cs => seq (chr c) (lit cs)
/-- `r?` -/
def opt (r : Re) : Re := alt r eps
/-- `r+` -/
def plus (r : Re) : Re := seq r (star r)
/-- `r{n}` -/
def rep (r : Re) : Nat → Re
  | 0 => eps
  | n + 1 => seq r (rep r n)
/-- `r{0,n}`, greedy. -/
def upTo (r : Re) : Nat → Re
  | 0 => eps
  | n + 1 => opt (seq r (upTo r n))
/-- Sequence of several patterns. -/
def seqs : List Re → Re
  | [] => eps
  | [r] => r
  | r :: rs => seq r (seqs rs)
/-- Alternative of several patterns. -/
def alts : List Re → Re
  | [] => eps
  | [r] => r
  | r :: rs => alt r (alts rs)

/-- Matcher state: captured groups (latest first) and remaining input. -/
abbrev St := List (Nat × Str) × Str

/-- Greedy iteration; an iteration that consumes nothing is not repeated (as in CPython's engine).  `n` bounds the
number of iterations and is always given a value larger than the remaining input. -/
def starRun (step : St → List St) : Nat → St → List St
  | 0, s => [s]
  | n + 1, s => ((step s).filter fun t => t.2.length < s.2.length).flatMap (starRun step n) ++ [s]

/-- All matches of a prefix of the input in priority order. -/
def run : Re → St → List St
  | eps, s => [s]
  | cls p, s => match s.2 with
    | [] => []
    | c :: cs => if p c then [(s.1, cs)] else []
  | seq r t, s => (run r s).flatMap (run t)
  | alt r t, s => run r s ++ run t s
  | star r, s => starRun (run r) (s.2.length + 1) s
  | grp n r, s => (run r s).map fun t => ((n, s.2.take (s.2.length - t.2.length)) :: t.1, t.2)
  | look r, s => if (run r s).isEmpty then [] else [s]
  | nlook r, s => if (run r s).isEmpty then [s] else []
  | eol, s => if s.2 = [] ∨ s.2 = ['\n'] then [s] else []

/-- `re.match(r, s)`: first match of a prefix. -/
def pyMatch (r : Re) (s : Str) : Option St := (run r ([], s)).head?

/-- `re.fullmatch(r, s)`: first match that uses up the input. -/
def pyFullmatch (r : Re) (s : Str) : Option St := (run r ([], s)).find? fun t => t.2.isEmpty

/-- `m.group(n)`; `None` if the group did not take part. -/
def group (st : St) (n : Nat) : Option Str := (st.1.find? fun p => p.1 == n).map Prod.snd

/-! ## Language of a pattern

`Lang r s t`: matching `r` at the start of `s` can leave `t`. -/

inductive Lang : Re → Str → Str → Prop
  | eps {s : Str} : Lang eps s s
  | cls {p : Char → Bool} {c : Char} {s : Str} (h : p c = true) : Lang (cls p) (c :: s) s
  | seq {r t : Re} {s u w : Str} (h₁ : Lang r s u) (h₂ : Lang t u w) : Lang (seq r t) s w
  | altL {r t : Re} {s u : Str} (h : Lang r s u) : Lang (alt r t) s u
  | altR {r t : Re} {s u : Str} (h : Lang t s u) : Lang (alt r t) s u
  | starNil {r : Re} {s : Str} : Lang (star r) s s
  | starCons {r : Re} {s u w : Str} (h₁ : Lang r s u) (hlt : u.length < s.length) (h₂ : Lang (star r) u w) :
      Lang (star r) s w
  | grp {n : Nat} {r : Re} {s u : Str} (h : Lang r s u) : Lang (grp n r) s u
  | eol {s : Str} (h : s = [] ∨ s = ['\n']) : Lang eol s s

/-- Patterns without look-ahead. -/
def plain : Re → Bool
  | eps => true
  | cls _ => true
  | seq r t => plain r && plain t
  | alt r t => plain r && plain t
  | star r => plain r
  | grp _ r => plain r
  | look _ => false
  | nlook _ => false
  | eol => true

/-- Patterns without groups and look-ahead. -/
def bare : Re → Bool
  | eps => true
  | cls _ => true
  | seq r t => bare r && bare t
  | alt r t => bare r && bare t
  | star r => bare r
  | grp _ _ => false
  | look _ => false
  | nlook _ => false
  | eol => true

end Re
end Verif
