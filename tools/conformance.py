#!/usr/bin/env python3
"""Translate the project's own tests into checks of the model (lean/Verif/Check/Suite.lean).

The tests under /repo/tests are read as text; nothing of the project is run.  Every `schema.validate(...)` of
tests/keywords and every call of a validator in tests/validators becomes a `#guard` that the model gives the outcome the
test expects: acceptance, or the class of the exception with the attributes the test looks at.  These are tests of the
model, not proofs.  Pattern searches are computed here with Python's `re`, as the model takes them from outside.
"""
import ast, glob, os, re, sys
from decimal import Decimal
from fractions import Fraction

REPO = '/repo'
OUT = os.path.join(os.path.dirname(os.path.abspath(__file__)), '..', 'lean', 'Verif', 'Check', 'Suite.lean')

# keyword class -> key, and the codes of the exception classes with their subclasses
KEY, CODE, BASES = {}, {}, {}
for f in glob.glob(REPO + '/jsoned/keywords/*.py') + glob.glob(REPO + '/jsoned/errors/*.py'):
    for n in ast.parse(open(f).read()).body:
        if not isinstance(n, ast.ClassDef):
            continue
        BASES[n.name] = [b.id for b in n.bases if isinstance(b, ast.Name)]
        for b in n.body:
            t, v = (b.targets[0].id, b.value) if isinstance(b, ast.Assign) and isinstance(b.targets[0], ast.Name) else \
                (b.target.id, b.value) if isinstance(b, ast.AnnAssign) else (None, None)
            if v is None:
                continue
            try:
                lit = ast.literal_eval(v)
            except ValueError:
                continue
            if t == 'key':
                KEY[n.name] = lit
            elif t == 'code':
                CODE[n.name] = lit

def code(c):
    return CODE[c] if c in CODE else code(BASES[c][0])

def below(d, c):
    return d == c or any(below(b, c) for b in BASES.get(d, []))

def subclasses(c):
    return [d for d in BASES if below(d, c)]

def kw(c):
    k = KEY[c]
    if isinstance(k, (list, tuple)):
        return '.id'
    k = k.lstrip('$')
    return {'if': '.«if»', 'then': '.«then»', 'else': '.«else»'}.get(k, '.' + k)

def s(t):
    return 'c!"' + ''.join('\\\\' if c == '\\' else '\\"' if c == '"' else '\\n' if c == '\n' else c for c in t) + '"'

def rat(q):
    q = Fraction(q)
    return f'({q.numerator})' if q.denominator == 1 else f'({q.numerator} / {q.denominator})'

STRINGS = set()

def val(v):
    if v is None: return '.null'
    if v is True: return '(.bool true)'
    if v is False: return '(.bool false)'
    if isinstance(v, int): return f'(.int ({v}))'
    if isinstance(v, float): return f'(.flt (.fin {rat(v)} {rat(repr(v))}))'
    if isinstance(v, Decimal): return f'(.dec (.fin {rat(v)}))'
    if isinstance(v, str):
        STRINGS.add(v)
        return f'(.str {s(v)})'
    if isinstance(v, list): return '(.list [' + ', '.join(map(val, v)) + '])'
    if isinstance(v, dict):
        STRINGS.update(v)
        return '(.dict [' + ', '.join(f'({s(k)}, {val(x)})' for k, x in v.items()) + '])'
    raise ValueError(v)

class Kwd:
    def __init__(self, cls): self.cls = cls
class Schema:
    def __init__(self, doc, kws): self.doc, self.kws = doc, kws
class Validator:
    def __init__(self, cls, args): self.cls, self.args = cls, args

PATTERNS = set()

def patterns(d):
    if isinstance(d, dict):
        for k, v in d.items():
            if k == 'pattern' and isinstance(v, str): PATTERNS.add(v)
            if k == 'patternProperties' and isinstance(v, dict): PATTERNS.update(v)
            patterns(v)
    elif isinstance(d, list):
        for v in d: patterns(v)

# a validator is made by a keyword: the schema that makes it
MAKES = {
    'TypeValidator': ('type', '.type'), 'EnumValidator': ('enum', '.enum'), 'ConstValidator': ('const', '.const'),
    'NumberMaximumValidator': ('maximum', '.maximum'), 'NumberMinimumValidator': ('minimum', '.minimum'),
    'NumberMultipleOfValidator': ('multipleOf', '.multipleOf'),
    'StringFormatValidator': ('format', '.format'), 'StringPatternValidator': ('pattern', '.pattern'),
    'StringMaximumLengthValidator': ('maxLength', '.maxLength'),
    'StringMinimumLengthValidator': ('minLength', '.minLength'),
}

class Skip(Exception):
    pass

class Test:
    def __init__(self):
        self.env, self.checks, self.last = {}, [], None

    def ev(self, e):
        if isinstance(e, ast.Name) and e.id in self.env: return self.env[e.id]
        if isinstance(e, ast.Constant):
            if e.value is ...: raise Skip('a set with an ellipsis')
            return e.value
        if isinstance(e, ast.UnaryOp) and isinstance(e.op, ast.USub): return -self.ev(e.operand)
        if isinstance(e, (ast.List, ast.Tuple)): return [self.ev(x) for x in e.elts]
        if isinstance(e, ast.Set): raise Skip('a set with an ellipsis')
        if isinstance(e, ast.Dict): return {self.ev(k): self.ev(v) for k, v in zip(e.keys, e.values)}
        if isinstance(e, ast.Subscript): return self.ev(e.value)[self.ev(e.slice)]
        if isinstance(e, ast.BinOp) and isinstance(e.op, ast.Mult): return self.ev(e.left) * self.ev(e.right)
        if isinstance(e, ast.Call) and isinstance(e.func, ast.Name):
            f = e.func.id
            if f == 'Decimal': return Decimal(self.ev(e.args[0]))
            if f in KEY: return Kwd(f)
            if f == 'JsonSchema':
                if len(e.args) < 2: raise Skip('no vocabulary given')
                return Schema(self.ev(e.args[0]), self.ev(e.args[1]))
            if f in MAKES:
                key, k = MAKES[f]
                a = self.ev(e.args[0])
                for x in e.keywords:
                    if x.arg == 'exclusive' and self.ev(x.value):
                        key = 'exclusive' + key[0].upper() + key[1:]
                        k = '.' + key
                return Validator(k, {key: a})
        raise Skip(ast.unparse(e))

    def call(self, e):
        """the (document, vocabulary, value) of a validation, or None"""
        if not isinstance(e, ast.Call): return None
        if isinstance(e.func, ast.Attribute) and e.func.attr == 'validate':
            sch = self.ev(e.func.value)
            if any(not isinstance(k, Kwd) for k in sch.kws): raise Skip('keyword')
            ks = [kw(k.cls) for k in sch.kws]
            return sch.doc, '[' + ', '.join(ks) + ']', self.ev(e.args[0])
        if isinstance(e.func, ast.Name) and isinstance(self.env.get(e.func.id), Validator):
            v = self.env[e.func.id]
            return v.args, '[' + v.cls + ']', self.ev(e.args[0])
        return None

    def attr(self, e):
        """the attribute of the last exception an expression stands for"""
        if isinstance(e, ast.Attribute):
            b = e.value
            if isinstance(b, ast.Attribute) and b.attr == 'value': return e.attr
            if isinstance(b, ast.Name) and b.id in ('error', 'e'): return e.attr
        return None

    def stmt(self, n):
        if isinstance(n, ast.Assign):
            if isinstance(n.value, ast.Attribute) and n.value.attr == 'value': return
            c = self.call(n.value)
            if c: self.add(c, None)
            else: self.env[n.targets[0].id] = self.ev(n.value)
        elif isinstance(n, ast.Expr):
            c = self.call(n.value)
            if c: self.add(c, None)
            elif not isinstance(n.value, ast.Constant): raise Skip(ast.unparse(n))
        elif isinstance(n, ast.With):
            exc = n.items[0].context_expr.args[0].id
            b = n.body[0]
            c = self.call(b.value)
            if not c: raise Skip(ast.unparse(b))
            self.add(c, exc)
        elif isinstance(n, ast.Assert):
            t = n.test
            if isinstance(t, ast.Compare) and isinstance(t.ops[0], ast.Eq):
                a = self.attr(t.left)
                if a and self.last is not None:
                    self.last[2][a] = self.ev(t.comparators[0])
            # other assertions are about the validators themselves
        elif isinstance(n, (ast.Pass,)): pass
        else: raise Skip(ast.unparse(n))

    def add(self, c, exc):
        self.last = [c, exc, {}]
        self.checks.append(self.last)

lines, skipped, count = [], [], 0
for f in sorted(glob.glob(REPO + '/tests/keywords/*.py')) + sorted(glob.glob(REPO + '/tests/validators/*.py')):
    for fn in ast.parse(open(f).read()).body:
        if not isinstance(fn, ast.FunctionDef): continue
        t = Test()
        where = f'{f[len(REPO) + 1:]} {fn.lineno}-{fn.end_lineno}'
        try:
            for st in fn.body: t.stmt(st)
        except Skip as e:
            skipped.append((where, str(e)))
        out = []
        for (doc, voc, v), exc, attrs in t.checks:
            patterns(doc)
            head = f'run {voc} {val(doc)} {val(v)}'
            if exc is None:
                out.append(f'#guard accepts ({head})')
                continue
            if exc == 'SchemaParseError':
                out.append(f'#guard {head} == .err .schemaParse')
                continue
            codes = [] if exc == 'ValidationError' else sorted({code(d) for d in subclasses(exc)})
            p = 'none' if 'path' not in attrs else f'(some {s(attrs["path"])})'
            d = 'none'
            for a in ('expected_format', 'expected_property'):
                if a in attrs and isinstance(attrs[a], str): d = f'(some {s(attrs[a])})'
            if 'code' in attrs: codes = [attrs['code']]
            out.append(f'#guard refuses [{", ".join(s(c) for c in codes)}] {p} {d} ({head})')
        if out:
            lines.append(f'-- {where}')
            lines += out
            count += len(out)

table = []
for p in sorted(PATTERNS):
    hits = [x for x in sorted(STRINGS) if re.search(p, x)]
    table.append(f'  ({s(p)}, [{", ".join(map(s, hits))}])')

head = '''import Verif.Model.Schema
import Verif.Model.Formats
/-!
# The project's own tests, run on the model

Written by tools/conformance.py from tests/keywords and tests/validators.  These are tests of the model, not proofs: each line evaluates the model and
fails the build if the outcome is not the one the project's test expects.
-/

namespace Verif.Check
open Verif Verif.Iso

/-- The patterns of the tests with the texts of the tests they are found in (computed with Python's `re`). -/
def found : List (Str × List Str) := [
TABLE]

/-- What the model takes from outside. -/
def world : World where
  search p := (dictGet p found).map fun hits t => hits.contains t
  formats _ := none
  parseDec t := if t.all (fun c => '0' ≤ c ∧ c ≤ '9') ∧ t ≠ [] then some (.fin (t.foldl (fun n c => n * 10 + (c.toNat - 48)) 0 : Nat)) else none
  reprBody _ := []

/-- Seconds written with at most six decimals, without rounding. -/
def secs : Secs .ascii where
  micros t := match t.dropWhile (· != '.') with
    | [] => some ((UDB.ascii.natOf t : Nat) * 1000000 : Int)
    | _ :: b => some ((UDB.ascii.natOf (t.takeWhile (· != '.') ++ (b ++ List.replicate 6 '0').take 6) : Nat) : Int)
  whole ds h _ := by
    have hd : ∀ c ∈ ds, (c != '.') = true := fun c hc => by
      have := h c hc
      simp only [bne_iff_ne, ne_eq]; rintro rfl; revert this; decide
    have e : ∀ l : Str, (∀ c ∈ l, (c != '.') = true) → l.dropWhile (· != '.') = [] := by
      intro l; induction l with
      | nil => simp
      | cons a l ih => intro hl; simp only [List.dropWhile_cons, hl a (by simp), if_true]; exact ih fun c hc => hl c (by simp [hc])
    simp only [e ds hd]; rfl

def env : Formats.Env where
  u := .ascii
  secs := secs
  str _ := []
  lib _ _ := true

def run (voc : List Kw) (doc v : Val) : Res Unit :=
  schemaValidate (Formats.withFormats env world []) [⟨wrap doc, []⟩] voc 50 (wrap doc) v

def accepts : Res Unit → Bool
  | .ok _ => true
  | _ => false

def refuses (codes : List Str) (path detail : Option Str) : Res Unit → Bool
  | .err (.validation e) => (codes.isEmpty || codes.contains e.code) && (match path with | some p => e.path == p | none => true) &&
    (match detail with | some d => e.detail == d | none => true)
  | _ => false

'''.replace('TABLE', ',\n'.join(table))
open(OUT, 'w').write(head + '\n'.join(lines) + '\n\nend Verif.Check\n')
print(count, 'checks')
for w, e in skipped: print('skipped', w, e)
