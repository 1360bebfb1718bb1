"""Try wrong programs against the theorems.

usage: mutate.py mutants.json

Each mutant is {"definition", "file", "old", "new", "edit", "claim"}.  The Lean project is copied to a scratch
directory, `old` is replaced by `new` in `file`, and the project is rebuilt.  Where a proof fails it is replaced by
`sorry` and the build goes on, so that in the end the property theorems that no longer have a proof (directly, or
because they rest on a lemma that failed) are known.  Theorems whose statement no longer compiles are taken out and
count as failed.  One line per mutant is appended to seeded/LOG.jsonl.
"""
import json, os, re, shutil, subprocess, sys

HERE = os.path.dirname(os.path.dirname(os.path.abspath(__file__)))
WORK = os.environ.get("MUTDIR", "/tmp/mut")
DECL = re.compile(r"^(?:@\[[^\]]*\] )?(?:private |protected |noncomputable )*(theorem|lemma|def|abbrev|instance|example|inductive|structure)\b\s*([^\s:({\[]*)")


def run(cmd):
    return subprocess.run(cmd, shell=True, cwd=WORK, capture_output=True, text=True)


def proof_start(text):
    """Where the proof of a theorem begins: the first `:=` outside brackets, or the first equation."""
    depth = 0
    for k, c in enumerate(text):
        if c in "([{⟨":
            depth += 1
        elif c in ")]}⟩":
            depth -= 1
        elif depth == 0 and text.startswith(":=", k):
            if re.search(r"\b(let|have)\s+[^\n;]*$", text[:k]):
                continue  # a definition inside the statement
            return k
        elif depth == 0 and text.startswith("\n  | ", k) and not text[:k].rstrip().endswith("with"):
            return k
    return None


def stub(path, line):
    """Replace the proof of the declaration around `line` by sorry; return its name."""
    lines = open(path).read().split("\n")
    i = min(line, len(lines)) - 1
    while i >= 0 and not DECL.match(lines[i]):
        i -= 1
    if i < 0:
        return None
    kind, name = DECL.match(lines[i]).groups()
    j = i + 1
    while j < len(lines) and (lines[j].startswith((" ", "\t", "|")) or lines[j] == ""):
        j += 1
    text = "\n".join(lines[i:j])
    if kind in ("def", "abbrev", "inductive", "structure"):
        return "!" + name
    if kind == "example":
        lines[i:j] = ["example : True := trivial", ""]
        open(path, "w").write("\n".join(lines))
        return "example"
    cut = proof_start(text)
    if cut is None:
        return "!" + name
    new = text[:cut].rstrip() + " := sorry"
    if new == text.rstrip():
        # the statement itself no longer makes sense
        lines[i:j] = ["example : True := trivial", ""]
        open(path, "w").write("\n".join(lines))
        return name
    lines[i:j] = [new, ""]
    open(path, "w").write("\n".join(lines))
    return name


def attempt(mut):
    shutil.rmtree(WORK, ignore_errors=True)
    subprocess.run(["cp", "-a", os.environ.get("MUTBASE", HERE + "/lean"), WORK], check=True)
    p = os.path.join(WORK, mut["file"])
    s = open(p).read()
    if s.count(mut["old"]) != 1:
        raise SystemExit(f"{mut['definition']}: pattern occurs {s.count(mut['old'])} times")
    open(p, "w").write(s.replace(mut["old"], mut["new"]))
    # the tests that evaluate the model are not theorems
    check = os.path.join(WORK, "Verif/Check")
    for f in os.listdir(check) if os.path.isdir(check) else []:
        t = open(os.path.join(check, f)).read()
        open(os.path.join(check, f), "w").write("".join(l + "\n" for l in t.split("\n") if l.startswith("import ")))
    failed = []
    for _ in range(60):
        r = run("lake build 2>&1")
        errs = {}
        for f, l in re.findall(r"^error: (Verif/\S+?\.lean):(\d+):\d+:", r.stdout, re.M):
            errs.setdefault(f, set()).add(int(l))
        if not errs:
            if r.returncode != 0:
                return ["(build did not finish)"], failed
            break
        before = len(failed)
        for f, ls in errs.items():
            # one stub per declaration, from the last to the first, so that the line numbers stay right
            text = open(os.path.join(WORK, f)).read().split("\n")
            starts = set()
            for l in ls:
                i = min(l, len(text))
                while i > 0 and not DECL.match(text[i - 1]):
                    i -= 1
                starts.add(i)
            for l in sorted(starts, reverse=True):
                n = stub(os.path.join(WORK, f), l)
                if n is not None and not n.startswith("!"):
                    failed.append(n)
        if len(failed) == before:
            return sorted({f for f in failed if re.match(r"C\d+_", f)}) + [f"(does not compile: {sorted(errs)})"], failed
    else:
        return ["(did not converge)"], failed
    names = []
    for f in sorted(os.listdir(os.path.join(WORK, "Verif/Props"))):
        t = open(os.path.join(WORK, "Verif/Props", f)).read()
        ns = ""
        for line in t.split("\n"):
            m = re.match(r"namespace (\S+)", line)
            if m:
                ns = (ns + "." if ns else "") + m.group(1)
            m = re.match(r"end (\S+)", line)
            if m and ns.endswith(m.group(1)):
                ns = ns[: -len(m.group(1))].rstrip(".")
            m = re.match(r"theorem (C\d+\S*)", line)
            if m:
                names.append((ns, m.group(1)))
    src = "import Verif\n" + "\n".join(f"#print axioms {ns}.{n}" for ns, n in names)
    open(os.path.join(WORK, "Ax.lean"), "w").write(src)
    out = run("lake env lean Ax.lean 2>&1").stdout
    if len(re.findall(r"' (?:depends on axioms|does not depend on any axioms)", out)) != len(names):
        return ["(axioms could not be listed)"], failed
    bad = [m.group(1).split(".")[-1] for m in re.finditer(r"'(\S+)' depends on axioms: \[([^\]]*)\]", out)
           if "sorryAx" in m.group(2)]
    bad += sorted({f for f in failed if re.match(r"C\d+_", f)} - {n for _, n in names})
    return bad, failed


if __name__ == "__main__":
    for mut in json.load(open(sys.argv[1])):
        bad, failed = attempt(mut)
        rec = {"definition": mut["definition"], "edit": mut["edit"], "claim": mut["claim"], "failed": bad,
               "first_failures": [f for f in failed if f != "example"][:12], "tightened": mut.get("tightened", [])}
        with open(HERE + "/seeded/LOG.jsonl", "a") as fh:
            fh.write(json.dumps(rec, ensure_ascii=False) + "\n")
        print(mut["definition"], "->", bad[:8], flush=True)
