"""Write MANIFEST.json from the theorem names in lean/Verif/Props (theorem Cnn_... belongs to property Cnn)."""
import glob, json, re, os

ROOT = os.path.dirname(os.path.dirname(os.path.abspath(__file__)))
NOTES = json.load(open(os.path.join(ROOT, "tools", "notes.json")))
props = [json.loads(l)["id"] for l in open(os.path.join(ROOT, "properties.jsonl"))]
thms = {}
for f in sorted(glob.glob(os.path.join(ROOT, "lean/Verif/Props/*.lean"))):
    text = open(f).read()
    for m in re.finditer(r"^theorem (C\d{2,3})(_\S+)", text, re.M):
        stack = []
        for opening, closing in re.findall(r"^(?:namespace (\S+)|end (Verif\S*|Ptr))", text[:m.start()], re.M):
            if opening:
                stack.append(opening)
            elif stack and stack[-1] == closing:
                stack.pop()
        ns = ".".join(stack)
        thms.setdefault(m.group(1), []).append(ns + "." + m.group(1) + m.group(2))
claims = []
for p in props:
    ts = thms.get(p, [])
    if not ts:
        status = "not_applicable"
    elif any(t.endswith("_partial") or t.endswith("_violated") for t in ts):
        status = "partial"
    else:
        status = "proved"
    claims.append({"property": p, "status": status, "theorems": ts, "note": NOTES.get(p, "")})
with open(os.path.join(ROOT, "MANIFEST.json"), "w") as out:
    out.write('{"claims": [\n' + ",\n".join(json.dumps(c) for c in claims) + "\n]}\n")
unknown = sorted(set(thms) - set(props))
print({s: sum(c["status"] == s for c in claims) for s in ("proved", "partial", "not_applicable")}, "unknown:", unknown)
