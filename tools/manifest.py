# Generates MANIFEST.json from the table below; checks that the theorem names exist in the sources.
import json, re, glob, sys
M = []
def m(prop, status, theorems, note=""):
    M.append(dict(property=prop, status=status, theorems=theorems.split(), note=note))
exec(open("/verif/tools/claims.py").read())
full = {}
for f in glob.glob("/verif/lean/Verif/**/*.lean", recursive=True):
    ns = []
    for l in open(f):
        g = re.match(r"namespace (\S+)", l)
        if g: ns.append(g.group(1))
        g = re.match(r"end (\S+)", l)
        if g and ns and ns[-1] == g.group(1): ns.pop()
        g = re.match(r"theorem (\S+)", l)
        if g:
            q = ".".join(ns + [g.group(1)])
            full.setdefault(g.group(1).split(".")[-1], set()).add(q)
names = set(full)
def exact(t):
    c = full.get(t.split(".")[-1], set())
    if t in c: return t
    c2 = [q for q in c if q.endswith("." + t)] or list(c)
    if len(c2) > 1: print("AMBIGUOUS", t, c2); sys.exit(1)
    return c2[0]
props = [json.loads(l)["id"] for l in open("/verif/properties.jsonl")]
bad = [(c["property"], t) for c in M for t in c["theorems"] if t.split(".")[-1] not in names]
if bad: print("MISSING", bad); sys.exit(1)
for c in M: c["theorems"] = [exact(t) for t in c["theorems"]]
done = [c["property"] for c in M]
print("claims", len(M), "without claim:", [p for p in props if p not in done], "unknown:", [p for p in done if p not in props])
json.dump({"claims": M}, open("/verif/MANIFEST.json", "w"), indent=1, ensure_ascii=False)
