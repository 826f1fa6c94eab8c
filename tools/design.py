# Generates DESIGN.md from tools/design_head.md, properties.jsonl, MANIFEST.json and the citations in the models.
import ast, glob, re, os, json
V = "/verif/"
R = "/repo/src/glimpse/"
head = open(V + "tools/design_head.md").read()
props = [json.loads(l) for l in open(V + "properties.jsonl")]
claims = {c["property"]: c for c in json.load(open(V + "MANIFEST.json"))["claims"]}
where = {}
imports = {}
for f in glob.glob(V + "lean/Verif/Props/*.lean"):
    t = open(f).read()
    b = os.path.basename(f)[:-5]
    imports[b] = re.findall(r"^import Verif\.Model\.(\w+)", t, re.M)
    for m in re.finditer(r"^theorem (\S+)", t, re.M):
        where.setdefault(m.group(1), set()).add(b)
out = [head, "\n## Properties\n",
  "Status `proved`: the whole property, for everything it quantifies over. `partial`: the note says what is missing or, with a theorem named `_violated`, in which cases the code does not have the property.\n"]
for p in props:
    c = claims[p["id"]]
    mods = sorted({b for t in c["theorems"] for b in where.get(t.split(".")[-1], where.get(".".join(t.split(".")[-2:]), set()))})
    models = sorted({m for b in mods for m in imports.get(b, [])})
    out.append(f"### {p['id']} {p['title']} — {c['status']}\n\n{p['statement']}\n\n"
      f"*For:* {p['quantifier']}.  \n*Model:* {', '.join('Model/'+m for m in models) or '(see Props)'}. *Proofs:* {', '.join('Props/'+m for m in mods)}.  \n"
      f"*Theorems:* {', '.join('`'+t.split('Glimpse.')[-1]+'`' for t in c['theorems'])}.  \n" + (f"*Note:* {c['note']}\n" if c["note"] else "\n"))
# coverage
txt = {f: open(f).read() for f in glob.glob(V + "lean/Verif/Model/*.lean")}
ALL = "\n".join(txt.values())
cov, non = [], []
for f in sorted(glob.glob(R + "**/*.py", recursive=True)):
    t = ast.parse(open(f).read())
    fs = []
    def walk(n, pre=""):
        for c in n.body:
            if isinstance(c, ast.ClassDef): walk(c, pre + c.name + ".")
            elif isinstance(c, ast.FunctionDef): fs.append((pre + c.name, c.lineno, c.end_lineno))
    walk(t)
    if not fs: continue
    base = os.path.basename(f)
    yes, no = [], []
    for n, a, b in fs:
        g = []
        for fn, x in txt.items():
            ok = False
            for line in x.splitlines():
                pass
            # ranges after "base:" including following ", lo-hi" lists up to the end of the comment
            for m in re.finditer(re.escape(base) + r":((?:\d+(?:-\d+)?(?:, (?:and )?)?)+)", x):
                for r in re.findall(r"(\d+)(?:-(\d+))?", m.group(1)):
                    lo, hi = int(r[0]), int(r[1] or r[0])
                    if lo <= b and hi >= a: ok = True
            if not ok and re.search(r"`(?:[\w]+\.)*" + re.escape(n.split(".")[-1]) + r"`", x) and base.split(".")[0] in x:
                # named in a model that cites this file without repeating its name
                for m in re.finditer(r"\(?(\d{2,4})-(\d{2,4})\)?", x):
                    lo, hi = int(m.group(1)), int(m.group(2))
                    if lo <= b and hi >= a and base in x: ok = True
            if ok: g.append(os.path.basename(fn)[:-5])
        (yes if g else no).append((n, a, b, g))
    cov.append(f"* `{f[len(R):]}`: " + "; ".join(f"`{n}` ({a}-{b}): {', '.join(sorted(g)[:4])}" for n, a, b, g in yes) + "." if yes else f"* `{f[len(R):]}`: nothing.")
    if no: non.append(f"* `{f[len(R):]}`: " + ", ".join(f"`{n}` ({a}-{b})" for n, a, b, _ in no) + ".")
out.append("\n## Code that is modelled\n\nFunctions whose lines are cited by a definition of the model (model files after the colon). Each definition's comment gives the exact lines and simplifications.\n")
out += cov
out.append("\n## Code that is not modelled\n\nProgress display; and:\n")
out += non
open(V + "DESIGN.md", "w").write("\n".join(out) + "\n")
print(sum(len(x) for x in out))
