#!/usr/bin/env python3
"""Automatic mutants: one per model definition that seeded/LOG.jsonl does not have yet. Each is a small edit of the definition's
body (an operator, a constant, a projection, an error) that still compiles; it is caught if some theorem or example fails.
Works in /tmp/auto/lean; appends to /tmp/auto/log.jsonl (survivors have "outcome": "survived")."""
import glob, json, os, random, re, shutil, signal, subprocess, sys
V, W = "/verif/lean", "/tmp/auto/lean"
OUT = "/tmp/auto/log.jsonl"
OPS = [(r" \+ ", " - "), (r" - ", " + "), (r" \* ", " + "), (r" / ", " * "), (r" ≤ ", " < "), (r" < ", " ≤ "), (r" = ", " ≠ "), (r" ≠ ", " = "),
  (r" ∧ ", " ∨ "), (r" ∨ ", " ∧ "), (r" && ", " || "), (r" \|\| ", " && "), (r"\bmin\b", "max"), (r"\bmax\b", "min"), (r"\btrue\b", "false"),
  (r"\bfalse\b", "true"), (r"\.1\b", ".2"), (r"\.2\b", ".1"), (r"(?<![\w.])0\b", "1"), (r"(?<![\w.])1\b", "2"), (r"(?<![\w.])2\b", "3"),
  (r"\btake\b", "drop"), (r"\bdrop\b", "take"), (r"\.valueError", ".typeError"), (r"\.typeError", ".valueError"), (r"\.indexError", ".other"),
  (r"\.attributeError", ".valueError"), (r"\.reverse\b", ""), (r"\bisSome\b", "isNone"), (r"\bisNone\b", "isSome"), (r"\.any\b", ".all"),
  (r"\.all\b", ".any"), (r"⌊(.*?)⌋", r"⌈\1⌉"), (r"⌈(.*?)⌉", r"⌊\1⌋"), (r"\.x\b", ".y"), (r"\.y\b", ".x"), (r"\.lo\b", ".hi"), (r"\.hi\b", ".lo"),
  (r"\.ax\b", ".ay"), (r"\.ay\b", ".ax"), (r"\brows\b", "cols"), (r"\bcols\b", "rows"), (r"\bsin\b", "cos"), (r"\bcos\b", "sin"), (r"¬", ""),
  (r"!", ""), (r"\bhead\?", "getLast?"), (r" %", " /"), (r" \+\+ ", " ++ [] ++ "), (r"\bdefault\b", "none"), (r"\bnone\b", "default")]
OPS = [o for o in OPS if o[0] not in (r" \+\+ ", r"\bdefault\b", r"\bnone\b")]
rng = random.Random(int(sys.argv[1]) if len(sys.argv) > 1 else 1)
def defs(src):
    pos = [m.start() for m in re.finditer(r"^(?:/--|/-!|(?:noncomputable |private )*(?:def|theorem|structure|inductive|abbrev|instance|example|mutual|end|variable|open|namespace|set_option)\b)", src, re.M)] + [len(src)]
    for a, b in zip(pos, pos[1:]):
        m = re.match(r"(?:noncomputable |private )*def (\S+)", src[a:b])
        if m: yield m.group(1), a, b
def mutants(body):
    m = re.search(r":=|^\s+\| ", body, re.M)
    if not m: return []
    s, r = m.start(), []
    for pat, rep in OPS:
        for g in re.finditer(pat, body):
            if g.start() < s: continue
            line = body[body.rfind("\n", 0, g.start()) + 1:g.start()]
            if "--" in line: continue
            new = body[:g.start()] + g.expand(rep) + body[g.end():]
            if new != body: r.append((new, g.start()))
    rng.shuffle(r)
    return r
def build(target, limit):
    p = subprocess.Popen(["nice", "lake", "build"] + target, cwd=W, stdout=subprocess.PIPE, stderr=subprocess.STDOUT, text=True, start_new_session=True,
                         env={**os.environ, "LEAN_NUM_THREADS": "2"})
    out, err = "", False
    signal.alarm(limit)
    try:
        for l in p.stdout:
            out += l
            if re.search(r"^error: Verif/|error: Lean exited|error: build failed", l):
                err = True
                if "exited" in l or "build failed" in l: break
    except TimeoutError:
        out += "TIMEOUT"
    signal.alarm(0)
    try: os.killpg(p.pid, signal.SIGKILL)
    except ProcessLookupError: pass
    p.wait()
    return out, err
def alarm(*a): raise TimeoutError()
signal.signal(signal.SIGALRM, alarm)
sys.path.insert(0, "/verif/tools")
def decl_at(path, line):
    name = None
    for n, l in enumerate(open(path), 1):
        if n > line: break
        g = re.match(r"\s*(?:@\[.*\]\s*)?(?:private |noncomputable |protected )*(theorem|def|example|instance|structure|inductive)\s*([^\s:({\[]*)", l)
        if g: name = (g.group(1) + " " + g.group(2)).strip() if g.group(1) != "theorem" else g.group(2)
    return name
if not os.path.exists(W):
    subprocess.run(["cp", "-a", V, W], check=True)
done = set()
for f in ["/verif/seeded/LOG.jsonl", OUT]:
    if os.path.exists(f):
        for l in open(f):
            j = json.loads(l); done.add((os.path.basename(j["file"]), j["definition"]))
todo = []
for f in sorted(glob.glob(W + "/Verif/Model/*.lean")):
    src = open(f).read()
    for n, a, b in defs(src):
        if (os.path.basename(f), n) not in done: todo.append((f, n))
rng.shuffle(todo)
print(len(todo), flush=True)
for f, n in todo:
    src = open(f).read()
    d = [(a, b) for k, a, b in defs(src) if k == n]
    if not d: continue
    a, b = d[0]
    mod = "Verif.Model." + os.path.basename(f)[:-5]
    tried = 0
    for new, at in mutants(src[a:b])[:5]:
        open(f, "w").write(src[:a] + new + src[b:])
        out, err = build([mod], 300)
        if err or "TIMEOUT" in out:
            open(f, "w").write(src); continue
        out, err = build([], 1500)
        fails = []
        for g in re.finditer(r"error: (Verif/\S+?\.lean):(\d+):", out):
            x = decl_at(f"{W}/{g.group(1)}", int(g.group(2)))
            x = f"{x} ({g.group(1)})"
            if x not in fails: fails.append(x)
        claims = []
        for x in fails:
            p = re.search(r"\((Verif/\S+)\)", x).group(1)
            h = re.findall(r"C\d\d+", open(f"{W}/{p}").read()[:1500])
            claims += [c for c in h if c not in claims][:3]
        lines_old, lines_new = src[a:b].split("\n"), new.split("\n")
        diff = [(o.strip(), w.strip()) for o, w in zip(lines_old, lines_new) if o != w]
        o = "timeout" if "TIMEOUT" in out else "caught" if err else "survived"
        rec = {"definition": n, "file": "Model/" + os.path.basename(f), "edit": f"{diff[0][0]}  =>  {diff[0][1]}" if diff else "?",
               "claim": ", ".join(claims[:4]), "failed": fails, "outcome": o, "tightened": []}
        open(OUT, "a").write(json.dumps(rec, ensure_ascii=False) + "\n")
        print(o, os.path.basename(f), n, diff[:1], fails[:2], flush=True)
        open(f, "w").write(src)
        break
    open(f, "w").write(src)
