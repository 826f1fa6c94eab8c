#!/usr/bin/env python3
"""Seeded-bug runner. Usage: seed.py FILE.py [first_id]; FILE.py defines a list S of dicts
(file, old, new, claim, edit, expect) with `file` relative to lean/Verif. For each one: apply the edit in the scratch
copy /tmp/seed, rebuild, collect the theorems that fail, restore, append a line to /verif/seeded/LOG.jsonl."""
import json, os, re, shutil, subprocess, sys
V, T = "/verif/lean", "/tmp/seed"
def sync():
    shutil.rmtree(T, ignore_errors=True)
    subprocess.run(["cp", "-a", V, T], check=True)
def decl_at(path, line):
    name = None
    for n, l in enumerate(open(path), 1):
        if n > line: break
        g = re.match(r"\s*(?:@\[.*\]\s*)?(?:private |noncomputable |protected )*(theorem|def|example|instance|structure|inductive)\s*([^\s:({\[]*)", l)
        if g: name = (g.group(1) + " " + g.group(2)).strip() if g.group(1) != "theorem" else g.group(2)
    return name
def defname(src, pos):
    best = "?"
    for g in re.finditer(r"^(?:noncomputable |private )*(?:def|theorem|abbrev|structure)\s+(\S+)", src[:pos], re.M): best = g.group(1)
    return best
def run(s):
    f = f"{T}/Verif/{s['file']}"
    src = open(f).read()
    if src.count(s["old"]) != s.get("count", 1):
        return None, f"pattern occurs {src.count(s['old'])} times"
    d = defname(src, src.index(s["old"]))
    open(f, "w").write(src.replace(s["old"], s["new"]))
    try:
        r = subprocess.run(["lake", "build"], cwd=T, capture_output=True, text=True, timeout=3000)
        out = r.stdout + r.stderr
        fails = []
        for g in re.finditer(r"error: (Verif/\S+?\.lean):(\d+):", out):
            n = decl_at(f"{T}/{g.group(1)}", int(g.group(2)))
            n = f"{n} ({g.group(1)})"
            if n not in fails: fails.append(n)
        if r.returncode and not fails:  # the prover was killed: rerun the failing modules with a memory limit
            for mod in re.findall(r"^- (Verif\S+)", out, re.M):
                p = mod.replace(".", "/") + ".lean"
                q = p.replace(".lean", "_noex.lean")  # without the examples (a false one exhausts the memory)
                open(f"{T}/{q}", "w").write(re.sub(r"^example\b(?:.*\n)*?(?=\n|\Z)", lambda m: "\n" * (m.group(0).count("\n")), open(f"{T}/{p}").read(), flags=re.M))
                o = subprocess.run(["lake", "env", "lean", "-M", "6000", q], cwd=T, capture_output=True, text=True, timeout=3000)
                os.remove(f"{T}/{q}")
                for g in re.finditer(r"^(Verif/\S+?\.lean):(\d+):\d+: error", o.stdout, re.M):
                    n = f"{decl_at(f'{T}/{p}', int(g.group(2)))} ({p})"
                    if n not in fails: fails.append(n)
            if not fails: return None, out[-600:]
    finally:
        open(f, "w").write(src)
    return d, fails
if __name__ == "__main__":
    g = {}
    exec(open(sys.argv[1]).read(), g)
    sync()
    for s in g["S"]:
        d, fails = run(s)
        if d is None:
            print("BAD", s["edit"], fails); continue
        print("OK  " if fails else "SURVIVED", d, "|", s["edit"], "|", [x.split(" (")[0] for x in fails])
        sys.stdout.flush()
        rec = {"definition": d, "file": s["file"], "edit": s["edit"], "claim": s["claim"], "failed": [x.split(" (")[0] for x in fails],
               "outcome": "caught" if fails else "survived", "tightened": s.get("tightened", [])}
        if s.get("note"): rec["note"] = s["note"]
        open("/verif/seeded/LOG.jsonl", "a").write(json.dumps(rec, ensure_ascii=False) + "\n")
