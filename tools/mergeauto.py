#!/usr/bin/env python3
"""Merge /tmp/auto/log.jsonl into seeded/LOG.jsonl. Survivors need an entry in seeded/survivors.json: "File.lean definition" -> {"tightened": [...]} or {"note": "..."}."""
import json, os
R = json.load(open("/verif/seeded/survivors.json")) if os.path.exists("/verif/seeded/survivors.json") else {}
have = {(j["file"], j["definition"], j["edit"]) for j in map(json.loads, open("/verif/seeded/LOG.jsonl"))}
n = 0; miss = []
with open("/verif/seeded/LOG.jsonl", "a") as o:
    for j in map(json.loads, open("/tmp/auto/log.jsonl")):
        k = (j["file"], j["definition"], j["edit"])
        if k in have: continue
        if j["outcome"] == "timeout": continue
        if j["outcome"] == "survived":
            r = R.get(os.path.basename(j["file"]) + " " + j["definition"])
            if r is None: miss.append(k); continue
            j.update(r)
        have.add(k); o.write(json.dumps(j, ensure_ascii=False) + "\n"); n += 1
print("merged", n)
for m in miss: print("unreviewed survivor:", m)
