#!/usr/bin/env python3
"""Regenerate MANIFEST.json from the theorem names C<nn>_* in lean/Verif and tools/notes.json."""
import glob, json, re, os
root = os.path.dirname(os.path.dirname(os.path.abspath(__file__)))
notes = json.load(open(os.path.join(root, "tools/notes.json")))
props = [json.loads(l)["id"] for l in open(os.path.join(root, "properties.jsonl")) if l.strip()]
ths = {}
for f in sorted(glob.glob(os.path.join(root, "lean/Verif/**/*.lean"), recursive=True)):
    ns = []
    for line in open(f):
        m = re.match(r"namespace\s+(\S+)", line)
        if m: ns.append(m.group(1)); continue
        m = re.match(r"end\s+(\S+)", line)
        if m and ns and ns[-1].endswith(m.group(1)): ns.pop(); continue
        m = re.match(r"(?:private |protected )?theorem\s+(C\d+_[A-Za-z0-9_']+)", line)
        if m:
            ths.setdefault(m.group(1).split("_")[0], []).append(".".join(ns + [m.group(1)]))
claims = []
for p in props:
    t = ths.get(p, [])
    n = notes.get(p, {})
    if not t:
        status = n.get("status", "not_applicable")
    else:
        status = n.get("status") or ("partial" if any(x.endswith("_partial") for x in t) else "proved")
    claims.append({"property": p, "status": status, "theorems": t, "note": n.get("note", "")})
json.dump({"claims": claims}, open(os.path.join(root, "MANIFEST.json"), "w"), indent=1, ensure_ascii=False)
from collections import Counter
print(Counter(c["status"] for c in claims), [c["property"] for c in claims if not c["theorems"]])
