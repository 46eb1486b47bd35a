#!/usr/bin/env python3
"""Write AXIOMS.md: the axioms every theorem of MANIFEST.json depends on, as printed by `#print axioms`."""
import json, os, re, subprocess
from collections import OrderedDict
root = os.path.dirname(os.path.dirname(os.path.abspath(__file__)))
m = json.load(open(os.path.join(root, "MANIFEST.json")))
src = "import Verif\n" + "".join(f"#print axioms {t}\n" for c in m["claims"] for t in c["theorems"])
path = "/tmp/lumos_axioms.lean"
open(path, "w").write(src)
out = subprocess.run(["lake", "env", "lean", path], cwd=os.path.join(root, "lean"), capture_output=True, text=True).stdout
out = re.sub(r"\n\s+", " ", out)
groups = OrderedDict()
for line in out.splitlines():
    a = re.search(r"'(.*)' depends on axioms: \[(.*)\]", line)
    b = re.search(r"'(.*)' does not depend on any axioms", line)
    if a: groups.setdefault(a.group(2), []).append(a.group(1))
    elif b: groups.setdefault("no axioms", []).append(b.group(1))
    else: print("?", line)
with open(os.path.join(root, "AXIOMS.md"), "w") as f:
    f.write("# Axioms each property theorem depends on\n\nOutput of `#print axioms`, grouped (tools/axioms.py). "
            "`propext`, `Classical.choice` and `Quot.sound` are Lean's own.\n")
    for k, v in groups.items():
        f.write(f"\n## {k} ({len(v)})\n\n" + "".join(f"- `{t}`\n" for t in v))
print({k: len(v) for k, v in groups.items()})
