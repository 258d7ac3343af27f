#!/usr/bin/env python3
"""Writes AXIOMS.md: the axioms that every theorem of the manifest depends on.

Run from /verif after `lake build` in lean/.
"""
import collections
import json
import re
import subprocess
import tempfile

claims = json.load(open("MANIFEST.json"))["claims"]
names = [t for c in claims for t in c["theorems"]]
with tempfile.NamedTemporaryFile("w", suffix=".lean", delete=False) as f:
    f.write("import Verif\n" + "".join(f"#print axioms {t}\n" for t in names))
out = subprocess.run(
    ["lake", "env", "lean", f.name], cwd="lean", capture_output=True, text=True
).stdout
out = re.sub(r"\n\s+", " ", out)
deps = {}
for m in re.finditer(r"'([^']+)' (?:depends on axioms: \[([^\]]*)\]|does not depend on any axioms)", out):
    deps[m.group(1)] = tuple(sorted(x.strip() for x in (m.group(2) or "").split(",") if x.strip()))
missing = [t for t in names if t not in deps]
assert not missing, missing
groups = collections.defaultdict(list)
for t in names:
    groups[deps[t]].append(t)
with open("AXIOMS.md", "w") as f:
    f.write("# Axioms of the theorems in MANIFEST.json\n\n")
    f.write("Written by tools/axioms.py from `#print axioms`.\n")
    for g, ts in sorted(groups.items(), key=lambda x: -len(x[1])):
        f.write(f"\n## {', '.join(g) or 'none'} ({len(ts)} theorems)\n\n")
        for t in ts:
            f.write(f"* {t}\n")
for g, ts in groups.items():
    print(len(ts), g)
