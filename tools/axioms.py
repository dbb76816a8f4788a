#!/usr/bin/env python3
"""Writes axioms.txt: the axioms that each theorem of MANIFEST.json depends on (needs a built lean/)."""
import json, os, re, subprocess, tempfile
here = os.path.dirname(os.path.abspath(__file__))
root = os.path.join(here, "..")
thms = [t for c in json.load(open(os.path.join(root, "MANIFEST.json")))["claims"] for t in c["theorems"]]
thms = list(dict.fromkeys(thms))
with tempfile.NamedTemporaryFile("w", suffix=".lean", delete=False) as f:
    f.write("import Verif\n" + "".join(f"#print axioms {t}\n" for t in thms))
p = subprocess.run(["lake", "env", "lean", f.name], cwd=os.path.join(root, "lean"), capture_output=True, text=True)
os.unlink(f.name)
out = re.sub(r"\n\s+", " ", p.stdout)
rows = re.findall(r"'(\S+)' (?:depends on axioms: \[([^\]]*)\]|does not depend on any axioms)", out)
assert len(rows) == len(thms), (len(rows), len(thms), p.stdout[-500:], p.stderr[-500:])
allowed = {"propext", "Classical.choice", "Quot.sound"}
for n, a in rows:
    assert set(filter(None, a.split(", "))) <= allowed, (n, a)
open(os.path.join(root, "axioms.txt"), "w").write("".join(f"{n}: {a or 'none'}\n" for n, a in rows))
print(len(rows), "theorems")
