#!/usr/bin/env python3
"""Ask Lean for the axioms of every theorem in MANIFEST.json and write AXIOMS.txt (run after `lake build`)."""
import json, os, re, subprocess, tempfile
root = os.path.dirname(os.path.dirname(os.path.abspath(__file__)))
claims = json.load(open(root + "/MANIFEST.json"))["claims"]
names = [t for c in claims for t in c["theorems"]]
src = "import Verif\n" + "".join(f"#print axioms {n}\n" for n in names)
with tempfile.NamedTemporaryFile("w", suffix=".lean", delete=False) as f:
    f.write(src)
out = subprocess.run(["lake", "env", "lean", f.name], cwd=root + "/lean", capture_output=True, text=True)
os.unlink(f.name)
txt = re.sub(r"\s+", " ", out.stdout)
found = {}
for m in re.finditer(r"'([^']*(?:'[^ ]*)?)' (does not depend on any axioms|depends on axioms: \[([^\]]*)\])", txt):
    found[m.group(1)] = m.group(3) or "none"
bad = [n for n in names if n not in found]
allowed = {"propext", "Classical.choice", "Quot.sound", "none"}
alien = [n for n in names if n in found and not set(found[n].split(", ")) <= allowed]
with open(root + "/AXIOMS.txt", "w") as f:
    for c in claims:
        for t in c["theorems"]:
            f.write(f"{c['property']} {t}: {found.get(t, 'UNKNOWN')}\n")
print(len(names), "theorems; not reported:", bad, "; other axioms:", alien)
