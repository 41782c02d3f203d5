"""Write AXIOMS.md: the axioms of every theorem in MANIFEST.json and of the counterexamples."""
import glob
import json
import os
import re
import subprocess
import tempfile

ROOT = os.path.dirname(os.path.dirname(os.path.abspath(__file__)))
LEAN = os.path.join(ROOT, "lean")

names = []
for path in sorted(glob.glob(os.path.join(LEAN, "Verif/Props/*.lean"))):
    for m in re.finditer(r"^theorem (C\d\d\d?_[\w']+)", open(path).read(), re.M):
        names.append("Imageio.Props." + m.group(1))
names.sort()

with tempfile.NamedTemporaryFile("w", suffix=".lean", delete=False) as f:
    f.write("import Verif\n")
    for n in names:
        f.write("#print axioms %s\n" % n)
out = subprocess.run(["lake", "env", "lean", f.name], cwd=LEAN, capture_output=True, text=True).stdout
os.unlink(f.name)

out = re.sub(r"\n\s+", " ", out)
groups = {}
for line in out.splitlines():
    m = re.match(r"'(\S+)' depends on axioms: \[(.*)\]", line)
    if m:
        groups.setdefault(m.group(2), []).append(m.group(1))
        continue
    m = re.match(r"'(\S+)' does not depend on any axioms", line)
    if m:
        groups.setdefault("none", []).append(m.group(1))
        continue
    raise SystemExit("unexpected: " + line)

assert sum(map(len, groups.values())) == len(names)
with open(os.path.join(ROOT, "AXIOMS.md"), "w") as f:
    f.write("# Axioms of the theorems\n\nGenerated by `tools/axioms.py` from `#print axioms`.\n")
    for axioms in sorted(groups):
        f.write("\n## %s\n\n" % axioms)
        for n in groups[axioms]:
            f.write("* `%s`\n" % n.replace("Imageio.Props.", ""))
print({k: len(v) for k, v in groups.items()})
