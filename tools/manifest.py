"""Generate MANIFEST.json from the theorem names in lean/Verif/Props."""
import glob
import json
import os
import re

ROOT = os.path.dirname(os.path.dirname(os.path.abspath(__file__)))

NOTES = json.load(open(os.path.join(ROOT, "tools", "notes.json")))

theorems = {}
counter = {}
for path in sorted(glob.glob(os.path.join(ROOT, "lean/Verif/Props/*.lean"))):
    for m in re.finditer(r"^theorem (C\d\d\d?)_(\w+)", open(path).read(), re.M):
        pid, rest = m.groups()
        name = "Imageio.Props.%s_%s" % (pid, rest)
        d = counter if "counterexample" in rest else theorems
        d.setdefault(pid, []).append(name)

claims = []
for line in open(os.path.join(ROOT, "properties.jsonl")):
    pid = json.loads(line)["id"]
    names = theorems.get(pid, [])
    note = NOTES.get(pid, "")
    if not names:
        status = "not_applicable"
        note = note or "Not modelled yet."
    elif any(n.endswith("_partial") for n in names) or note.startswith("Partial"):
        status = "partial"
    else:
        status = "proved"
    if counter.get(pid):
        note = (note + " Violations shown by: " + ", ".join(counter[pid])).strip()
    claims.append({"property": pid, "status": status, "theorems": names, "note": note})

with open(os.path.join(ROOT, "MANIFEST.json"), "w") as f:
    json.dump({"claims": claims}, f, indent=1)
    f.write("\n")
for s in ("proved", "partial", "not_applicable"):
    print(s, sum(c["status"] == s for c in claims))
