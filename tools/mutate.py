"""
Test the theorems against wrong programs: apply each edit of a list to a scratch copy of the
model, rebuild, and log which theorems fail.

usage: mutate.py mutants.py   (a python file defining MUTANTS, a list of dicts)
"""
import json
import os
import re
import shutil
import subprocess
import sys

ROOT = os.path.dirname(os.path.dirname(os.path.abspath(__file__)))
SCRATCH = "/root/scratch/lean"
# A snapshot of lean/ can be given, to go on editing during a run.
SOURCE = os.environ.get("MUTATE_SOURCE", ROOT + "/lean")


def sync():
    """Make the scratch copy equal to the sources; keep unchanged files untouched."""
    if not os.path.isdir(SCRATCH):
        os.makedirs(os.path.dirname(SCRATCH), exist_ok=True)
        subprocess.check_call(["cp", "-a", SOURCE, SCRATCH])
    for base in (SCRATCH, SOURCE):
        for d, _, fs in os.walk(base + "/Verif"):
            for f in fs:
                rel = os.path.relpath(os.path.join(d, f), base)
                src, dst = os.path.join(SOURCE, rel), os.path.join(SCRATCH, rel)
                if not os.path.exists(src):
                    os.remove(dst)
                elif not os.path.exists(dst) or open(src).read() != open(dst).read():
                    os.makedirs(os.path.dirname(dst), exist_ok=True)
                    shutil.copy(src, dst)
    shutil.copy(SOURCE + "/Verif.lean", SCRATCH + "/Verif.lean")


def theorem_at(path, line):
    name = "?"
    for i, l in enumerate(open(path), 1):
        m = re.match(r"(?:@\[.*?\] *)?(?:private )?(?:theorem|def|example|instance|lemma)\s*(\S*)", l)
        if m:
            name = m.group(1) or "example"
        if i >= line:
            break
    return name


def dependents(failed):
    """Property theorems in modules that import a failed module."""
    imports = {}
    for d, _, fs in os.walk(SCRATCH + "/Verif"):
        for f in fs:
            if f.endswith(".lean"):
                p = os.path.join(d, f)
                mod = os.path.relpath(p, SCRATCH)[:-5].replace("/", ".")
                imports[mod] = re.findall(r"^import (\S+)", open(p).read(), re.M)
    bad = set(failed)
    while True:
        more = {m for m, i in imports.items() if m not in bad and any(x in bad for x in i)}
        if not more:
            break
        bad |= more
    return sorted(bad - set(failed))


def build():
    r = subprocess.run(["lake", "build"], cwd=SCRATCH, stdout=subprocess.PIPE, stderr=subprocess.STDOUT, text=True)
    errs, mods = [], set()
    for m in re.finditer(r"error: (Verif/\S+\.lean):(\d+):\d+:", r.stdout):
        mod = m.group(1)[:-5].replace("/", ".")
        mods.add(mod)
        n = mod + ":" + theorem_at(os.path.join(SCRATCH, m.group(1)), int(m.group(2)))
        if n not in errs:
            errs.append(n)
    return r.returncode == 0, errs, sorted(mods), r.stdout


def main():
    ns = {}
    exec(open(sys.argv[1]).read(), ns)
    survivors = 0
    for m in ns["MUTANTS"]:
        sync()
        edits = [(m["file"], m["old"], m["new"])] + m.get("more", [])
        bad = False
        for file, old, new in edits:
            path = os.path.join(SCRATCH, file)
            text = open(path).read()
            if text.count(old) != 1:
                print("BAD MUTANT", m["definition"], text.count(old), old)
                bad = True
                break
            open(path, "w").write(text.replace(old, new))
        if bad:
            continue
        ok, errs, mods, out = build()
        if not ok and not errs:
            print("BUILD PROBLEM", m["definition"], out[-500:])
            continue
        entry = {
            "definition": m["definition"], "edit": m["old"].strip() + "  ==>  " + m["new"].strip(),
            "claim_broken": m["claim"], "failed": errs,
            "blocked_modules": dependents(mods) if errs else [],
            "tightened": m.get("tightened", []),
        }
        if ok:
            survivors += 1
            entry["note"] = m.get("note", "SURVIVED")
        print(("SURVIVED " if ok else "killed   ") + m["definition"], "|", m["claim"], "|", errs[:4])
        sys.stdout.flush()
        with open(ROOT + "/seeded/LOG.jsonl", "a") as f:
            f.write(json.dumps(entry) + "\n")
    print("survivors:", survivors)


main()
