#!/usr/bin/env python3
"""tools/seed.py SPECS: for each JSON line {def, file, old, new, claim} apply the edit to a scratch copy
of lean/ in /tmp/scratch, build, and append the outcome to seeded/LOG.jsonl.  The scratch copy is
reset from SEED_BASE (default lean/) before every edit.  A line may carry "nth" when `old` occurs several times."""
import json, os, pathlib, re, subprocess, sys
root = pathlib.Path(__file__).resolve().parent.parent
base = pathlib.Path(os.environ.get("SEED_BASE", root / "lean"))   # a built copy of lean/
scratch = pathlib.Path(os.environ.get("SEED_DIR", "/tmp/scratch/lean"))
DECL = re.compile(r'^(?:@\[[^\]]*\]\s*)?(?:omit .* in\s+)?(?:noncomputable\s+)?(theorem|lemma|def|example|instance|structure)\s*(\S*)')

def enclosing(path, line):
    best = "?"
    for i, l in enumerate(path.read_text().split("\n"), 1):
        m = DECL.match(l)
        if m:
            best = m[2] if m[1] != "example" else f"example at line {i}"
        if i >= line:
            break
    return best

def props_of(mod):
    t = (scratch / (mod.replace(".", "/") + ".lean")).read_text()
    return re.findall(r'^theorem (C\d+_\w+)', t, re.M)

def importers(mods):
    """modules of Props that import, directly or not, one of the modules"""
    imp = {}
    for f in (scratch / "Verif").rglob("*.lean"):
        name = ".".join(f.relative_to(scratch).with_suffix("").parts)
        imp[name] = re.findall(r'^import (Verif\.\S+)', f.read_text(), re.M)
    bad = set(mods)
    while True:
        new = {m for m, i in imp.items() if m not in bad and any(x in bad for x in i)}
        if not new:
            return bad
        bad |= new

for line in open(sys.argv[1]):
    if not line.strip():
        continue
    r = json.loads(line)
    scratch.mkdir(parents=True, exist_ok=True)
    subprocess.run(f"rm -rf {scratch} && cp -a {base} {scratch}", shell=True, check=True)
    p = scratch / r["file"]
    s = p.read_text()
    n = s.count(r["old"])
    if n == 0 or (n > 1 and "nth" not in r):
        print("SKIP", r["def"], "occurrences:", n); continue
    k = r.get("nth", 0)
    pos = -1
    for _ in range(k + 1):
        pos = s.index(r["old"], pos + 1)
    p.write_text(s[:pos] + r["new"] + s[pos + len(r["old"]):])
    out = subprocess.run(["lake", "build"], cwd=scratch, capture_output=True, text=True)
    txt = out.stdout + out.stderr
    failed, mods = [], set()
    for m in re.finditer(r'^error: (Verif/\S+?\.lean):(\d+):', txt, re.M):
        d = enclosing(scratch / m[1], int(m[2]))
        mod = m[1][:-5].replace("/", ".")
        mods.add(mod)
        e = f"{mod}: {d}"
        if e not in failed:
            failed.append(e)
    blocked = sorted({t for m in importers(mods) if ".Props." in m for t in props_of(m)}) if mods else []
    rec = {"definition": r["def"], "edit": f"{r['old']}  ->  {r['new']}", "claim": r["claim"],
           "failed": failed, "claims_not_checkable": sorted({b.split("_")[0] for b in blocked}),
           "tightened": r.get("tightened", [])}
    with open(root / "seeded/LOG.jsonl", "a") as f:
        f.write(json.dumps(rec, ensure_ascii=False) + "\n")
    print("OK " if failed else "SURVIVED", r["def"], "|", rec["edit"][:90], "|", failed[:3], flush=True)
