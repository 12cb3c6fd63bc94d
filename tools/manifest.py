#!/usr/bin/env python3
"""Regenerate MANIFEST.json and lean/Verif.lean from the Lean sources.
Theorems whose name starts with Cnn_ in lean/Verif/Props are the claims."""
import glob, json, os, re
root = os.path.dirname(os.path.dirname(os.path.abspath(__file__)))
notes = json.load(open(f"{root}/tools/notes.json"))
thms = {}
for f in sorted(glob.glob(f"{root}/lean/Verif/Props/*.lean")):
    src = open(f).read()
    for m in re.finditer(r"^theorem (C(\d\d+)_\S+)", src, re.M):
        thms.setdefault("C" + m.group(2), []).append("Frds.Props." + m.group(1))
claims = []
for l in open(f"{root}/properties.jsonl"):
    p = json.loads(l)["id"]
    t = thms.get(p, [])
    n = notes.get(p, {})
    if not t and "status" not in n:
        continue
    status = n.get("status", "proved")
    if any(x.endswith("_partial") for x in t): status = n.get("status", "partial")
    claims.append({"property": p, "status": status, "theorems": t, "note": n.get("note", "")})
json.dump({"claims": claims}, open(f"{root}/MANIFEST.json", "w"), indent=1, ensure_ascii=False)
mods = sorted(os.path.relpath(f, f"{root}/lean")[:-5].replace("/", ".")
              for f in glob.glob(f"{root}/lean/Verif/**/*.lean", recursive=True))
open(f"{root}/lean/Verif.lean", "w").write("".join(f"import {m}\n" for m in mods))
print(len(claims), "claims;", sum(len(c["theorems"]) for c in claims), "theorems;", len(mods), "modules")
