#!/usr/bin/env python3
"""setprop.py: apply edits {id: {field: value}} read from stdin (JSON) to properties.jsonl; new ids are appended."""
import json, sys
ed = json.load(sys.stdin)
rows = [json.loads(l) for l in open("/verif/properties.jsonl") if l.strip()]
ids = {r["id"]: r for r in rows}
for k, v in ed.items():
    if k in ids: ids[k].update(v)
    else: rows.append({"id": k, **v})
for r in rows:
    assert all(r.get(f) for f in ("id","title","statement","quantifier","why_tests_cant","anchors")), r
open("/verif/properties.jsonl","w").write("".join(json.dumps(r, ensure_ascii=False)+"\n" for r in rows))
