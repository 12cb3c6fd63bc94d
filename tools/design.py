#!/usr/bin/env python3
"""Regenerate DESIGN.md = design_head.md + table from properties.jsonl, Props/*.lean and design_proofs.json."""
import json, re, glob, os
R = os.path.dirname(os.path.dirname(os.path.abspath(__file__)))
th = {}
for f in sorted(glob.glob(R + '/lean/Verif/Props/*.lean')):
    for m in re.finditer(r'^theorem ((C\d+)_\w+)', open(f).read(), re.M):
        th.setdefault(m.group(2), {}).setdefault(f.split('/')[-1][:-5], []).append(m.group(1))
proofs = json.load(open(R + '/tools/design_proofs.json'))
out = open(R + '/tools/design_head.md').read()
out += '| id | property | theorems (Verif/Props) | proof |\n|---|---|---|---|\n'
for l in open(R + '/properties.jsonl'):
    p = json.loads(l)
    t = '; '.join(f"{k}: " + ', '.join(x[len(p['id']) + 1:] for x in v) for k, v in th.get(p['id'], {}).items())
    out += f"| {p['id']} | {p['title']} | {t} | {proofs.get(p['id'], '')} |\n"
open(R + '/DESIGN.md', 'w').write(out)
missing = [json.loads(l)['id'] for l in open(R + '/properties.jsonl') if json.loads(l)['id'] not in proofs]
print('no proof note:', missing)
