#!/usr/bin/env python3
"""Regenerate lean/Verif.lean (imports of every module) and MANIFEST.json.

Theorems are named CNN_...; status and note come from tools/claims.json:
  {"C01": {"status": "proved", "note": "..."}}
"""
import json, os, re
root = os.path.dirname(os.path.dirname(os.path.abspath(__file__)))
lean = os.path.join(root, 'lean')
mods = []
for d, _, fs in os.walk(os.path.join(lean, 'Verif')):
    for f in fs:
        if f.endswith('.lean'):
            mods.append(os.path.relpath(os.path.join(d, f), lean)[:-5].replace(os.sep, '.'))
open(os.path.join(lean, 'Verif.lean'), 'w').write(''.join(f'import {m}\n' for m in sorted(mods)))
claims = json.load(open(os.path.join(root, 'tools', 'claims.json')))
ths = {}
for m in sorted(mods):
    t = open(os.path.join(lean, m.replace('.', os.sep) + '.lean')).read()
    for x in re.finditer(r'^theorem (C\d\d+)(_\w+)', t, re.M):
        ths.setdefault(x.group(1), []).append('Verif.' + x.group(1) + x.group(2))
props = [json.loads(l)['id'] for l in open(os.path.join(root, 'properties.jsonl'))]
out = []
for p in props:
    c = claims.get(p)
    if c is None:
        if p in ths: print('no claim for', p)
        continue
    if c['status'] != 'not_applicable' and p not in ths: print('no theorems for', p)
    out.append({'property': p, 'status': c['status'], 'theorems': ths.get(p, []), 'note': c.get('note', '')})
json.dump({'claims': out}, open(os.path.join(root, 'MANIFEST.json'), 'w'), indent=1, ensure_ascii=False)
print(len(out), 'claims;', 'unclaimed:', [p for p in props if p not in claims])
