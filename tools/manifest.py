#!/usr/bin/env python3
"""Rebuild MANIFEST.json: collects the theorems named Cnn_... from Verif/Props and the notes in tools/notes.json."""
import json, re, glob, os
root = os.path.dirname(os.path.dirname(os.path.abspath(__file__)))
notes = json.load(open(os.path.join(root, 'tools', 'notes.json')))
thms = {}
for f in sorted(glob.glob(os.path.join(root, 'lean/Verif/Props/*.lean'))):
    for m in re.finditer(r'^theorem (C(\d\d)_[A-Za-z0-9_\']+)', open(f).read(), re.M):
        thms.setdefault('C' + m.group(2), []).append('Bindgen.' + m.group(1))
claims = []
for line in open(os.path.join(root, 'properties.jsonl')):
    p = json.loads(line)['id']
    if p not in thms:
        continue
    n = notes.get(p, {})
    status = n.get('status') or ('partial' if any(t.endswith('_partial') for t in thms[p]) else 'proved')
    claims.append({'property': p, 'status': status, 'theorems': thms[p], 'note': n.get('note', '')})
json.dump({'claims': claims}, open(os.path.join(root, 'MANIFEST.json'), 'w'), indent=1)
print(len(claims), 'claims', sum(len(c['theorems']) for c in claims), 'theorems')
missing = [json.loads(l)['id'] for l in open(os.path.join(root, 'properties.jsonl')) if json.loads(l)['id'] not in thms]
print('missing', missing)
