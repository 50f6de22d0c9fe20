#!/usr/bin/env python3
"""Regenerates MANIFEST.json: theorem names are collected from lean/Verif/Props (prefix Cxx_),
statuses and notes from tools/notes.json."""
import json, re, glob, collections
root = '/verif'
thms = collections.defaultdict(list)
for f in sorted(glob.glob(root + '/lean/Verif/Props/*.lean')):
    for m in re.finditer(r'^theorem (C\d\d)(_\w+)', open(f).read(), re.M):
        thms[m.group(1)].append('Srcml.' + m.group(1) + m.group(2))
notes = json.load(open(root + '/tools/notes.json'))
ids = [json.loads(l)['id'] for l in open(root + '/properties.jsonl') if l.strip()]
claims = []
for i in ids:
    n = notes.get(i)
    if n is None or not thms[i]:
        if thms[i]: print('no note for', i)
        continue
    claims.append({'property': i, 'status': n['status'], 'theorems': thms[i], 'note': n['note']})
json.dump({'claims': claims}, open(root + '/MANIFEST.json', 'w'), indent=1)
print(len(claims), 'claims', sum(len(c['theorems']) for c in claims), 'theorems; missing', [i for i in ids if not thms[i]])
