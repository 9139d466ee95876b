#!/usr/bin/env python3
"""Regenerate MANIFEST.json from the theorem names in lean/Verif/Props and the notes in tools/notes.json."""
import json, re, glob, os
root = os.path.dirname(os.path.dirname(os.path.abspath(__file__)))
notes = json.load(open(f'{root}/tools/notes.json'))
by = {}
for f in sorted(glob.glob(f'{root}/lean/Verif/Props/*.lean')):
    ns = []
    for line in open(f):
        m = re.match(r'namespace (\S+)', line)
        if m: ns.append(m.group(1))
        m = re.match(r'end (\S+)', line)
        if m and ns: ns.pop()
        m = re.match(r'(?:@\[.*\] )?theorem (C(\d\d\d?)_\S+)', line)
        if m:
            by.setdefault('C' + m.group(2), []).append('.'.join(ns + [m.group(1)]))
claims = []
for l in open(f'{root}/properties.jsonl'):
    i = json.loads(l)['id']
    th = by.get(i, [])
    if not th:
        print('NO THEOREM FOR', i)
        continue
    part = any('_partial' in t or 'counterexample' in t for t in th)
    n = notes.get(i, {})
    st = n.get('status') or ('partial' if part else 'proved')
    claims.append({'property': i, 'status': st, 'theorems': th, 'note': n.get('note', '')})
json.dump({'claims': claims}, open(f'{root}/MANIFEST.json', 'w'), indent=1)
print(len(claims), 'claims', sum(len(c['theorems']) for c in claims), 'theorems', {s: sum(c['status']==s for c in claims) for s in ('proved','partial','not_applicable')})
