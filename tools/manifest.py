#!/usr/bin/env python3
"""Regenerate /verif/MANIFEST.json from the theorem names in lean/Verif/Props/*.lean.
Status: 'proved' if some theorem of the property carries neither _partial nor _false,
or if the property's notes.json entry says so; otherwise 'partial'."""
import re, json, glob, os
root = os.path.dirname(os.path.dirname(os.path.abspath(__file__)))
thms = {}
for f in sorted(glob.glob(root + '/lean/Verif/Props/*.lean')):
    ns = []
    for line in open(f):
        m = re.match(r'\s*namespace\s+(\S+)', line)
        if m: ns.append(m.group(1)); continue
        m = re.match(r'\s*end\s+(\S+)', line)
        if m and ns and ns[-1] == m.group(1): ns.pop(); continue
        m = re.match(r'\s*theorem\s+(C(\d+)_\S+)', line)
        if m:
            thms.setdefault('C' + m.group(2), []).append('.'.join(ns + [m.group(1)]))
notes = json.load(open(root + '/tools/notes.json'))
props = [json.loads(l) for l in open(root + '/properties.jsonl') if l.strip()]
claims = []
for p in props:
    i = p['id']; t = thms.get(i, [])
    n = notes.get(i, {})
    if isinstance(n, str): n = {'note': n}
    if not t:
        print('no theorem for', i); continue
    bad = any(x.endswith('_partial') or x.endswith('_false') for x in t)
    status = n.get('status') or ('partial' if bad else 'proved')
    claims.append({'property': i, 'status': status, 'theorems': t, 'note': n.get('note', p['title'])})
ids = {p['id'] for p in props}
for k in thms:
    if k not in ids: print('theorems without property', k, thms[k])
json.dump({'claims': claims}, open(root + '/MANIFEST.json', 'w'), indent=1)
print(len(claims), 'claims')
