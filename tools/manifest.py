#!/usr/bin/env python3
"""Regenerate MANIFEST.json: theorems named Cnn_* in lean/Verif/Props are attributed to property Cnn."""
import re, json, glob, os
root = os.path.join(os.path.dirname(__file__), '..')
ids = [json.loads(l)['id'] for l in open(os.path.join(root, 'properties.jsonl'))]
notes = json.load(open(os.path.join(root, 'tools', 'notes.json')))
thms = {}
for f in sorted(glob.glob(os.path.join(root, 'lean/Verif/Props/*.lean'))):
    src = open(f).read()
    ns = re.search(r'^namespace (\S+)', src, re.M).group(1)
    for m in re.finditer(r"^theorem ((C\d\d+)_\w+)", src, re.M):
        thms.setdefault(m.group(2), []).append(ns + '.' + m.group(1))
claims = []
for i in ids:
    t = thms.get(i, [])
    n = notes.get(i, {})
    st = n.get('status', 'proved' if t else 'partial')
    if not t: st = 'partial'
    claims.append({'property': i, 'status': st, 'theorems': t, 'note': n.get('note', '' if t else 'not yet proved')})
json.dump({'claims': claims}, open(os.path.join(root, 'MANIFEST.json'), 'w'), indent=1)
print({c['property']: len(c['theorems']) for c in claims})
