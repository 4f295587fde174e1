#!/usr/bin/env python3
"""Regenerate /verif/MANIFEST.json from the theorem names in lean/Verif/Props and tools/notes.json."""
import json, re, glob, os
root = os.path.dirname(os.path.dirname(os.path.abspath(__file__)))
notes = json.load(open(root + '/tools/notes.json'))
thms = {}
for f in sorted(glob.glob(root + '/lean/Verif/Props/*.lean')):
    ns = []
    for line in open(f):
        m = re.match(r'namespace (\S+)', line)
        if m: ns.append(m.group(1))
        m = re.match(r'end (\S+)', line)
        if m and ns and ns[-1] == m.group(1): ns.pop()
        m = re.match(r'theorem (C\d+)_(\S+)', line)
        if m:
            thms.setdefault(m.group(1), []).append('.'.join(ns + [m.group(1) + '_' + m.group(2)]))
claims = []
for line in open(root + '/properties.jsonl'):
    c = json.loads(line)['id']
    t = thms.get(c, [])
    if not t:
        st = notes.get(c + '!', None)
        if st: claims.append({"property": c, "status": st, "theorems": [], "note": notes.get(c, "")})
        continue
    part = any(x.endswith('_partial') for x in t) or any('_false' in x for x in t)
    claims.append({"property": c, "status": "partial" if part else "proved", "theorems": t, "note": notes.get(c, "")})
json.dump({"claims": claims}, open(root + '/MANIFEST.json', 'w'), indent=1)
print(len(claims), 'claims;', sum(c['status'] == 'proved' for c in claims), 'proved')
