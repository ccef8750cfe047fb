#!/usr/bin/env python3
"""Writes /verif/MANIFEST.json from the theorem names in lean/Verif/Props and the notes below."""
import json, re, glob
NOTES = json.load(open('/verif/tools/notes.json'))
props = [json.loads(l)['id'] for l in open('/verif/properties.jsonl')]
thms = {}
for f in sorted(glob.glob('/verif/lean/Verif/Props/*.lean')):
    NS = re.search(r'^namespace (\S+)', open(f).read(), re.M).group(1) + '.'
    for m in re.finditer(r'^theorem (C(\d\d\d?)_\w+)', open(f).read(), re.M):
        thms.setdefault('C' + m.group(2), []).append(NS + m.group(1))
claims = []
for p in props:
    t = thms.get(p, [])
    n = NOTES.get(p, '')
    if not t:
        print('no theorem yet:', p); continue
    part = any(x.endswith('_partial') for x in t) or n.startswith('PARTIAL')
    claims.append({'property': p, 'status': 'partial' if part else 'proved', 'theorems': t,
                   'note': n.replace('PARTIAL ', '', 1)})
extra = set(thms) - set(props)
if extra: print('theorems without property:', extra)
json.dump({'claims': claims}, open('/verif/MANIFEST.json', 'w'), indent=1, ensure_ascii=False)
