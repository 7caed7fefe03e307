#!/usr/bin/env python3
"""Generate MANIFEST.json: theorem names are collected from lean/Verif/Props by their Cnn_ prefix."""
import json, re, glob, collections, os
root = os.path.dirname(os.path.dirname(os.path.abspath(__file__)))
thms = collections.defaultdict(list)
for f in sorted(glob.glob(root + '/lean/Verif/Props/*.lean')):
    for m in re.finditer(r'^theorem (C(\d+)_\w+)', open(f).read(), re.M):
        thms['C' + m.group(2)].append('Jpeg.' + m.group(1))
notes = json.load(open(root + '/tools/notes.json'))
props = [json.loads(l)['id'] for l in open(root + '/properties.jsonl')]
claims = []
for p in props:
    n = notes.get(p, {})
    ts = thms.get(p, [])
    if not ts and not n:
        continue
    claims.append({"property": p, "status": n.get("status", "proved" if ts else "partial"),
                   "theorems": ts, "note": n.get("note", "")})
json.dump({"claims": claims}, open(root + '/MANIFEST.json', 'w'), indent=1)
print({c['property']: (c['status'], len(c['theorems'])) for c in claims})
