#!/usr/bin/env python3
"""Writes AXIOMS.txt: the axioms of every theorem named in MANIFEST.json, as printed by Lean.
Run after `lake build`."""
import json, re, subprocess, tempfile
names = [t for c in json.load(open('/verif/MANIFEST.json'))['claims'] for t in c['theorems']]
with tempfile.NamedTemporaryFile('w', suffix='.lean', delete=False) as f:
    f.write('import Verif\n' + '\n'.join(f'#print axioms {n}' for n in names))
out = subprocess.run(['lake', 'env', 'lean', f.name], cwd='/verif/lean', capture_output=True, text=True).stdout
ax = dict(re.findall(r"'(\S+)' depends on axioms: \[([^\]]*)\]", out.replace('\n ', ' ')))
with open('/verif/AXIOMS.txt', 'w') as g:
    for n in names:
        g.write(f'{n}: {ax.get(n, "none")}\n')
print(len(names), sorted({a for v in ax.values() for a in v.split(', ')}))
