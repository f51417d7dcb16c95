#!/usr/bin/env python3
"""Write AXIOMS.md: the axioms each theorem of the manifest depends on (by #print axioms, in a scratch file)."""
import json, re, subprocess, os
ts = []
for c in json.load(open('/verif/MANIFEST.json'))['claims']:
    for t in c['theorems']:
        if t not in ts: ts.append(t)
tmp = '/tmp/axioms_tmp.lean'
open(tmp, 'w').write('import Verif\n' + '\n'.join('#print axioms ' + t for t in ts))
out = subprocess.run(['lake', 'env', 'lean', tmp], cwd='/verif/lean', capture_output=True, text=True).stdout
out = re.sub(r'\n\s+', ' ', out)
by = {}
for t in ts:
    m = re.search(r"'%s' (does not depend on any axioms|depends on axioms: \[([^\]]*)\])" % re.escape(t), out)
    assert m, t
    k = m.group(2) or 'none'
    by.setdefault(k, []).append(t)
with open('/verif/AXIOMS.md', 'w') as f:
    f.write('# Axioms\n\nWhat each theorem of MANIFEST.json depends on, as reported by Lean (`#print axioms`); written by tools/mkaxioms.py.\n')
    for k in sorted(by, key=lambda k: (len(k.split(',')) if k != 'none' else 0, k)):
        f.write(f'\n## {k} ({len(by[k])} theorems)\n\n' + ', '.join(f'`{t[len("Marcel."):]}`' for t in by[k]) + '\n')
print({k: len(v) for k, v in by.items()})
