#!/usr/bin/env python3
# Writes /verif/MANIFEST.json.
import json, os
M = {}
def c(prop, status, theorems, note=""):
    M[prop] = dict(property=prop, status=status, theorems=theorems.split(), note=note)
exec(open(os.path.join(os.path.dirname(os.path.abspath(__file__)), 'claims.py')).read())
base = os.path.join(os.path.dirname(os.path.abspath(__file__)), '..')
ids = [json.loads(l)['id'] for l in open(os.path.join(base, 'properties.jsonl'))]
out = {"claims": [M[i] for i in ids if i in M]}
missing = [i for i in ids if i not in M]
json.dump(out, open(os.path.join(base, 'MANIFEST.json'), 'w'), indent=1)
print(len(out['claims']), 'claims; missing', missing)
# check names exist
src = ''
for root, _, fs in os.walk(os.path.join(base, 'lean', 'Verif')):
    for f in fs:
        if f.endswith('.lean'):
            src += open(os.path.join(root, f)).read()
import re
for m in M.values():
    for t in m['theorems']:
        short = t.split('.')[-1]
        if not re.search(r'theorem ' + re.escape(short) + r'\b', src):
            print('NOT FOUND', t)
