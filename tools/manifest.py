#!/usr/bin/env python3
"""Writes MANIFEST.json; checks that every named theorem occurs in the Lean sources."""
import json, re, glob, sys, os
root = os.path.dirname(os.path.dirname(os.path.abspath(__file__)))
names = set()
for f in glob.glob(root + '/lean/Verif/**/*.lean', recursive=True):
    s = open(f).read()
    names |= set(re.findall(r'^(?:theorem|lemma) ([A-Za-z0-9_.\']+)', s, re.M))
N = 'Causets.'
C = {}
def c(p, status, thms, note=''):
    C[p] = dict(property=p, status=status, theorems=[N + t for t in thms], note=note)
    for t in thms:
        if t not in names and t.split('Objs.')[-1] not in names:
            print('MISSING', t); sys.exit(1)
exec(open(root + '/tools/claims.py').read())
ids = [json.loads(l)['id'] for l in open(root + '/properties.jsonl')]
claims = [C[i] for i in ids if i in C]
json.dump({'claims': claims}, open(root + '/MANIFEST.json', 'w'), indent=1)
print(len(claims), 'claims; without:', [i for i in ids if i not in C])
used = {t for v in C.values() for t in v['theorems']}
print('unclaimed:', sorted(n for n in names if re.match(r'C\d\d', n) and N + n not in used and N + 'Objs.' + n not in used))
