#!/usr/bin/env python3
"""Writes MANIFEST.json from scripts/claims.txt and checks that every theorem named there exists.

claims.txt: blocks of
  C01 proved thm1 thm2 ...
    free text note (indented)
"""
import json, os, re, glob
root = os.path.dirname(os.path.dirname(os.path.abspath(__file__)))
thms = set()
for f in glob.glob(root + '/lean/Verif/*.lean'):
    ns = []
    for line in open(f):
        m = re.match(r'namespace (\S+)', line)
        if m: ns.append(m.group(1))
        m = re.match(r'end (\S+)', line)
        if m and ns and ns[-1] == m.group(1): ns.pop()
        m = re.match(r'(?:@\[[^\]]*\] )?theorem (\S+)', line)
        if m: thms.add('.'.join(ns + [m.group(1)]))
claims = []
for line in open(root + '/scripts/claims.txt'):
    if not line.strip() or line.startswith('#'): continue
    if line[0] != ' ':
        p = line.split()
        names = ['Ocnn.' + t for t in p[2:]]
        for t in names:
            if t not in thms: print('MISSING', p[0], t)
        if p[1] == 'partial' and False: pass
        claims.append({'property': p[0], 'status': p[1], 'theorems': names, 'note': ''})
    else:
        claims[-1]['note'] = (claims[-1]['note'] + ' ' + line.strip()).strip()
props = [json.loads(l)['id'] for l in open(root + '/properties.jsonl')]
have = {c['property'] for c in claims}
print('missing properties:', [p for p in props if p not in have])
json.dump({'claims': claims}, open(root + '/MANIFEST.json', 'w'), indent=1, ensure_ascii=False)
named = {t for c in claims for t in c['theorems']}
extra = sorted(t for t in thms if re.match(r'Ocnn\.C\d\d', t) and t not in named)
if extra: print('not in manifest:', extra)
