#!/usr/bin/env python3
# Generates MANIFEST.json. Run from /verif. Every theorem named here must exist.
import json, re, glob
C = []
def c(pid, status, theorems, note=""):
    C.append(dict(property=pid, status=status, theorems=["Distclus." + t for t in theorems], note=note))

exec(open('tools/claims.py').read())

names = set()
for f in glob.glob('lean/Verif/**/*.lean', recursive=True):
    ns = []
    for line in open(f):
        m = re.match(r'\s*namespace (\S+)', line)
        if m: ns.append(m.group(1))
        m = re.match(r'\s*end (\S+)\s*$', line)
        if m and ns and ns[-1] == m.group(1): ns.pop()
        m = re.match(r'(?:@\[[^\]]*\]\s*)?(?:private\s+)?theorem (\S+)', line)
        if m: names.add('.'.join(ns + [m.group(1)]))
ids = [json.loads(l)['id'] for l in open('properties.jsonl')]
for x in C:
    assert x['property'] in ids, x
    for t in x['theorems']:
        assert t in names, t
done = [x['property'] for x in C]
assert len(set(done)) == len(done)
json.dump({"claims": C}, open('MANIFEST.json', 'w'), indent=1)
print(len(C), 'claims; missing', [i for i in ids if i not in done])
