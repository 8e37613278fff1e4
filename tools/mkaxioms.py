#!/usr/bin/env python3
"""Fill the table of axioms in DESIGN.md from MANIFEST.json and `#print axioms`."""
import json, re, subprocess, os, tempfile
root = os.path.dirname(os.path.dirname(os.path.abspath(__file__)))
claims = json.load(open(root + '/MANIFEST.json'))['claims']
names = sorted({t for c in claims for t in c['theorems']})
src = 'import Verif\n' + ''.join('#print axioms %s\n' % n for n in names)
with tempfile.NamedTemporaryFile('w', suffix='.lean', delete=False) as f:
    f.write(src)
out = subprocess.run(['lake', 'env', 'lean', f.name], cwd=root + '/lean', capture_output=True, text=True).stdout
ax = {}
for m in re.finditer(r"'([^']*)' (does not depend on any axioms|depends on axioms: \[([^\]]*)\])", out):
    ax[m.group(1)] = tuple(sorted(x.strip() for x in (m.group(3) or '').split(',') if x.strip()))
assert set(ax) == set(names), set(names) - set(ax)
code = {'propext': 'p', 'Classical.choice': 'c', 'Quot.sound': 'q'}
lines = ['| claim | theorems (axioms) |', '|---|---|']
for c in claims:
    lines.append('| %s | %s |' % (c['property'], ', '.join('`%s` (%s)' % (t.replace('Distclus.', ''),
        ''.join(code[a] for a in ax[t]) or 'none') for t in c['theorems'])))
p = root + '/DESIGN.md'
t = open(p).read()
a, b = '<!-- axioms -->', '<!-- /axioms -->'
i, j = t.index(a) + len(a), t.index(b)
open(p, 'w').write(t[:i] + '\n' + '\n'.join(lines) + '\n' + t[j:])
