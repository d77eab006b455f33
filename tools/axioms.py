#!/usr/bin/env python3
"""Writes in DESIGN.md the axioms on which each theorem of MANIFEST.json depends (between two markers)."""
import json, os, re, subprocess, tempfile
V = os.path.dirname(os.path.dirname(os.path.abspath(__file__)))
m = json.load(open(V + '/MANIFEST.json'))
names = [t for c in m['claims'] for t in c['theorems']]
with tempfile.NamedTemporaryFile('w', suffix='.lean', delete=False) as f:
    f.write('import Verif\n' + ''.join('#print axioms %s\n' % n for n in names))
r = subprocess.run(['lake', 'env', 'lean', f.name], cwd=V + '/lean', capture_output=True, text=True)
os.remove(f.name)
out = re.sub(r'\n\s+', ' ', r.stdout)
ax = {}
for l in out.splitlines():
    k = re.match(r"'([^']*)' depends on axioms: \[(.*)\]", l)
    if k:
        ax[k.group(1)] = tuple(sorted(x.strip() for x in k.group(2).split(',')))
    k = re.match(r"'([^']*)' does not depend on any axioms", l)
    if k:
        ax[k.group(1)] = ()
missing = [n for n in names if n not in ax]
assert not missing, (missing, r.stdout[-2000:], r.stderr)
groups = {}
for n in names:
    groups.setdefault(ax[n], []).append(n.split('.')[-1])
txt = ''
for g in sorted(groups, key=lambda g: (len(g), g)):
    txt += '* %s: %s.\n' % ('no axiom' if not g else ', '.join('`%s`' % x for x in g), ', '.join('`%s`' % x for x in groups[g]))
s = open(V + '/DESIGN.md').read()
a, b = '<!-- axioms -->\n', '<!-- end of axioms -->\n'
i, j = s.index(a) + len(a), s.index(b)
open(V + '/DESIGN.md', 'w').write(s[:i] + txt + s[j:])
print({g: len(v) for g, v in groups.items()})
