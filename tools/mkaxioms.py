#!/usr/bin/env python3
"""Print, for every theorem in MANIFEST.json, the axioms it depends on, and put the
result, grouped by axioms, between the markers in DESIGN.md."""
import json, os, re, subprocess, tempfile
root = os.path.dirname(os.path.dirname(os.path.abspath(__file__)))
thms = sorted({t for c in json.load(open(f'{root}/MANIFEST.json'))['claims'] for t in c['theorems']})
src = 'import Verif\n' + ''.join(f'#print axioms {t}\n' for t in thms)
with tempfile.NamedTemporaryFile('w', suffix='.lean', delete=False) as f:
    f.write(src)
out = subprocess.run(['lake', 'env', 'lean', f.name], cwd=f'{root}/lean', capture_output=True, text=True).stdout
os.unlink(f.name)
groups = {}
for m in re.finditer(r"'([^']+)' (?:does not depend on any axioms|depends on axioms: \[([^\]]*)\])", out):
    ax = ', '.join(sorted(x.strip() for x in (m.group(2) or '').split(',') if x.strip())) or 'none'
    groups.setdefault(ax, []).append(m.group(1))
assert sum(map(len, groups.values())) == len(thms), (sum(map(len, groups.values())), len(thms))
text = []
for ax in sorted(groups, key=lambda a: (a != 'none', len(a), a)):
    names = sorted(groups[ax])
    short = ', '.join(f'`{n.removeprefix("Verif.")}`' for n in names)
    text.append(f'* **{ax}** ({len(names)} theorems): {short}\n')
d = open(f'{root}/DESIGN.md').read()
a, b = '<!-- axioms -->\n', '<!-- /axioms -->'
i, j = d.index(a) + len(a), d.index(b)
d = d[:i] + '\n'.join(text) + d[j:]
titles = {p['id']: p['title'] for p in map(json.loads, open(f'{root}/properties.jsonl'))}
text = []
for c in json.load(open(f'{root}/MANIFEST.json'))['claims']:
    if c['status'] == 'partial':
        text.append(f'* **{c["property"]}** ({titles[c["property"]]}): {c["note"]}\n')
a, b = '<!-- findings -->\n', '<!-- /findings -->'
i, j = d.index(a) + len(a), d.index(b)
open(f'{root}/DESIGN.md', 'w').write(d[:i] + ''.join(text) + d[j:])
print({a: len(n) for a, n in groups.items()})
