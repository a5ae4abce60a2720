#!/usr/bin/env python3
"""Print the axioms of every theorem in MANIFEST.json, and write them into DESIGN.md (after `lake build`)."""
import json, os, re, subprocess, tempfile
root = os.path.dirname(os.path.dirname(os.path.abspath(__file__)))
names = [t for c in json.load(open(root + '/MANIFEST.json'))['claims'] for t in c['theorems']]
src = 'import Verif\n' + ''.join('#print axioms %s\n' % n for n in names)
with tempfile.NamedTemporaryFile('w', suffix='.lean', delete=False) as f: f.write(src)
out = subprocess.run(['lake', 'env', 'lean', f.name], cwd=root + '/lean', capture_output=True, text=True).stdout
groups = {}
for m in re.finditer(r"'([^']+)' (?:depends on axioms: \[([^\]]*)\]|does not depend on any axioms)", out):
    ax = ', '.join(sorted(x.strip() for x in (m.group(2) or '').split(',') if x.strip())) or 'none'
    groups.setdefault(ax, []).append(m.group(1).replace('Wickr.', ''))
assert sum(map(len, groups.values())) == len(names), (sum(map(len, groups.values())), len(names))
text = '## Axioms per theorem\n\nGenerated by `tools/axioms.py` from `#print axioms`.\n'
for ax in sorted(groups): text += '\n* ' + ax + ': ' + ', '.join(sorted(groups[ax])) + '.\n'
p = root + '/DESIGN.md'; s = open(p).read()
s = s.split('## Axioms per theorem')[0].rstrip('\n') + '\n\n' + text
open(p, 'w').write(s)
print({k: len(v) for k, v in groups.items()})
