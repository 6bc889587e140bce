#!/usr/bin/env python3
"""Rewrite the list of axioms at the end of DESIGN.md. Run in /verif after `lake build`."""
import json
import os
import re
import subprocess
import tempfile

ROOT = os.path.dirname(os.path.dirname(os.path.abspath(__file__)))
claims = json.load(open(ROOT + '/MANIFEST.json'))['claims']
names = []
for c in claims:
    for t in c['theorems']:
        if t not in names:
            names.append(t)
with tempfile.NamedTemporaryFile('w', suffix='.lean', delete=False) as f:
    f.write('import Verif\n' + ''.join('#print axioms %s\n' % n for n in names))
out = subprocess.run(['lake', 'env', 'lean', f.name], cwd=ROOT + '/lean', capture_output=True, text=True).stdout
os.unlink(f.name)
out = re.sub(r'\s+', ' ', out)
groups = {}
for n in names:
    m = re.search(r"'%s' (?:depends on axioms: \[([^\]]*)\]|(does not depend on any axioms))" % re.escape(n), out)
    key = (m.group(1) or 'none') if m else 'NOT FOUND'
    groups.setdefault(key, []).append(n)
head = '## Axioms used by each theorem of the manifest\n'
text = open(ROOT + '/DESIGN.md').read()
if head in text:
    text = text[:text.index(head)]
text = text.rstrip() + '\n\n' + head + '\nAs printed by `#print axioms` (`tools/axioms.py`).\n'
for k in sorted(groups):
    text += '\n**%s**\n\n' % k + ', '.join('`%s`' % n.replace('Dg1d.Props.', '') for n in groups[k]) + '\n'
open(ROOT + '/DESIGN.md', 'w').write(text)
print({k: len(v) for k, v in groups.items()})
