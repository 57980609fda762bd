#!/usr/bin/env python3
"""Regenerates /verif/AXIOMS.md: the axioms every property theorem depends on, as Lean prints them."""
import json, os, re, subprocess, tempfile
root = os.path.dirname(os.path.dirname(os.path.abspath(__file__)))
names = [t for c in json.load(open(root + '/MANIFEST.json'))['claims'] for t in c['theorems']]
f = tempfile.NamedTemporaryFile('w', suffix='.lean', delete=False)
f.write('import Verif\n' + ''.join(f'#print axioms {t}\n' for t in names)); f.close()
out = subprocess.run(['lake', 'env', 'lean', f.name], cwd=root + '/lean', capture_output=True, text=True).stdout
out = re.sub(r'\s+', ' ', out)
res = re.findall(r"'([^']+)' (does not depend on any axioms|depends on axioms: \[[^\]]*\])", out)
assert len(res) == len(names), (len(res), len(names))
with open(root + '/AXIOMS.md', 'w') as o:
    o.write('# Axioms of every property theorem\n\nGenerated by tools/axioms.py from `#print axioms`.\n\n| theorem | axioms |\n|---|---|\n')
    for n, a in res:
        o.write(f"| `{n}` | {a.replace('depends on axioms: ', '').strip('[]').replace('does not depend on any axioms', 'none')} |\n")
