#!/usr/bin/env python3
"""Writes AXIOMS.md: the axioms every theorem named in MANIFEST.json depends on, as printed by Lean.
Run from /verif after `lake build` in lean/."""
import json, os, re, subprocess, tempfile
names = list(dict.fromkeys(t for c in json.load(open('MANIFEST.json'))['claims'] for t in c['theorems']))
with tempfile.NamedTemporaryFile('w', suffix='.lean', delete=False) as f:
    f.write('import Verif\n' + '\n'.join('#print axioms ' + n for n in names) + '\n')
out = subprocess.run(['lake', 'env', 'lean', f.name], cwd='lean', capture_output=True, text=True).stdout
os.remove(f.name)
rows = []
for n in names:
    m = re.search("'" + re.escape(n) + r"' (?:depends on axioms: \[([^\]]*)\]|does not depend)", out)
    assert m, n
    ax = re.sub(r'\s+', ' ', m.group(1)) if m.group(1) else 'none'
    assert not set(ax.split(', ')) - {'propext', 'Classical.choice', 'Quot.sound', 'none'}, (n, ax)
    rows.append((n, ax))
with open('AXIOMS.md', 'w') as f:
    f.write('# Axioms of the theorems in MANIFEST.json\n\nGenerated by `tools/axioms.py` from `#print axioms`.\n\n')
    f.write('| theorem | axioms |\n|---|---|\n')
    for n, ax in rows:
        f.write(f'| `{n}` | {ax} |\n')
print(len(rows), {a: sum(1 for r in rows if r[1] == a) for a in {r[1] for r in rows}})
