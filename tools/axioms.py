"""Axioms of every theorem named in MANIFEST.json, as a markdown table (AXIOMS.md).

Run from anywhere after `lake build`."""
import json, subprocess, re, os
m = json.load(open('/verif/MANIFEST.json'))
names = [(c['property'], t) for c in m['claims'] for t in c['theorems']]
src = 'import Verif\n' + '\n'.join(f'#print axioms {t}' for _, t in names)
open('/tmp/axioms.lean', 'w').write(src)
out = subprocess.run(['lake', 'env', 'lean', '/tmp/axioms.lean'], cwd='/verif/lean',
                     capture_output=True, text=True).stdout
ax = {}
for mt in re.finditer(r"'([^']+)' (?:depends on axioms: \[([^\]]*)\]|does not depend on any axioms)", out):
    ax[mt.group(1)] = re.sub(r'\s+', ' ', mt.group(2) or 'none')
with open('/verif/AXIOMS.md', 'w') as f:
    f.write('# Axioms of the theorems in MANIFEST.json\n\nOutput of `#print axioms`, '
            'by `tools/axioms.py`.\n\n| property | theorem | axioms |\n|---|---|---|\n')
    for p, t in names:
        f.write(f'| {p} | `{t}` | {ax[t]} |\n')
print(len(names), sorted(set(ax.values())))
