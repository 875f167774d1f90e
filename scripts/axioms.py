#!/usr/bin/env python3
"""Write AXIOMS.md: the axioms of every theorem in the manifest, from `#print axioms`."""
import json, os, re, subprocess, tempfile
here = os.path.dirname(os.path.dirname(os.path.abspath(__file__)))
names = [t for c in json.load(open(f'{here}/MANIFEST.json'))['claims'] for t in c['theorems']]
def q(n): return n if n.startswith('Verif.') else 'Verif.' + n
src = 'import Verif\n' + '\n'.join(f'#print axioms {q(n)}' for n in names)
with tempfile.NamedTemporaryFile('w', suffix='.lean', delete=False) as f:
    f.write(src)
out = subprocess.run(['lake', 'env', 'lean', f.name], cwd=f'{here}/lean', capture_output=True, text=True).stdout
out = re.sub(r'\n\s+', ' ', out)
rows = {}
for line in out.splitlines():
    m = re.search(r"'(?:Verif\.)?(\S+)' depends on axioms: \[(.*)\]", line)
    if m:
        rows[m.group(1)] = m.group(2)
        continue
    m = re.search(r"'(?:Verif\.)?(\S+)' does not depend on any axioms", line)
    if m:
        rows[m.group(1)] = 'none'
with open(f'{here}/AXIOMS.md', 'w') as f:
    f.write('# Axioms per theorem\n\nGenerated by `scripts/axioms.py` from `#print axioms`.\n\n| theorem | axioms |\n|---|---|\n')
    for n in names:
        k = n.removeprefix('Verif.')
        f.write(f'| `{k}` | {rows.get(k, "MISSING")} |\n')
print(len(names), 'theorems;', sum(1 for n in names if n.removeprefix('Verif.') not in rows), 'missing;', sorted(set(rows.values())))
