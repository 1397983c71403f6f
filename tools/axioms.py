#!/usr/bin/env python3
"""Write AXIOMS.md: the axioms each property theorem depends on (after `lake build`)."""
import glob, os, re, subprocess, tempfile
root = os.path.dirname(os.path.dirname(os.path.abspath(__file__)))
names = []
for f in sorted(glob.glob(f'{root}/lean/Verif/Props/*.lean')):
    ns = []
    for line in open(f):
        if m := re.match(r'namespace (\S+)', line):
            ns.append(m[1])
        elif re.match(r'end [A-Z]\S*$', line) and ns:
            ns.pop()
        elif m := re.match(r'(?:private )?theorem (C\d+_\w+)', line):
            names.append('.'.join(ns + [m[1]]))
with tempfile.NamedTemporaryFile('w', suffix='.lean', delete=False) as t:
    t.write('import Verif\n' + ''.join(f'#print axioms {n}\n' for n in names))
out = subprocess.run(['lake', 'env', 'lean', t.name], cwd=f'{root}/lean', capture_output=True, text=True).stdout
os.unlink(t.name)
out = re.sub(r'\n\s+', ' ', out)
groups = {}
for line in out.splitlines():
    if m := re.match(r"(?:\S+ )?'(\S+)' depends on axioms: \[(.*)\]", line):
        groups.setdefault(', '.join(sorted(x.strip() for x in m[2].split(','))), []).append(m[1])
    elif m := re.match(r"(?:\S+ )?'(\S+)' does not depend on any axioms", line):
        groups.setdefault('none', []).append(m[1])
    else:
        print('?', line)
short = lambda n: n.split('.')[-1]
n = sum(map(len, groups.values()))
print({k: len(v) for k, v in groups.items()}, n, 'of', len(names))
with open(f'{root}/AXIOMS.md', 'w') as o:
    o.write('# Axioms each property theorem depends on\n\n'
            f'Printed by `#print axioms` for the {n} property theorems (`tools/axioms.py`).\n')
    for k in sorted(groups):
        o.write(f'\n## {k}\n\n' + '\n'.join(f'* `{short(x)}`' for x in sorted(groups[k], key=short)) + '\n')
