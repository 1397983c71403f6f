#!/usr/bin/env python3
"""Write VIOLATIONS.md: the properties the unchanged code violates, with the theorem that shows each."""
import glob, os, re
root = os.path.dirname(os.path.dirname(os.path.abspath(__file__)))
found = []
for f in sorted(glob.glob(f'{root}/lean/Verif/Props/*.lean')):
    s = open(f).read()
    for m in re.finditer(r'/--((?:(?!-/).)*)-/\s*theorem ((C\d+)_\w*violated\w*)', s, re.S):
        doc = ' '.join(m[1].split()).replace('**', '')
        found.append((int(m[3][1:]), m[2], os.path.basename(f), doc))
    n = len(re.findall(r'^theorem C\d+_\w*violated', s, re.M))
    k = sum(1 for x in found if x[2] == os.path.basename(f))
    if n != k:
        print('without comment:', f, n, k)
with open(f'{root}/VIOLATIONS.md', 'w') as o:
    o.write('# Properties violated by the unchanged code\n\n'
            'Each line is a theorem about the model with a concrete witness (`tools/violations.py`).\n\n')
    for _, t, f, d in sorted(found):
        o.write(f'* `{t}` ({f}): {d}\n')
print(len(found))
