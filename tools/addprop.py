#!/usr/bin/env python3
"""addprop.py ID TITLE STATEMENT QUANTIFIER WHY ANCHORS(comma separated): add or replace a property."""
import json, sys, os
root = os.path.dirname(os.path.dirname(os.path.abspath(__file__)))
p = root + '/properties.jsonl'
rows = [json.loads(l) for l in open(p) if l.strip()]
i, t, s, q, w, a = sys.argv[1:7]
o = {"id": i, "title": t, "statement": s, "quantifier": q, "why_tests_cant": w, "anchors": a.split(',')}
rows = [r for r in rows if r['id'] != i] + [o]
rows.sort(key=lambda r: r['id'])
open(p, 'w').write(''.join(json.dumps(r) + '\n' for r in rows))
