#!/usr/bin/env python3
"""Mutation test of the model: mutate.py SPEC.json
SPEC is a list of {"file": "Model/X.lean", "def": name, "old": text, "new": text, "edit": words,
"claim": "Cnn ...", "targets": ["Verif.Props.X"]}.  Each edit is applied to a scratch copy outside
/verif, the targets are rebuilt and one line is appended to seeded/LOG.jsonl."""
import json, os, re, subprocess, sys, time
root = os.path.dirname(os.path.dirname(os.path.abspath(__file__)))
scratch = os.environ.get('SCRATCH', '/tmp/mut')
log = root + '/seeded/LOG.jsonl'

def sync():
    os.makedirs(scratch, exist_ok=True)
    subprocess.run(['rsync', '-a', '--delete', root + '/lean/', scratch + '/lean/'], check=True) \
        if subprocess.run(['which', 'rsync'], capture_output=True).returncode == 0 else \
        subprocess.run(f'rm -rf {scratch}/lean && cp -a {root}/lean {scratch}/lean', shell=True, check=True)

def enclosing(path, line):
    name = None
    for i, l in enumerate(open(path), 1):
        m = re.match(r'\s*(?:private\s+|@\[[^]]*\]\s*)*(theorem|lemma|def|example|instance)\s*([^\s:({\[]*)', l)
        if m:
            name = m.group(2) or f'{m.group(1)}@{os.path.basename(path)}:{i}'
        if i >= line:
            return name
    return name

def deps(f, seen=None):
    return [m.replace('.', '/') + '.lean' for m in re.findall(r'^import (Verif\S*)', open(f).read(), re.M)]

sync()
for s in json.load(open(sys.argv[1])):
    p = f"{scratch}/lean/Verif/{s['file']}"
    orig = open(p).read()
    if orig.count(s['old']) < 1:
        print('NOT FOUND', s); continue
    open(p, 'w').write(orig.replace(s['old'], s['new'], 1))
    t0 = time.time()
    r = subprocess.run(['lake', 'build'] + s['targets'], cwd=scratch + '/lean', capture_output=True, text=True)
    out = r.stdout + r.stderr
    failed, badmods = [], set()
    for m in re.finditer(r'^error: (Verif/\S+\.lean):(\d+)', out, re.M):
        badmods.add(m.group(1)); n = enclosing(f"{scratch}/lean/{m.group(1)}", int(m.group(2)))
        if n and n not in failed: failed.append(n)
    for m in re.finditer(r'^- (Verif\.\S+)', out, re.M):
        if not failed: failed.append(m.group(1) + ' (elaboration did not finish)')
    # property theorems in modules that depend on a failed one cannot be checked any more
    blocked = []
    def reach(f, seen):
        if f in seen: return seen
        seen.add(f)
        for d in deps(f"{scratch}/lean/{f}"): reach(d, seen)
        return seen
    for t in s['targets']:
        f = t.replace('.', '/') + '.lean'
        rs = reach(f, set()) - {f}
        if rs & badmods:
            blocked += re.findall(r'^theorem (C\d+_\w+)', open(f"{scratch}/lean/{f}").read(), re.M)
    open(p, 'w').write(orig)
    rec = {"definition": s['def'], "edit": s['edit'], "claim": s['claim'], "failed": failed,
           "not_reached": blocked, "tightened": s.get('tightened', [])}
    if r.returncode == 0:
        rec["failed"] = []; rec["note"] = 'survived the build of ' + ', '.join(s['targets'])
        print('*** SURVIVED', s['def'], s['edit'])
    else:
        print('killed', s['def'], '|', s['edit'], '|', failed[:4], f'{time.time()-t0:.0f}s')
    open(log, 'a').write(json.dumps(rec) + '\n')
