#!/usr/bin/env python3
"""Regenerates /verif/MANIFEST.json from the Props files (theorems named Cnn_*) and notes.json."""
import re, json, glob, os
root = os.path.join(os.path.dirname(os.path.abspath(__file__)), '..')
thms = {}
for f in sorted(glob.glob(root + '/lean/Verif/**/*.lean', recursive=True)):
    ns = []
    for line in open(f):
        m = re.match(r'namespace (\S+)', line)
        if m: ns.append(m.group(1)); continue
        m = re.match(r'end (\S+)', line)
        if m and ns and ns[-1] == m.group(1): ns.pop(); continue
        m = re.match(r'(?:@\[[^\]]*\] )?theorem (C\d+\w*)', line)
        if m:
            cid = re.match(r'C\d+', m.group(1)).group(0)
            thms.setdefault(cid, []).append('.'.join(ns + [m.group(1)]))
notes = json.load(open(root + '/tools/notes.json'))
props = [json.loads(l) for l in open(root + '/properties.jsonl') if l.strip()]
claims = []
for p in props:
    n = notes.get(p['id'], {})
    t = thms.get(p['id'], [])
    st = n.get('status', 'proved')
    if not t:
        continue
    claims.append(dict(property=p['id'], status=st, theorems=t, note=n.get('note', '')))
json.dump({'claims': claims}, open(root + '/MANIFEST.json', 'w'), indent=1)
missing = [p['id'] for p in props if p['id'] not in thms]
print(len(claims), 'claims,', sum(len(c['theorems']) for c in claims), 'theorems; missing:', missing)
open('/tmp/w/axioms.lean', 'w').write('import Verif\n' + ''.join('#print axioms %s\n' % t for c in claims for t in c['theorems']))
