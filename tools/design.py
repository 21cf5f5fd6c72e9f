#!/usr/bin/env python3
"""Regenerates /verif/DESIGN.md from design_head.md, plan.json, notes.json, properties.jsonl, MANIFEST.json
and the output of `lake env lean /tmp/w/axioms.lean` (argument)."""
import json, re, sys, os
root = os.path.join(os.path.dirname(os.path.abspath(__file__)), '..')
head = open(root + '/tools/design_head.md').read()
plan = json.load(open(root + '/tools/plan.json'))
man = {c['property']: c for c in json.load(open(root + '/MANIFEST.json'))['claims']}
props = [json.loads(l) for l in open(root + '/properties.jsonl') if l.strip()]
ax = {}
for m in re.finditer(r"'([\w.]+)' (?:depends on axioms: \[([^\]]*)\]|does not depend on any axioms)", open(sys.argv[1]).read()):
    ax[m.group(1)] = [a.strip() for a in (m.group(2) or '').split(',') if a.strip()]
out = [head, '\n## 5. Plan and result per property\n\n',
       'Status: *proved* = the whole English statement is a theorem; *partial* = the statement as a user would like it is false of the code or only a part is proved; the theorems with suffix `_partial` are what holds, the other named theorems show (on a concrete execution) why no more holds.\n\n']
for p in props:
    c = man[p['id']]
    pl = plan.get(p['id'], {})
    out.append(f"**{p['id']} — {p['title']}** ({c['status']}).  Model: {pl.get('model','')}.  Proof: {pl.get('proof','')}." + (f"  {c['note']}" if c['note'] else '') + '\n\n')
short = {'propext': 'P', 'Classical.choice': 'C', 'Quot.sound': 'Q'}
out.append('\n## 6. Axioms of each theorem\n\nP = `propext`, C = `Classical.choice`, Q = `Quot.sound`, – = none. From `#print axioms`; no other axiom occurs.\n\n| Property | Theorem | Axioms |\n|---|---|---|\n')
for p in props:
    for t in man[p['id']]['theorems']:
        a = ax[t]
        assert all(x in short for x in a), (t, a)
        out.append(f"| {p['id']} | `{t}` | {''.join(short[x] for x in a) or '–'} |\n")
open(root + '/DESIGN.md', 'w').write(''.join(out))
print('missing plan:', [p['id'] for p in props if p['id'] not in plan])
