import json,sys
def load(): return [json.loads(l) for l in open('/verif/properties.jsonl') if l.strip()]
def save(props): open('/verif/properties.jsonl','w').write(''.join(json.dumps(p)+'\n' for p in props))
def add(id,title,st,q,w,a):
    props=load()
    if id not in [p['id'] for p in props]:
        props.append(dict(id=id,title=title,statement=st,quantifier=q,why_tests_cant=w,anchors=a)); save(props)
def note(d):
    n=json.load(open('/verif/tools/notes.json')); n.update(d); json.dump(n,open('/verif/tools/notes.json','w'),indent=1,sort_keys=True)
def imports(ms):
    v=open('/verif/lean/Verif.lean').read()
    for m in ms:
        if f'import {m}\n' not in v: v+=f'import {m}\n'
    open('/verif/lean/Verif.lean','w').write(v)
