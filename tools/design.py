#!/usr/bin/env python3
"""Writes DESIGN.md: hand-written sections, and tables generated from properties.jsonl, MANIFEST.json and tools/notes.json."""
import json,re,os,glob
V='/verif'
props=[json.loads(l) for l in open(V+'/properties.jsonl')]
man={c['property']:c for c in json.load(open(V+'/MANIFEST.json'))['claims']}
notes=json.load(open(V+'/tools/notes.json'))
plan=json.load(open(V+'/tools/plan.json'))   # property -> [model, how]
where={}
for f in sorted(glob.glob(V+'/lean/Verif/Props/*.lean')):
    for m in re.finditer(r'^theorem (C\d+\w*)',open(f).read(),re.M): where[m.group(1)]=os.path.basename(f)[:-5]
head=open(V+'/tools/design_head.md').read()
out=[head.rstrip(),'','## Plan and result per property','',
 'Model: the modules of `lean/Verif/Model` the property is about. Proof: how it is proved. Result: `proved`, or `partial` when the',
 'full statement is false of the code (then the negation is proved, suffix `_false`, `_raises`, ... , and what remains true is proved',
 'with suffix `_partial`) or when a bound remains; the last column says which.','',
 '| id | title | model | proof | theorems in | result |','|---|---|---|---|---|---|']
for p in props:
    k=p['id']; c=man.get(k)
    pl=plan.get(k,['',''])
    files=sorted({where.get(t.split('.')[-1],'?') for t in (c['theorems'] if c else [])})
    n=notes.get(k,''); n=n if isinstance(n,str) else n['note']
    out.append('| %s | %s | %s | %s | %s | %s |'%(k,p['title'],pl[0],pl[1],', '.join('Props/'+f for f in files),((c['status'] if c else 'none')+'. '+n).replace('|','\\|')))
out+=['',open(V+'/tools/design_tail.md').read().rstrip(),'']
open(V+'/DESIGN.md','w').write('\n'.join(out))
