# Writes seeded/LOG.jsonl from the results of tools/run.py: seedlog.py DIR (the directory with mut, mut2, mut3)
import json,sys,os
base=sys.argv[1] if len(sys.argv)>1 else '/tmp'
F=['mut/r1','mut/r2','mut/r3','mut/ra1','mut/ra1s','mut/ra2s','mut/ra3','mut/r4','mut/r5','mut/r6','mut/r8','mut2/r7','mut2/rc1','mut2/rc2','mut2/rc3','mut3/rcal','mut3/rf','mut3/rmom','mut3/rnew']
# survivors that change no claim
HARMLESS={
 'splitScheme':'every URL of a request has an endpoint, which begins with a slash; no slash is part of a scheme, so a text without a colon has none either way: equivalent for all requests',
 'urlparse':'differs only for addresses with a query or fragment; C133 is about addresses without, and no endpoint has one: no claim changes',
 'SwapWorld.afterCreate':'the balance is computed anew for every operation; the created outputs are entered into a balance that is dropped afterwards: equivalent for every observable effect',
 'DataArg.truthy':'the value is None only where both branches do the same: equivalent',
 'Signature.arg':'the fixed size of the argument is not looked at by the setter (it checks the value): equivalent',
 'setDataArg':'only the class of the exception changes, and only for an impossible argument (a list of outputs)',
 'stripUnit':'three characters "TFT" leave an empty text, which is refused as well: equivalent',
 'floats':'JSON numbers with a fraction or exponent are outside of the model (C122), both ways of it are reported as not modelled',
 'jsonLoads':'more fuel than is needed: equivalent',
 'jsonNumber':'only which kind of refusal',
 'BalHeap.multiAt':'value for a reference to nothing, which no heap of a program has: equivalent',
 'spaceRests':'order of the alternatives for white space: equivalent for the texts accepted and what they mean',
 'AnyBalance.add':'address of a balance that stays the same: equivalent',
 'roundEven':'ties: within the stated error margins, and exact where C131 says so: harmless',
 'dateClean':'equivalent on texts that pass the checks before',
 'durClean':'equivalent on texts that pass the checks before',
}
BYHAND={
 ('Json.has',):['C127_transaction'],('Json.isNullOrEmpty',):['C127_transaction'],
 ('erc20All',):['C103_answered'],
 ('BVal.falsy',):['C119_blockid_refused'],
}
out=[]; seen={}; killed={}; infra=0
for f in F:
    p=os.path.join(base,f+'.jsonl')
    if not os.path.exists(p): continue
    for l in open(p):
        d=json.loads(l)
        if d['status'] not in('killed','survived'): continue
        fl=d.get('failed') or []
        if any('MODEL:' in x for x in fl): continue
        k=(d['def'],d['old'],d['new'])
        k2=(f.split('/')[1][:2] if f.split('/')[1] in('r1','r2','r3') else f, d['id'])
        ex=[x for x in fl if '.example@' in x]
        th=[x for x in fl if '.example@' not in x]
        name=d['def'].split('.')[-1] if d['def'].startswith(d['file']) else d['def']
        claim=d.get('claim') or 'auto'
        if claim=='auto':
            claim='behaviour of %s: %s -> %s'%(d['def'],(d.get('line') or '').strip(),(d.get('newline') or '').strip())
        e=dict(definition=d['def'] if d['def'].startswith(d['file']) else d['file']+'.'+d['def'],
               edit={'old':d.get('line') or d['old'],'new':d.get('newline') or d['new']}, claim_broken=claim,
               outcome='caught' if d['status']=='killed' else 'not caught',
               theorems_failed=th+(['%d witness examples'%len(ex)] if ex else []), theorems_tightened=[])
        prev=seen.get(k)
        if prev and prev['outcome']=='not caught' and d['status']=='killed': e['theorems_tightened']=th; prev['outcome']='not caught (see later entry)'
        if prev and prev['outcome']==e['outcome']: continue
        seen[k]=e; out.append(e)
for e in out:
    if e['outcome']=='not caught':
        for h,t in HARMLESS.items():
            if e['definition'].split('.')[-1]==h.split('.')[-1]: e['note']=t
        for hs,ths in BYHAND.items():
            if e['definition'].split('.')[-1]==hs[0].split('.')[-1]: e['theorems_tightened']=ths; e['outcome']='not caught (theorem added afterwards)'
here=os.path.dirname(os.path.abspath(__file__))
with open(os.path.join(here,'../seeded/LOG.jsonl'),'w') as o:
    for e in out: o.write(json.dumps(e,ensure_ascii=False)+'\n')
print(len(out),sum(e['outcome']=='caught' for e in out),sum(bool(e['theorems_tightened']) for e in out))
for e in out:
    if e['outcome']=='not caught' and 'note' not in e: print(e['definition'],e['claim_broken'][:150])
