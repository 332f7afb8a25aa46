#!/usr/bin/env python3
"""Regenerates MANIFEST.json from the theorem names in lean/Verif/*Props*.lean and tools/notes.json."""
import json,re,glob,os
root=os.path.dirname(os.path.dirname(os.path.abspath(__file__)))
notes=json.load(open(root+'/tools/notes.json'))
thms={}
for f in sorted(glob.glob(root+'/lean/Verif/*.lean')):
    ns=[]
    for l in open(f):
        m=re.match(r'namespace\s+(\S+)',l)
        if m: ns.append(m.group(1))
        m=re.match(r'end\s+(\S+)',l)
        if m and ns and ns[-1]==m.group(1): ns.pop()
        m=re.match(r'theorem\s+(C\d\d)_(\S+)',l)
        if m: thms.setdefault(m.group(1),[]).append('.'.join(ns)+'.'+m.group(1)+'_'+m.group(2))
claims=[]
for l in open(root+'/properties.jsonl'):
    p=json.loads(l)['id']
    t=thms.get(p,[]); n=notes.get(p,{})
    if not t and n.get('status')!='not_applicable': continue
    st=n.get('status') or ('partial' if any(x.endswith('_partial') for x in t) else 'proved')
    claims.append({'property':p,'status':st,'theorems':t,'note':n.get('note','')})
json.dump({'claims':claims},open(root+'/MANIFEST.json','w'),indent=1,ensure_ascii=False)
print(len(claims),'claims')
