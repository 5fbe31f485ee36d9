#!/usr/bin/env python3
"""Regenerate MANIFEST.json from the theorem names cNN_* in lean/Verif/Props (suffix _partial ->
partial unless the property also has full theorems) and notes in tools/notes.json."""
import re,json,glob,collections
props=[json.loads(l)["id"] for l in open('/verif/properties.jsonl') if l.strip()]
notes=json.load(open('/verif/tools/notes.json'))
th=collections.defaultdict(list)
for f in sorted(glob.glob('/verif/lean/Verif/Props/**/*.lean',recursive=True)):
    ns=[]
    for line in open(f):
        m=re.match(r'\s*namespace\s+(\S+)',line)
        if m: ns.append(m.group(1)); continue
        m=re.match(r'\s*end\s+(\S+)\s*$',line)
        if m and ns and ns[-1]==m.group(1): ns.pop(); continue
        m=re.match(r'\s*theorem\s+(c(\d+)_\S+)',line)
        if m: th['C'+m.group(2)].append('.'.join(ns+[m.group(1)]))
claims=[]
for p in props:
    t=th.get(p,[])
    n=notes.get(p,{})
    if not t and not n: continue
    st=n.get('status') or ('partial' if any(x.endswith('_partial') for x in t) else 'proved')
    claims.append(dict(property=p,status=st,theorems=t,note=n.get('note','')))
json.dump({"claims":claims},open('/verif/MANIFEST.json','w'),indent=1)
print(len(claims),'claims',sum(len(c['theorems']) for c in claims),'theorems; missing',[p for p in props if p not in [c['property'] for c in claims]])
print('unknown',[k for k in th if k not in props])
