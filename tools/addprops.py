import json,sys
# usage: addprops.py file.json  (list of dicts) -> append/replace in properties.jsonl
P='/verif/properties.jsonl'
cur=[json.loads(l) for l in open(P) if l.strip()]
idx={d['id']:i for i,d in enumerate(cur)}
for d in json.load(open(sys.argv[1])):
    if d['id'] in idx: cur[idx[d['id']]].update(d)
    else:
        for k in ('title','statement','quantifier','why_tests_cant','anchors'): assert k in d,(d['id'],k)
        cur.append(d)
cur.sort(key=lambda d:int(d['id'][1:]))
open(P,'w').write(''.join(json.dumps(d)+'\n' for d in cur))
print(len(cur))
