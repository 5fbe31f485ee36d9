import json,sys,subprocess
# usage: addgroup.py file.json : {"props":[...], "notes":{"Cxx":"..."}, "design":[["Cxx","model","how"],...]}
g=json.load(open(sys.argv[1]))
json.dump(g['props'],open('/tmp/_p.json','w')); subprocess.check_call(['python3','/verif/tools/addprops.py','/tmp/_p.json'])
P='/verif/tools/notes.json'; n=json.load(open(P))
for k,v in g.get('notes',{}).items(): n[k]={'note':v}
open(P,'w').write(json.dumps(n,indent=1))
D='/verif/DESIGN.md'; L=open(D).read().split('\n')
for c,m,h in g['design']:
    row=f'| {c} | {m} | {h} |'
    L=[l for l in L if not l.startswith(f'| {c} |')]
    k=max(i for i,l in enumerate(L) if l.startswith('| C') and l[3:4].isdigit())
    L.insert(k+1,row)
open(D,'w').write('\n'.join(L))
