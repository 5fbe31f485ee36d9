#!/usr/bin/env python3
"""Run seeded edits of the model in a scratch copy and report which theorems fail.
usage: mutate.py muts.json [out.jsonl]
muts.json: list of {def, file (under lean/), old, new, edit, claim}"""
import json,sys,subprocess,re,os,shutil
SCR='/tmp/mut/lean'
muts=json.load(open(sys.argv[1])); out=sys.argv[2] if len(sys.argv)>2 else '/tmp/mut/out.jsonl'
subprocess.run(['rsync','-a','--delete','--exclude','.lake','/verif/lean/',SCR+'/']) if shutil.which('rsync') else subprocess.run("cd /verif/lean && find . -path ./.lake -prune -o -type f -print | while read f; do cmp -s $f %s/$f || install -D $f %s/$f; done"%(SCR,SCR),shell=True)
def enclosing(f,ln):
    L=open(os.path.join(SCR,f)).read().split('\n')
    for i in range(ln-1,-1,-1):
        m=re.match(r'(?:@\[.*?\]\s*)?(?:private |protected |noncomputable )*(theorem|lemma|example|def|instance|abbrev|structure|inductive)\b\s*(\S*)',L[i])
        if m:
            return m.group(1)+(' '+m.group(2) if m.group(1)!='example' else ' @%s:%d'%(f,i+1))
    return '?'
for k,m in enumerate(muts):
    p=os.path.join(SCR,m['file']); src=open(p).read()
    n=src.count(m['old'])
    if n!=m.get('count',1):
        print(k,m['def'],'OLD OCCURS',n); continue
    open(p,'w').write(src.replace(m['old'],m['new']))
    for attempt in range(3):
        r=subprocess.run(['lake','build'],cwd=SCR,capture_output=True,text=True)
        t=r.stdout+r.stderr
        errs=[]
        for e in re.finditer(r'error: (Verif/\S+?\.lean):(\d+):\d+: ?(.*)',t):
            nm=enclosing(e.group(1),int(e.group(2)))
            if nm not in errs: errs.append(nm)
        if r.returncode==0 or errs: break  # otherwise a prover was killed: retry
    open(p,'w').write(src)
    ths=[e.split(' ',1)[1] for e in errs if e.split()[0] in('theorem','lemma')]
    oth=[e for e in errs if e.split()[0] not in('theorem','lemma')]
    status='KILLED' if ths else ('EXAMPLE-ONLY' if oth else ('SURVIVED' if r.returncode==0 else 'TOOLFAIL'))
    print(k,m['def'],'|',m['edit'],'|',status,ths,oth,flush=True)
    open(out,'a').write(json.dumps({**m,'status':status,'theorems_failed':ths,'other_failed':oth})+'\n')
