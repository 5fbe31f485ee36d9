#!/bin/bash
# writes AXIOMS.md: axioms every manifest theorem depends on (needs a finished lake build)
cp /verif/tools/axioms_lean.txt /tmp/axioms.lean
cd /verif/lean && lake env lean /tmp/axioms.lean > /tmp/ax.txt 2>&1
python3 - <<'P'
import re,json,collections
g=collections.defaultdict(list)
for l in open('/tmp/ax.txt'):
    m=re.match(r'(?:.*info: )?(\S+) : \[(.*)\]\s*$',l)
    if not m: continue
    n=m.group(1).split('.')[-1]
    if re.match(r'c\d\d+_',n): g[m.group(2) or 'none'].append(m.group(1))
o=open('/verif/AXIOMS.md','w')
o.write('# Axioms each theorem depends on\n\nGenerated by tools/mk_axioms.sh from the compiled environment (`collectAxioms`).\n')
for k in sorted(g,key=len):
    o.write('\n## %s (%d theorems)\n\n'%(k,len(g[k])))
    for n in sorted(g[k],key=lambda s:(int(re.search(r'c(\d+)_',s.split('.')[-1]).group(1)),s)): o.write('* `%s`\n'%n)
print({k:len(v) for k,v in g.items()})
P
