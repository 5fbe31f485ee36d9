#!/usr/bin/env python3
"""append results of mutate.py to seeded/LOG.jsonl: logmut.py out.jsonl  (entries may carry 'tightened')"""
import json,sys
with open('/verif/seeded/LOG.jsonl','a') as o:
    for l in open(sys.argv[1]):
        d=json.loads(l)
        o.write(json.dumps({'definition':d['def'],'file':d['file'],'edit':d['edit'],'old':d['old'],'new':d['new'],'claim_broken':d['claim'],'theorems_failed':d['theorems_failed'],'other_failed':d.get('other_failed',[]),'theorems_tightened':d.get('tightened',[]),'note':d.get('note','')})+'\n')
