#!/usr/bin/env python3
"""addlog.py out.jsonl [tight.json]  -- append results to /verif/seeded/LOG.jsonl
tight.json: {index: [theorems tightened]}"""
import json,sys,re
man=json.load(open('/verif/MANIFEST.json'))
th={c['property']:c['theorems'] for c in man['claims']}
tight=json.load(open(sys.argv[2])) if len(sys.argv)>2 else {}
log=open('/verif/seeded/LOG.jsonl','a')
for l in open(sys.argv[1]):
    d=json.loads(l)
    failed=d['failed']
    dep=[]
    if failed and not any(re.search(r':C\d\d+_',f) for f in failed):
        for c in re.findall(r'C\d\d+',d['claim']): dep+= [t.split('.')[-1] for t in th.get(c,[])]
    r={"definition":"Verif/"+d['file']+": "+d['definition'],"edit":d['edit'],"claim":d['claim'],
       "result":"killed" if d['rc'] else "survived",
       "theorems_failed":failed,"theorems_tightened":tight.get(str(d['i']),[])}
    if dep: r["theorems_resting_on_the_failed_lemmas"]=dep
    log.write(json.dumps(r,ensure_ascii=False)+"\n")
