#!/usr/bin/env python3
"""Convert mutation-run outputs (JSON lines of the harness) to seeded/LOG.jsonl lines. usage: mutlog.py out..."""
import json,sys,os
root=os.path.dirname(os.path.dirname(os.path.abspath(__file__)))
tight=json.load(open(root+'/tools/tightened.json'))
with open(root+'/seeded/LOG.jsonl','w') as o:
    for f in sys.argv[1:]:
        for l in open(f):
            r=json.loads(l)
            failed=[e.split(':')[1] for e in r['errors']]
            t=tight.get(r['id'],{})
            o.write(json.dumps(dict(id=r['id'],definition=f"Verif/Model/{r['file']}.lean: {r['defn']}",edit=r['edit'],claim=r['claim'],
              failed=failed, theorems_failed=r['hit'], survived=not r['hit'], tightened=t.get('tightened',[]),note=t.get('note','')),ensure_ascii=False)+'\n')
    for x in tight.get('extra',[]): o.write(json.dumps(x,ensure_ascii=False)+'\n')
