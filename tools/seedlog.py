"""Turn mutation logs (JSON lines) into seeded/LOG.jsonl entries.  Usage: seedlog.py LOG... ; tightened notes in tools/tightened.json"""
import json,sys,os
here=os.path.dirname(os.path.abspath(__file__))
tp=os.path.join(here,'tightened.json')
T=json.load(open(tp)) if os.path.exists(tp) else {}
out=open(os.path.join(here,'..','seeded','LOG.jsonl'),'w')
for f in sys.argv[1:]:
    for l in open(f):
        d=json.loads(l)
        k=d['definition']+': '+d['edit']
        t=T.get(k,{})
        e={'file':'lean/Verif/'+d['file'],'definition':d['definition'],'edit':d['edit'],'claim_broken':t.get('claim',d['claim']),
           'failed':d['failed'],'tightened':t.get('tightened',[])}
        if 'note' in t: e['note']=t['note']
        elif not d['failed']: print('UNEXPLAINED',k)
        out.write(json.dumps(e)+'\n')
