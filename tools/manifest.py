#!/usr/bin/env python3
"""Regenerates MANIFEST.json. Each claim lists the property theorems found in lean/Verif/Props."""
import json,re,glob,os
os.chdir(os.path.join(os.path.dirname(__file__),'..'))
NOTES=json.load(open('tools/notes.json'))
names={}
for f in sorted(glob.glob('lean/Verif/Props/*.lean')+glob.glob('lean/Verif/Lemmas/*.lean')):
    for m in re.finditer(r'^theorem (C\d\d\w*)',open(f).read(),re.M):
        names.setdefault(m.group(1)[:3],[]).append('Vroom.'+m.group(1))
ids=[json.loads(l)['id'] for l in open('properties.jsonl')]
claims=[]
for i in ids:
    n=NOTES.get(i)
    if i in names and n:
        claims.append({"property":i,"status":n["status"],"theorems":names[i],"note":n["note"]})
    elif i in names: print('no note',i)
    elif n: claims.append({"property":i,"status":n["status"],"theorems":[],"note":n["note"]})
    else: print('missing',i)
json.dump({"claims":claims},open('MANIFEST.json','w'),indent=1)
print(len(claims),sum(len(c['theorems']) for c in claims))
