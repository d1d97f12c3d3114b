#!/usr/bin/env python3
"""usage: addnote.py C36 proved 'note' [C37 proved 'note' ...]"""
import json,sys,os
os.chdir(os.path.dirname(os.path.abspath(__file__)))
d=json.load(open('notes.json')); a=sys.argv[1:]
for i in range(0,len(a),3): d[a[i]]={"status":a[i+1],"note":a[i+2]}
json.dump(d,open('notes.json','w'),indent=0)
