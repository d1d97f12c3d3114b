"""Regenerate the axiom table at the end of DESIGN.md (needs a built project)."""
import json,os,re,subprocess,tempfile
root=os.path.join(os.path.dirname(os.path.abspath(__file__)),'..')
m=json.load(open(os.path.join(root,'MANIFEST.json')))
src='import Verif\n'+''.join(f'#print axioms {t}\n' for c in m['claims'] for t in c['theorems'])
f=tempfile.NamedTemporaryFile('w',suffix='.lean',delete=False); f.write(src); f.close()
o=subprocess.run(['lake','env','lean',f.name],cwd=os.path.join(root,'lean'),capture_output=True,text=True).stdout
o=re.sub(r'\s+',' ',o)
d={}
for n,a in re.findall(r"'([^']+)' (depends on axioms: \[[^\]]*\]|does not depend on any axioms)",o):
    d.setdefault(a.replace('depends on axioms: ','').replace('does not depend on any axioms','none').strip('[]'),[]).append(n)
t='## Axioms per theorem (generated by tools/axioms.py)\n\n'
for a in sorted(d): t+=f'**{a}**: '+', '.join(sorted(n.replace('Vroom.','') for n in set(d[a])))+'\n\n'
p=os.path.join(root,'DESIGN.md'); s=open(p).read()
i=s.find('## Axioms per theorem')
if i>=0: s=s[:i]
open(p,'w').write(s.rstrip('\n')+'\n\n'+t)
print({a:len(v) for a,v in d.items()})
