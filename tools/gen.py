#!/usr/bin/env python3
"""Regenerates Verif/Axioms.lean and MANIFEST.json from theorem names C<nn>_... in Verif/Props."""
import re,glob,json,os,sys
os.chdir('/verif')
thms={}
mods=[]
for f in sorted(glob.glob('lean/Verif/Props/*.lean')):
    s=open(f).read()
    ts=re.findall(r'^theorem (C(\d+)_\w+)',s,re.M)
    if ts: mods.append(f[len('lean/'):-5].replace('/','.'))
    for t,n in ts: thms.setdefault('C'+n,[]).append('Artemis.'+t)
notes=json.load(open('/verif/tools/notes.json')) if os.path.exists('/verif/tools/notes.json') else {}
with open('lean/Verif/Axioms.lean','w') as o:
    for m in mods: o.write(f'import {m}\n')
    o.write('\n/-! Prints the axioms each property theorem depends on. Generated list of all theorems in `Verif/Props`. -/\n\n')
    for c in sorted(thms):
        for t in thms[c]: o.write(f'#print axioms {t}\n')
claims=[]
for l in open('properties.jsonl'):
    d=json.loads(l); c=d['id']
    n=notes.get(c,{})
    ts=thms.get(c,[])
    st=n.get('status') or ('proved' if ts else 'not_applicable')
    if ts==[] and c not in notes: continue
    claims.append({'property':c,'status':st,'theorems':ts,'note':n.get('note', '' if ts else 'Not modelled yet.')})
json.dump({'claims':claims},open('MANIFEST.json','w'),indent=1,ensure_ascii=False)
print({c:len(t) for c,t in thms.items()})
miss=[c['property'] for c in claims if not c['theorems']]
print('missing',miss)
