import json,re,glob,os
props=[json.loads(l) for l in open('/verif/properties.jsonl')]
th={}
for f in sorted(glob.glob('/verif/lean/Verif/Props/*.lean')):
    t=open(f).read()
    for m in re.finditer(r'^(?:private |protected |noncomputable )*theorem (C(\d+)_\w*)',t,re.M):
        th.setdefault('C'+m.group(2),[]).append('LHF.'+m.group(1))
notes={}
if os.path.exists('/verif/notes.json'): notes=json.load(open('/verif/notes.json'))
claims=[]
for p in props:
    i=p['id']; ts=th.get(i,[])
    n=notes.get(i,'')
    if not ts:
        st='not_applicable' if n.startswith('NA:') else 'partial'
        if n.startswith('NA:'): n=n[3:].strip()
        elif not n: n='Not proved yet.'
    else:
        st='partial' if any(t.endswith('_partial') or '_partial' in t for t in ts) or n.startswith('PARTIAL:') else 'proved'
        if n.startswith('PARTIAL:'): n=n[8:].strip()
    claims.append({"property":i,"status":st,"theorems":ts,"note":n})
json.dump({"claims":claims},open('/verif/MANIFEST.json','w'),indent=1)
from collections import Counter
print(Counter(c['status'] for c in claims), 'unproved:', [c['property'] for c in claims if not c['theorems'] and c['status']!='not_applicable'])
