#!/usr/bin/env python3
"""Lists model definitions that no property theorem mentions, directly or through other declarations (by name)."""
import os, re, collections
R='/verif/lean/Verif'
decls={}; 
for root,_,fs in os.walk(R):
    for f in fs:
        if not f.endswith('.lean'): continue
        mod=os.path.relpath(os.path.join(root,f),R)
        cur=None
        for line in open(os.path.join(root,f)).read().split('\n'):
            k=re.match(r"(?:private |noncomputable |@\[[^\]]*\] )*(theorem|def|abbrev|inductive|structure|instance)\s+([\w.?'₁-₉]+)",line)
            if k: cur=(mod,k.group(2),k.group(1)); decls[cur]=[]
            elif re.match(r'example|namespace|end\b|/--|/-!',line): cur=None
            if cur: decls[cur].append(line)
byname=collections.defaultdict(list)
for d in decls: byname[d[1].split('.')[-1]].append(d)
stmt={}
for d,t in decls.items():
    txt='\n'.join(t)
    if d[2]=='theorem':
        i=txt.find(':= by'); j=txt.find(':=\n')
        c=[x for x in (i,j) if x>=0]
        txt=txt[:min(c)] if c else txt
    stmt[d]=set(re.findall(r"[\w'?₁-₉]+",txt))
seen=set(d for d in decls if re.match(r'C\d\d_',d[1])); todo=list(seen)
while todo:
    d=todo.pop()
    for w in stmt[d]:
        for e in byname.get(w,[]):
            if e[0].split('/')[0]==d[0].split('/')[0] and e not in seen and e[2]!='theorem': seen.add(e); todo.append(e)
for d in sorted(decls):
    if d[0].endswith('Model.lean') and d[2] in('def','inductive','structure') and d not in seen: print(d[0],d[1])
