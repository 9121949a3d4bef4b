#!/usr/bin/env python3
"""Rewrites section 4 of DESIGN.md from the manifest and tools/design_how.txt (`Cnn: how`)."""
import json,re
how={}
for l in open('/verif/tools/design_how.txt'):
    m=re.match(r'(C\d+): (.*)',l.strip())
    if m: how[m.group(1)]=m.group(2)
props={}
for l in open('/verif/properties.jsonl'):
    d=json.loads(l); props[d['id']]=d
man={c['property']:c for c in json.load(open('/verif/MANIFEST.json'))['claims']}
s=open('/verif/DESIGN.md').read()
mark='<!-- generated by tools/mkdesign.py -->'
tail=''
if mark in s:
    i=s.index(mark); s=s[:i]
out=[s.rstrip('\n'),'',mark]
for k in sorted(props):
    c=man.get(k)
    st=c['status'] if c else 'open'
    out.append('')
    out.append(f"**{k} {props[k]['title']}** ({st}).  {how.get(k,'')}")
    if c:
        if c.get('note'): out.append(f"Scope: {c['note']}.")
        out.append('Theorems: '+', '.join('`%s`'%t for t in c['theorems'])+'.')
    if k not in how: print('no text for',k)
open('/verif/DESIGN.md','w').write('\n'.join(out)+'\n')
