#!/usr/bin/env python3
"""Applies an edit to the model in a scratch copy and reports which theorems fail.

usage: seed.py mutants.jsonl   (one JSON object per line: file, old, new, definition, edit, claim)
Failing proofs are replaced by `sorry` in the scratch copy, round by round, until everything that
still elaborates is built; a manifest theorem counts as failed if it was replaced itself or depends
on a replaced one.  Results are appended to /tmp/seedwork/results.jsonl.
"""
import json,os,re,subprocess,sys,shutil
SRC=os.environ.get('SEED_SRC','/verif/lean'); DST=os.environ.get('SEED_DST','/tmp/seedwork/lean')
OUT=os.environ.get('SEED_OUT','/tmp/seedwork/results.jsonl')
START=re.compile(r'^(@\[.*\]\s*)?(private |protected |noncomputable )*(theorem|lemma|example|def|abbrev|instance|structure|inductive|end|namespace|open|section|variable|set_option|attribute|local|/--|/-!|/-|#)')
DECL=re.compile(r'^(@\[.*\]\s*)?(private |protected |noncomputable )*(theorem|lemma|example|def|abbrev|instance)\b\s*(\S*)')
def sync():
    """restores changed sources, keeps the build output; lean gets a memory limit"""
    os.makedirs(DST,exist_ok=True)
    if not os.path.exists(DST+'/.lake'):
        subprocess.run(['cp','-a',SRC+'/.',DST],check=True)
    for root,_,fs in os.walk(SRC):
        if '.lake' in root: continue
        for f in fs:
            s=os.path.join(root,f); d=DST+s[len(SRC):]
            os.makedirs(os.path.dirname(d),exist_ok=True)
            b=open(s,'rb').read()
            if f=='lakefile.toml': b=b.rstrip()+b'\nmoreLeanArgs = ["-M","6500"]\n'
            if not os.path.exists(d) or open(d,'rb').read()!=b: open(d,'wb').write(b)
def build(target=None):
    r=subprocess.run(['lake','build']+([target] if target else []),cwd=DST,capture_output=True,text=True)
    o=r.stdout+r.stderr
    errs=[]
    for m in re.finditer(r'^error: (Verif\S*\.lean):(\d+):\d+: (.*)',o,re.M):
        errs.append((m.group(1),int(m.group(2)),m.group(3)))
    return r.returncode,errs,o
def depth0(text):
    d=0;i=0
    while i<len(text):
        c=text[i]
        if c in '([{⟨': d+=1
        elif c in ')]}⟩': d-=1
        elif d==0 and text.startswith(':=',i):
            return i
        elif d==0 and text.startswith('\n  | ',i): return i
        i+=1
    return None
def sorry_at(f,line):
    p=os.path.join(DST,f); L=open(p).read().split('\n')
    i=line-1
    while i>=0 and not DECL.match(L[i]): i-=1
    if i<0: return None
    j=i+1
    while j<len(L) and not START.match(L[j]): j+=1
    m=DECL.match(L[i]); kind,name=m.group(3),m.group(4)
    body='\n'.join(L[i:j])
    if kind in('def','abbrev','instance'): return ('DEF',name,f,line)
    if kind=='example':
        new='example : True := trivial'
        # keep line count
    else:
        k=depth0(body)
        if k is None: return ('NOPARSE',name,f,line)
        new=body[:k]+' := by sorry'
        if body.rstrip()==new.rstrip(): return ('STATEMENT',name,f,line)
    pad=body.count('\n')-new.count('\n')
    L[i:j]=(new+'\n'*pad).split('\n')
    open(p,'w').write('\n'.join(L))
    return (kind,name if kind!='example' else 'example@%s:%d'%(f,i+1),f,line)
def run(mu):
    sync()
    edits=mu.get('edits') or [dict(file=mu['file'],old=mu['old'],new=mu['new'])]
    for e in edits:
        p=os.path.join(DST,e['file']); t=open(p).read()
        assert t.count(e['old'])==1,(e['old'],t.count(e['old']))
        open(p,'w').write(t.replace(e['old'],e['new']))
    replaced=[];problems=[]
    for rnd in range(60):
        rc,errs,o=build()
        if rc==0: break
        if not errs:
            mods=re.findall(r'^- (Verif\S+)$',o,re.M)
            if not mods or any(('module',m) in problems for m in mods):
                problems.append(o[-500:]);break
            for m in mods:
                # the module ran out of memory: all its proofs are replaced
                problems.append(('module',m))
                f=m.replace('.','/')+'.lean'
                n=len(open(os.path.join(DST,f)).read().split('\n'))
                for l in range(n,0,-1):
                    if re.match(r'(private )?(theorem|example)',open(os.path.join(DST,f)).read().split('\n')[l-1]):
                        r=sorry_at(f,l)
                        if r and r[1] not in replaced: replaced.append(r[1])
            continue
        seen=set();prog=False
        for f,l,msg in sorted(errs,key=lambda x:(x[0],-x[1])):
            r=sorry_at(f,l)
            if r is None: problems.append((f,l,msg));continue
            if r[0] in('DEF','NOPARSE','STATEMENT'): problems.append(r);continue
            if (r[1]) in seen: continue
            seen.add(r[1]);prog=True
            if r[1] not in replaced: replaced.append(r[1])
        if not prog: break
    ok=rc==0
    man=json.load(open('/verif/MANIFEST.json'))
    ths=sorted({t for c in man['claims'] for t in c['theorems']})
    failed=[]
    if ok:
        src='import Verif\n'+''.join('#print axioms %s\n'%t for t in ths)
        open(DST+'/SeedAx.lean','w').write(src)
        o=subprocess.run(['lake','env','lean','SeedAx.lean'],cwd=DST,capture_output=True,text=True).stdout
        os.remove(DST+'/SeedAx.lean')
        o=re.sub(r'\n\s+',' ',o)
        for m in re.finditer(r"'(\S+)' depends on axioms: \[([^\]]*)\]",o):
            if 'sorryAx' in m.group(2): failed.append(m.group(1).replace('Verif.',''))
    res=dict(definition=mu['definition'],edit=mu['edit'],claim=mu['claim'],failed=failed,replaced=replaced,ok=ok,problems=problems)
    with open(OUT,'a') as g: g.write(json.dumps(res,ensure_ascii=False)+'\n')
    print(json.dumps(res,ensure_ascii=False)[:1500],flush=True)
if __name__=='__main__':
    for line in open(sys.argv[1]):
        if line.strip():
            try: run(json.loads(line))
            except AssertionError as e: print('BAD EDIT',e,flush=True)
