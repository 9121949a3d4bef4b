#!/usr/bin/env python3
"""Like seed.py, but one build per mutant: the first proofs that fail are found, and a manifest theorem
counts as failed if in the unchanged project it depends on one of them.  The build is stopped a while
after the first error, so the list of failed theorems is a lower bound.

usage: seedfast.py mutants.jsonl   (SEED_DST: scratch copy of lean/ with its build output; SEED_PRISTINE: a copy
with complete build output, from which SEED_DST is made anew for every mutant)
"""
import json,os,re,subprocess,sys,time,signal
SRC=os.environ.get('SEED_SRC','/verif/lean'); DST=os.environ.get('SEED_DST','/tmp/seedwork/lean')
OUT=os.environ.get('SEED_OUT','/tmp/seedwork/results.jsonl'); DEPS='/tmp/seedwork/deps.json'
GRACE=int(os.environ.get('SEED_GRACE','90')); LIMIT=int(os.environ.get('SEED_LIMIT','2400'))
DECL=re.compile(r'^(@\[.*\]\s*)?(private |protected |noncomputable )*(theorem|lemma|example|def|abbrev|instance|structure|inductive)\b\s*(\S*)')
def deps():
    """manifest theorem -> declarations of the project it depends on"""
    if os.path.exists(DEPS): return json.load(open(DEPS))
    man=json.load(open('/verif/MANIFEST.json'))
    ths=sorted({t for c in man['claims'] for t in c['theorems']})
    src='''import Verif
import Lean
open Lean
partial def go (env : Environment) (n : Name) (s : NameSet) : NameSet := Id.run do
  if s.contains n then return s
  let some c := env.find? n | return s
  let some i := env.getModuleIdxFor? n | return s
  unless (`Verif).isPrefixOf (env.header.moduleNames[i.toNat]!) do return s
  let mut s := s.insert n
  for m in c.getUsedConstantsAsSet do s := go env m s
  return s
#eval show CoreM Unit from do
  let env ← getEnv
  for t in [%s] do
    let s := go env t {}
    IO.println s!"{t} := {" ".intercalate (s.toList.map toString)}"
'''%', '.join('`'+t for t in ths)
    open('/tmp/seedwork/Deps.lean','w').write(src)
    o=subprocess.run(['lake','env','lean','/tmp/seedwork/Deps.lean'],cwd=SRC,capture_output=True,text=True).stdout
    d={}
    for m in re.finditer(r'^(\S+) := (.*)$',o,re.M): d[m.group(1).replace('Verif.','',1)]=m.group(2).split()
    assert len(d)==len(ths),(len(d),len(ths),o[:500])
    json.dump(d,open(DEPS,'w')); return d
def sync():
    if os.environ.get('SEED_PRISTINE'):
        subprocess.run(['rm','-rf',DST],check=True); subprocess.run(['cp','-a',os.environ['SEED_PRISTINE'],DST],check=True); return
    for root,_,fs in os.walk(SRC):
        if '.lake' in root: continue
        for f in fs:
            if f=='lakefile.toml': continue
            s=os.path.join(root,f); d=DST+s[len(SRC):]
            os.makedirs(os.path.dirname(d),exist_ok=True)
            b=open(s,'rb').read()
            if not os.path.exists(d) or open(d,'rb').read()!=b: open(d,'wb').write(b)
def decl(f,line):
    L=open(os.path.join(DST,f)).read().split('\n'); i=line-1
    while i>=0 and not DECL.match(L[i]): i-=1
    m=DECL.match(L[i]) if i>=0 else None
    return (m.group(3),m.group(4)) if m else ('?','?')
def run(mu,D):
    sync()
    for e in mu.get('edits') or [dict(file=mu['file'],old=mu['old'],new=mu['new'])]:
        p=os.path.join(DST,e['file']); t=open(p).read()
        assert t.count(e['old'])==1,(e['old'],t.count(e['old']))
        open(p,'w').write(t.replace(e['old'],e['new']))
    t0=time.time(); first=None; out=[]
    pr=subprocess.Popen(['lake','build']+mu.get('targets',[]),cwd=DST,stdout=subprocess.PIPE,stderr=subprocess.STDOUT,text=True,start_new_session=True)
    os.set_blocking(pr.stdout.fileno(),False)
    buf=''
    while True:
        try: c=pr.stdout.read()
        except Exception: c=None
        if c: buf+=c
        if first is None and re.search(r'^error: Verif(?!\/Conform)\S*\.lean:',buf,re.M): first=time.time()
        if pr.poll() is not None:
            c=pr.stdout.read()
            if c: buf+=c
            break
        if (first and time.time()-first>GRACE) or time.time()-t0>LIMIT:
            os.killpg(pr.pid,signal.SIGKILL); pr.wait(); break
        time.sleep(2)
    errs=[(m.group(1),int(m.group(2)),m.group(3)) for m in re.finditer(r'^error: (Verif\S*\.lean):(\d+):\d+: (.*)',buf,re.M)]
    bad=sorted({decl(f,l) for f,l,_ in errs}); names=[n for k,n in bad if k in('theorem','lemma')]
    dn=[n for k,n in bad if k not in('theorem','lemma','example')]
    failed=sorted(t for t,ds in D.items() if any('Verif.'+n in ds for n in names+dn))
    res=dict(definition=mu['definition'],edit=mu['edit'],claim=mu['claim'],failed=failed,broken=[n if k!='example' else 'example' for k,n in bad],complete=pr.returncode==0 or first is None,secs=int(time.time()-t0))
    if not errs and pr.returncode!=0: res['problem']=buf[-400:]
    with open(OUT,'a') as g: g.write(json.dumps(res,ensure_ascii=False)+'\n')
    print(json.dumps(res,ensure_ascii=False)[:900],flush=True)
if __name__=='__main__':
    D=deps()
    done=set()
    if os.path.exists(OUT):
        for l in open(OUT): r=json.loads(l); done.add((r['definition'],r['edit']))
    for line in open(sys.argv[1]):
        if line.strip():
            mu=json.loads(line)
            if (mu['definition'],mu['edit']) in done: continue
            try: run(mu,D)
            except AssertionError as e: print('BAD EDIT',mu['definition'],mu['edit'],e,flush=True)
