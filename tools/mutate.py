#!/usr/bin/env python3
"""Seeded-bug runner.  Usage: mutate.py SPEC.json
SPEC: list of {file, old, new, definition, edit, claim, targets?}; `file` is relative
to lean/Verif.  Each edit is applied to a scratch copy, the Props modules are
rebuilt and the failing declarations are appended to seeded/LOG.jsonl."""
import json,os,re,subprocess,sys
SRC='/verif/lean'; DST='/tmp/mut/lean'; LOG='/verif/seeded/LOG.jsonl'
os.makedirs('/tmp/mut',exist_ok=True)
def sync():
    subprocess.run(['rsync','-a','--delete',SRC+'/',DST+'/'],check=True) if subprocess.run(['which','rsync'],capture_output=True).returncode==0 else \
    subprocess.run(f'rm -rf {DST} && cp -a {SRC} {DST}',shell=True,check=True)
def enclosing(path,line):
    ls=open(path).read().split('\n')
    for k in range(min(line,len(ls))-1,-1,-1):
        m=re.match(r'\s*(?:@\[[^\]]*\]\s*)?(?:protected |private |noncomputable )?(theorem|lemma|def|example|abbrev|instance|structure)\s*(\S*)',ls[k])
        if m: return m.group(2) if m.group(1)!='example' else f'example@{k+1}'
    return '?'
def run(spec):
    p=os.path.join(DST,'Verif',spec['file'])
    orig=open(p).read()
    if orig.count(spec['old'])<1:
        print('NOT FOUND',spec['file'],spec['old'][:60]); return
    open(p,'w').write(orig.replace(spec['old'],spec['new'],1))
    r=subprocess.run(['lake','build']+spec.get('targets',['Verif']),cwd=DST,capture_output=True,text=True,timeout=3000)
    out=r.stdout+r.stderr
    failed=[];mods=set()
    for m in re.finditer(r'error: (Verif/\S+?\.lean):(\d+):',out):
        n=enclosing(os.path.join(DST,m.group(1)),int(m.group(2)))
        n=f"{m.group(1)[6:-5].replace('/','.')}:{n}"
        if n not in failed: failed.append(n)
    # claimed theorems not checked because a module they import failed
    blocked=[]
    bad=re.findall(r'^- (Verif\.\S+)',out,re.M)
    open(p,'w').write(orig)
    rec={"definition":spec['definition'],"edit":spec['edit'],"claim_broken":spec['claim'],
         "theorems_failed":failed,"modules_failed":bad,"survived":r.returncode==0,
         "theorems_tightened":spec.get('tightened',[])}
    print('SURVIVED' if r.returncode==0 else 'killed',spec['definition'],'|',spec['edit'],'|',failed[:6])
    if not spec.get('nolog'):
        open(LOG,'a').write(json.dumps(rec,ensure_ascii=False)+'\n')
sync()
for s in json.load(open(sys.argv[1])): run(s)
