#!/usr/bin/env python3
"""Seeded-bug tests. Usage: mutate.py mutants.json
Each mutant: {"file": "Model/X.lean", "def": name, "old": text, "new": text, "claim": "Cxx ..."}.
Works in /tmp/mut (a copy of /verif/lean); appends one line per mutant to /verif/seeded/LOG.jsonl."""
import json, subprocess, sys, os, re, shutil
SRC='/verif/lean'; W='/tmp/mut'
os.makedirs(W, exist_ok=True)
subprocess.run(['rsync','-a','--delete','--exclude','/Verif','--exclude','/Verif.lean',SRC+'/',W+'/']) if shutil.which('rsync') else (shutil.rmtree(W), shutil.copytree(SRC,W,symlinks=True))
# the sources are those of the last commit
shutil.rmtree(W+'/Verif',ignore_errors=True)
subprocess.run('git -C /verif archive HEAD lean | tar -x --strip-components=1 -C '+W,shell=True,check=True)
def enclosing(path, line):
    L=open(path).read().split('\n')
    for i in range(min(line,len(L))-1,-1,-1):
        m=re.match(r'\s*(?:@\[[^\]]*\]\s*)?(?:private\s+|protected\s+)?(theorem|lemma|def|example|instance|inductive|structure|abbrev)\s*(\S*)',L[i])
        if m: return (m.group(1)+' ' if m.group(1)!='theorem' else '')+m.group(2)
    return '?'
muts=json.load(open(sys.argv[1]))
for m in muts:
    p=f"{W}/Verif/{m['file']}"
    s=open(p).read()
    if s.count(m['old'])!=1:
        print('BAD', m['def'], s.count(m['old'])); continue
    open(p,'w').write(s.replace(m['old'],m['new']))
    r=subprocess.run(['lake','build'],cwd=W,capture_output=True,text=True)
    out=r.stdout+r.stderr
    failed=[]
    for f,l in re.findall(r'error: (Verif/\S+\.lean):(\d+):',out):
        e=enclosing(f'{W}/{f}',int(l))
        e=f'{f[6:-5]}: {e}'
        if e not in failed: failed.append(e)
    open(p,'w').write(s)
    rec={"definition":m['def'],"file":"lean/Verif/"+m['file'],"edit":m.get('edit') or f"{m['old']}  ==>  {m['new']}","claim":m['claim'],
         "theorems_failed":failed,"theorems_tightened":m.get('tightened',[]),"survived": r.returncode==0}
    if m.get('note'): rec['note']=m['note']
    print(('SURVIVED ' if r.returncode==0 else 'killed ')+m['def'], failed[:4], flush=True)
    if '--dry' not in sys.argv:
        open('/verif/seeded/LOG.jsonl','a').write(json.dumps(rec,ensure_ascii=False)+'\n')
