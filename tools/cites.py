#!/usr/bin/env python3
"""Checks the citations in the model: every cited file exists, the range is inside it, and, where the comment names an
identifier of the code in backticks, one of them occurs in the first cited range. Prints the suspicious ones."""
import re, sys, os, glob
root='/repo'
allf={}
for d,_,fs in os.walk(root):
    for f in fs: allf.setdefault(f,[]).append(os.path.join(d,f))
bad=0
for p in sorted(glob.glob('/verif/lean/Verif/Model/*.lean')):
    t=open(p).read()
    for m in re.finditer(r'/--(.*?)-/\s*([^\n]*)',t,re.S):
        c,nxt=m.group(1),m.group(2).split('\n')[0][:70]
        ids=[i.rstrip('()') for i in re.findall(r'`([^`]+)`',c)]
        last=None
        cites=[]
        for mm in re.finditer(r'([\w/.+-]+\.(?:cpp|hpp|g|h|c|hh|cc))[:, ]*(?:lines? )?(\d[\d, and-]*)',c):
            f=mm.group(1)
            cites.append((f,mm.group(2)))
        for f,r in cites:
            cand=[root+'/'+f] if os.path.exists(root+'/'+f) else allf.get(os.path.basename(f),[])
            if not cand: print(p.split('/')[-1],nxt,'NO FILE',f); bad+=1; continue
            L=open(cand[0],errors='replace').read().split('\n')
            ok=False; anyid=False; rngs=[]
            for a,b in re.findall(r'(\d+)(?:-(\d+))?',r):
                a=int(a);b=int(b or a); rngs.append((a,b))
                if b>len(L): print(p.split('/')[-1],nxt,'OUT OF RANGE',f,a,b,len(L)); bad+=1
                txt='\n'.join(L[max(0,a-2):b+1])
                for i in ids:
                    w=re.findall(r'\w+',i)
                    for x in w:
                        if len(x)>3 and re.search(r'\b'+re.escape(x)+r'\b',txt): ok=True
            if ids and not ok:
                print(p.split('/')[-1],'|',nxt,'|',f,rngs,ids[:4]); bad+=1
        if not cites and re.match(r'(@\[.*\] *)?(def|structure|inductive|abbrev)',nxt):
            print(p.split('/')[-1],'|',nxt,'| no citation |',c.strip()[:60].replace('\n',' '))
print(bad)
