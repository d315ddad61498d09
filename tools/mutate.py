#!/usr/bin/env python3
"""Apply each seeded edit to a scratch copy of the Lean project, rebuild, and append one line per edit to seeded/LOG.jsonl.
usage: mutate.py edits.json   (list of {file, def, old, new, edit, claim})"""
import json, re, subprocess, sys, shutil, os
SRC='/verif/lean'; DST='/tmp/scratch/lean'; LOG='/verif/seeded/LOG.jsonl'
def enclosing(path, line):
    name=None
    for i,l in enumerate(open(path),1):
        if i>line: break
        m=re.match(r'\s*(?:@\[[^\]]*\]\s*)?(?:private\s+)?(theorem|lemma|example|def|instance)\s*(\S*)',l)
        if m: name=(m.group(2) if m.group(1)!='example' else 'example@%d'%i)
    return name
def main():
    edits=json.load(open(sys.argv[1]))
    shutil.rmtree(DST,ignore_errors=True); shutil.copytree(SRC,DST,symlinks=True)
    for e in edits:
        p=os.path.join(DST,'Verif',e['file'])
        s=open(p).read()
        assert s.count(e['old'])>=1,('not found',e)
        open(p,'w').write(s.replace(e['old'],e['new'],1))
        # further edits that go with the first (the same bug in the parametric version of the same code)
        undo=[(p,s)]
        for a in e.get('also',[]):
            q=os.path.join(DST,'Verif',a['file']); t=open(q).read()
            assert t.count(a['old'])>=1,('not found',a)
            undo.append((q,t)); open(q,'w').write(t.replace(a['old'],a['new'],1))
        try:
            r=subprocess.run(['lake','build'],cwd=DST,capture_output=True,text=True,timeout=1500)
            out=r.stdout+r.stderr
        except subprocess.TimeoutExpired as t:
            out='TIMEOUT'
        failed=[]; direct=set()
        for m in re.finditer(r'error: (Verif/\S+?\.lean):(\d+):',out):
            n=enclosing(os.path.join(DST,m.group(1)),int(m.group(2)))
            direct.add(m.group(1))
            nm=m.group(1)[6:-5]+':'+str(n)
            if nm not in failed: failed.append(nm)
        # property modules that import a failed module (transitively) cannot be built
        imp={}
        for root,_,fs in os.walk(DST+'/Verif'):
            for f in fs:
                if f.endswith('.lean'):
                    q=os.path.join(root,f); k=os.path.relpath(q,DST)
                    imp[k]=[x.replace('.','/')+'.lean' for x in re.findall(r'^import (Verif\S+)',open(q).read(),re.M)]
        bad=set(direct); ch=True
        while ch:
            ch=False
            for k,v in imp.items():
                if k not in bad and any(x in bad for x in v): bad.add(k); ch=True
        blocked=sorted(k[6:-5] for k in bad if k.startswith('Verif/Props') )
        rec={"definition":e['file'][:-5]+':'+e['def'],"edit":e['edit'],"claim_broken":e['claim'],
             "theorems_failed":failed,"property_modules_rejected":blocked,"theorems_tightened":e.get('tightened',[])}
        print(json.dumps(rec),flush=True)
        if not failed: print('   !!! SURVIVED',out[-500:],flush=True)
        if not failed: rec['note']='SURVIVED'
        open(LOG,'a').write(json.dumps(rec)+'\n')
        for q,t in reversed(undo): open(q,'w').write(t)
main()
