#!/usr/bin/env python3
"""Random small edits of the model definitions (constants, operators, dropped steps), each built in a scratch copy until
the first theorem fails. usage: automutate.py N SEED [file ...]   Appends to seeded/LOG.jsonl."""
import json, re, subprocess, sys, shutil, os, random, signal, time
SRC='/verif/lean'; DST='/tmp/scratch/auto'; LOG='/verif/seeded/LOG.jsonl'
N=int(sys.argv[1]); random.seed(int(sys.argv[2]))
FILES=sys.argv[3:] or ['Sha2','Hmac','Hkdf','Aes','GHash','Gcm','ChaCha20','Poly1305','Fe','X25519','Sc','Ed25519','Util']
def enclosing(path, line):
    name=None
    for i,l in enumerate(open(path),1):
        if i>line: break
        m=re.match(r'\s*(?:@\[[^\]]*\]\s*)?(?:private\s+)?(theorem|lemma|example|def|instance|abbrev)\s*(\S*)',l)
        if m: name=(m.group(2) if m.group(1)!='example' else 'example@%d'%i)
    return name
OPS=[(r'\^\^\^','|||'),(r'&&&','|||'),(r'\|\|\|','^^^'),(r'<<<','>>>'),(r'>>>','<<<'),(r' \+ ',' - '),(r' - ',' + '),(r' ≤ ',' < '),
     (r' < ',' ≤ '),(r' > ',' ≥ '),(r' ≥ ',' > '),(r'\.take ','.drop '),(r'\.drop ','.take '),(r'toLE','toBE'),(r'toBE','toLE'),
     (r'leNat','beNat'),(r'beNat','leNat'),(r'≠','='),(r'sshiftRight','ushiftRight'),(r'rotateLeft','rotateRight'),(r'rotateRight','rotateLeft'),
     (r'== ','!= '),(r'\badd m\b','sub m'),(r'\bsub m\b','add m'),(r'\bsq m\b','sq2 m'),(r'setWidth','signExtend')]
def sites(text):
    out=[]; inc=False; pos=0
    for ln,l in enumerate(text.split('\n')):
        s=l
        if '/-' in l: inc=True
        code=not inc and not l.startswith(('import','namespace','end','open','variable','structure','deriving','abbrev'))
        if code:
            body=l
            for m in re.finditer(r'(?<![\w.])(0x[0-9a-fA-F]+|\d+)(?![\w.])',body):
                v=m.group(1)
                if re.search(r'getD (\([^()]*\)|\S+) $',body[:m.start()]): continue
                if 'BitVec' in body[max(0,m.start()-8):m.start()] or 'setWidth' in body[max(0,m.start()-10):m.start()] or 'ofNat' in body[max(0,m.start()-7):m.start()] : continue
                n=int(v,0)
                for d in ([1,-1] if n>0 else [1]): out.append((pos+m.start(),pos+m.end(),str(n+d),'literal %s becomes %d'%(v,n+d)))
            for a,b in OPS:
                for m in re.finditer(a,body): out.append((pos+m.start(),pos+m.end(),b,'`%s` becomes `%s`'%(m.group(0).strip(),b.strip())))
        if '-/' in l: inc=False
        pos+=len(l)+1
    return out
def main():
    shutil.rmtree(DST,ignore_errors=True); shutil.copytree(SRC,DST,symlinks=True)
    allsites=[]
    for f in FILES:
        p='Model/%s.lean'%f; t=open(SRC+'/Verif/'+p).read()
        ss=[(p,)+s for s in sites(t)]; random.shuffle(ss); allsites.append(ss)
    done=0; k=0
    while done<N and any(allsites):
        ss=allsites[k%len(allsites)]; k+=1
        if not ss: continue
        p,a,b,new,desc=ss.pop()
        path=DST+'/Verif/'+p; t=open(path).read()
        line=t[:a].count('\n')+1; src=t.split('\n')[line-1].strip()
        dn=enclosing(path,line)
        open(path,'w').write(t[:a]+new+t[b:])
        t0=time.time()
        pr=subprocess.Popen(['nice','lake','build'],cwd=DST,stdout=subprocess.PIPE,stderr=subprocess.STDOUT,text=True,start_new_session=True)
        failed=[]; modelerr=False
        for l in pr.stdout:
            m=re.search(r'error: (Verif/\S+?\.lean):(\d+):',l)
            if m:
                if '/Model/' in m.group(1) : modelerr=True
                failed.append(m.group(1)[6:-5]+':'+str(enclosing(os.path.join(DST,m.group(1)),int(m.group(2)))))
                if len(failed)>=3 or modelerr: break
            if time.time()-t0>2400: break
        # drain errors of the same module already printed
        try: os.killpg(pr.pid,signal.SIGKILL)
        except ProcessLookupError: pass
        pr.wait()
        newline=open(path).read().split('\n')[line-1].strip()
        open(path,'w').write(t)
        if modelerr: continue
        done+=1
        failed=list(dict.fromkeys(failed))
        rec={"definition":p[:-5]+':'+str(dn),"edit":'%s: `%s` -> `%s`'%(desc,src[:160],newline[:160]),"claim_broken":"functional specification of this definition","theorems_failed":failed,"theorems_tightened":[]}
        if not failed: rec['note']='SURVIVED'
        print(int(time.time()-t0),json.dumps(rec,ensure_ascii=False),flush=True)
        open(LOG if failed else '/tmp/mut/survivors.jsonl','a').write(json.dumps(rec,ensure_ascii=False)+'\n')
main()
