#!/usr/bin/env python3
"""Transcribe the straight-line integer code of /repo/src/{curve25519,ed25519}.rs into the assignment lists of
lean/Verif/Model/{FeProgs,ScProgs}.lean. Purely syntactic; the output is committed."""
import re
CU=open('/repo/src/curve25519.rs').read().split('\n')
ED=open('/repo/src/ed25519.rs').read().split('\n')
def find(lines, pat, start=0):
    for i in range(start,len(lines)):
        if re.search(pat,lines[i]): return i
    raise Exception(pat)
TOK=re.compile(r'\s*(i64::from|[A-Za-z_][A-Za-z_0-9]*|\d+|<<|>>|[-+*&()|])')
class P:
    def __init__(s,t,types):
        s.t=[]; i=0
        t=t.strip()
        while i<len(t):
            m=TOK.match(t,i); assert m,(t,i); s.t.append(m.group(1)); i=m.end()
        s.i=0; s.types=types
    def peek(s): return s.t[s.i] if s.i<len(s.t) else None
    def nx(s): s.i+=1; return s.t[s.i-1]
    # node: (kind, ...) types resolved after
    def shift(s):
        a=s.addx()
        while s.peek() in('<<','>>'):
            op=s.nx(); b=s.addx(); assert b[0]=='lit'; a=(op,a,b[1])
        return a
    def addx(s):
        a=s.mulx()
        while s.peek() in('+','-'):
            op=s.nx(); b=s.mulx(); a=(op,a,b)
        return a
    def mulx(s):
        a=s.asx()
        while s.peek()=='*':
            s.nx(); b=s.asx(); a=('*',a,b)
        return a
    def asx(s):
        a=s.atom()
        while s.peek()=='as':
            s.nx(); ty=s.nx(); assert ty=='i32'; a=('cast32',a)
        return a
    def atom(s):
        t=s.nx()
        if t=='(':
            e=s.shift(); assert s.nx()==')'; return e
        if t=='i64::from':
            assert s.nx()=='('; e=s.shift(); assert s.nx()==')'; return ('w',e)
        if t.isdigit(): return ('lit',int(t))
        return ('var',t)
def ty(e,T):
    k=e[0]
    if k=='lit': return None
    if k=='var': return T[e[1]]
    if k=='w': assert ty(e[1],T)=='i32'; return 'i64'
    if k=='cast32': assert ty(e[1],T)=='i64'; return 'i32'
    if k in('<<','>>'): return ty(e[1],T)
    a,b=ty(e[1],T),ty(e[2],T)
    assert a is None or b is None or a==b,(e,a,b)
    return a or b
def const(e):
    if e[0]=='lit': return e[1]
    if e[0]=='<<' and e[1][0]=='lit': return e[1][1]<<e[2]
    return None
SUB={'i32':'₃₂','i64':'₆₄'}
PR={'+':65,'-':65,'*':70,'<<':60,'>>':60}
def pr(e,T,prec=0):
    c=const(e)
    if c is not None: return str(c)
    k=e[0]
    if k=='var': return e[1]
    if k=='w': return pr(e[1],T,prec)
    if k=='cast32': return '.cast32 '+pr(e[1],T,100)
    t=ty(e,T)
    if k=='<<': r='%s ≪%s %d'%(pr(e[1],T,60),SUB[t],e[2])
    elif k=='>>': r='%s ≫ %d'%(pr(e[1],T,60),e[2])
    else: r='%s %s%s %s'%(pr(e[1],T,PR[k]),k,SUB[t],pr(e[2],T,PR[k]+1))
    return '('+r+')' if PR[k]<prec else r
def stmts(lines,a,b):
    """statements between 0-based lines a..b (inclusive), comments stripped"""
    txt=' '.join(re.sub(r'//.*','',l) for l in lines[a:b+1])
    return [x.strip() for x in txt.split(';') if x.strip()]
def prog(name,doc,lines,a,b,inputs,intype,skip=lambda s:False,extra=(),parts=None):
    T={v:intype for v in inputs}; order=list(inputs); out=[]
    def reg(v):
        if v not in order: order.append(v)
    for s in stmts(lines,a,b):
        if skip(s): continue
        if re.fullmatch(r'let (mut )?\w+',s): continue
        m=re.fullmatch(r'(?:let (?:mut )?)?(\w+) = (.*)',s)
        if m:
            v=m.group(1); e=P(m.group(2),T).shift(); t=ty(e,T)
            T[v]=t or T.get(v) or 'i64'
            reg(v); out.append((v,pr(e,T))); continue
        m=re.fullmatch(r'(\w+) ([+-])= (.*)',s)
        if m:
            v=m.group(1); e=(m.group(2),('var',v),P(m.group(3),T).shift())
            out.append((v,pr(e,T))); continue
        m=re.fullmatch(r'\$?(\w)\[(\d+)\] = (\w+) as i32',s)
        if m:
            v=m.group(3); assert v==m.group(1)+m.group(2)
            out.append((v,'.cast32 '+v)); continue
        raise Exception(s)
    res=['namespace '+name,'']
    fs=a
    while not re.search(r'\bfn |macro_rules!',lines[fs]): fs-=1
    src='src/curve25519.rs' if lines is CU else 'src/ed25519.rs'
    for i,v in enumerate(order):
        ln=find(lines,r'^\s*let (mut )?%s\b|^\s*%s ='%(v,v),fs)
        assert ln<=b,(name,v)
        res.append('/-- Local `%s`, %s:%d. -/ abbrev %s : Nat := %d'%(v,src,ln+1,v,i))
    res.append('/-- Number of slots: the locals above, %s:%d-%d. -/\ndef size : Nat := %d'%(src,fs+1,b+1,len(order)))
    parts=parts or []
    cuts=[0]+[k for k in parts]+[len(out)]
    names=[]
    for j in range(len(cuts)-1):
        nm='part%d'%(j+1) if len(cuts)>2 else 'prog'
        names.append(nm)
        res.append('\n/-- %s%s -/'%(doc,'' if len(cuts)==2 else ' Part %d.'%(j+1)))
        res.append('def %s : List Stmt := ['%nm)
        res.append(',\n'.join('  %s ≔ %s'%o for o in out[cuts[j]:cuts[j+1]])+']')
    if len(cuts)>2:
        res.append('\n/-- %s -/\ndef prog : List Stmt := %s'%(doc,' ++ '.join(names)))
    res.append('\nend '+name+'\n')
    return '\n'.join(res),out,order
F=['f%d'%i for i in range(10)];G=['g%d'%i for i in range(10)];H=['h%d'%i for i in range(10)]
head='''import Verif.Model.SL

/-! %s

Generated by tools/gen_sl.py from the Rust text, one assignment per Rust assignment, in order. `x += e` is
`x ≔ x + e`; `i64::from` is value preserving and leaves no trace but the operation's type; constants `1 << k` are
written out. -/

namespace CryptoPure.Model
open CryptoPure.SL

'''
res=head%'Field-arithmetic straight-line code of /repo/src/curve25519.rs and /repo/src/ed25519.rs'
isin=lambda s: bool(re.fullmatch(r'let \w\d = \$?\w\[\d\]',s) or re.fullmatch(r'let mut h\d = h\[\d\]',s))
a=find(CU,r'macro_rules! fe_mul'); b=find(CU,r'^}',a)
t,o,_=prog('FeMul','`fe_mul!`, src/curve25519.rs:%d-%d.'%(a+1,b+1),CU,a+2,b-2,F+G,'i32',isin,parts=[124])
print(len(o),o[120:126]); res+=t+'\n'
a=find(CU,r'macro_rules! fe_sq'); b=find(CU,r'^}',a)
t,o,_=prog('FeSq','`fe_sq!`, src/curve25519.rs:%d-%d.'%(a+1,b+1),CU,a+2,b-2,F,'i32',isin)
print(len(o)); res+=t+'\n'
a=find(ED,r'fn assign_twice_square'); b=find(ED,r'^    }',a)
t,o,_=prog('FeSq2','`Fe::assign_twice_square`, src/ed25519.rs:%d-%d.'%(a+1,b+1),ED,a+3,b-1,F,'i32',isin)
print(len(o)); res+=t+'\n'
a=find(CU,r'fn mul121666'); b=find(CU,r'^    }',a)
t,o,_=prog('FeMul121666','`Fe::mul121666`, src/curve25519.rs:%d-%d.'%(a+1,b+1),CU,a+3,b-1,F,'i32',isin)
print(len(o)); res+=t+'\n'
a=find(CU,r'fn assign_from_bytes'); c=find(CU,r'let carry9',a); b=find(CU,r'^    }',a)
t,o,_=prog('FeFromBytes','The carries of `Fe::assign_from_bytes`, src/curve25519.rs:%d-%d; the inputs are the ten loaded limbs.'%(c+1,b),CU,c,b-1,H,'i64')
print(len(o)); res+=t+'\n'
a=find(CU,r'fn write_bytes'); c=find(CU,r'let mut q',a); b=find(CU,r's\[0\] = h0',a)
t,o,_=prog('FeWriteBytes','The carries of `Fe::write_bytes`, src/curve25519.rs:%d-%d.'%(c+1,b),CU,c,b-1,H,'i32')
print(len(o)); res+=t
res+='\nend CryptoPure.Model\n'
open('/verif/lean/Verif/Model/FeProgs.lean','w').write(res)
res=head%'Scalar-arithmetic straight-line code of /repo/src/ed25519.rs'
A=['a%d'%i for i in range(12)];B=['b%d'%i for i in range(12)];C=['c%d'%i for i in range(12)];S=['s%d'%i for i in range(24)]
a=find(ED,r'fn sc_muladd'); c=find(ED,r's0 = c0',a); b=find(ED,r's\[0\] = s0',a)
t,o,_=prog('ScMuladd','`sc_muladd`, src/ed25519.rs:%d-%d, after the loads and before the stores.'%(c+1,b),ED,c,b-1,A+B+C,'i64',parts=None)
# cut points: last three phases
def cutpts(o):
    fl=[i for i,(v,e) in enumerate(o) if v=='carry0' and e=='s0 ≫ 21']
    assert len(fl)==2,fl
    # fold of s12 after first floor pass
    fold=[i for i,(v,e) in enumerate(o) if v=='s0' and e=='s0 +₆₄ s12 *₆₄ 666643']
    return [fl[0],fold[-1],fl[1]]
k=cutpts(o); print(len(o),k)
t,o,_=prog('ScMuladd','`sc_muladd`, src/ed25519.rs:%d-%d, after the loads and before the stores.'%(c+1,b),ED,c,b-1,A+B+C,'i64',parts=[24]+k)
res+=t+'\n'
a=find(ED,r'fn sc_reduce'); c=find(ED,r's11 \+= s23',a); b=find(ED,r's\[0\] = s0',a)
t,o,_=prog('ScReduce','',ED,c,b-1,S,'i64')
k=cutpts(o); print(len(o),k)
t,o,_=prog('ScReduce','`sc_reduce`, src/ed25519.rs:%d-%d, after the loads and before the stores.'%(c+1,b),ED,c,b-1,S,'i64',parts=k)
res+=t
res+='\nend CryptoPure.Model\n'
open('/verif/lean/Verif/Model/ScProgs.lean','w').write(res)
