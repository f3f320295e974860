"""Certificates for the rounding errors of the continued fractions of Ei_approximation: writes Lemmas/RoundedFractionCert.lean."""
from br0 import *
from math import lcm, ceil
def dig(fs):
    k=0
    while any((f*10**k).denominator!=1 for f in fs): k+=1
    return k
def cuts(ps,A,B):
    def rec(A,B,d=0):
        if all(ok(p,A,B) for p in ps): return []
        assert d<14,('fail',float(A))
        m=(A+B)/2 if B is not None else 2*A
        return rec(A,m,d+1)+[m]+rec(m,B,d+1)
    ps=[list(map(F,p)) for p in ps]
    for p in ps:
        while p and p[-1]==0:p.pop()
    return rec(F(A),None if B is None else F(B))
def ints(A,B,cs):
    c=1
    for m in cs:c=lcm(c,m.denominator)
    return c,A*c,[int(m*c) for m in cs],None if B is None else B*c
out=[]
def cert(name,expr,R,S,en,ed,A,B):
    cs=cuts([padd(psc(en,S),psc(ed,R)),psub(psc(en,S),psc(ed,R))],A,B)
    c,a,l,b=ints(A,B,cs)
    if B is None:
        out.append(f"theorem {name} : certFrom {en} {ed} {expr} {c} {a} {l} = true := by decide +kernel\n")
    else:
        out.append(f"theorem {name} : certOn {en} {ed} {expr} {c} {a} {l} {b} = true := by decide +kernel\n")
    print(name,len(l)+1,len(R))
ts={'ei12':[4.757,22.627,22.627,4.0,26.909,5.657,16.0,3.364,3.364],
 'ei24':[9.514,26.909,16.0,22.627,26.909,6.727,22.627,2.828,9.514],
 'eiInf':[22.627,19.027,16.0,11.314,38.055,5.657,13.454,0.42,215.269]}
def polys(A,B,c,w,T):
    p,q,P,Z,E,C=[0],[1],[0],[1],[0],[0]
    for a,b,(tn,s) in reversed(list(zip(A[1:],B,w))):
        p2,q2=psc(b,q),padd(pmul([a,c],q),psc(c,p))
        P2,Z2=psc(abs(b),Z),padd(pmul([abs(a),c],Z),psc(c,P))
        E=psc(abs(b),padd(psc(c,E),padd(padd(psc(2*tn,pmul(q,q)),psc(2*s,pmul(q2,q2))),pmul([2*T*abs(a),2*T*c],pmul(q,q)))))
        C=psc(abs(b),padd(psc(c,C),pmul(Z,Z2)))
        p,q,P,Z=p2,q2,P2,Z2
    return p,q,Z,E,C
for nm,i,lo,hi,ke,kc,kz,lb in [('ei12',8,6,12,(27,1),3*10**6,6000,(1,1)),('ei24',10,12,24,(9,10),2*10**5,1500,(1,1)),('eiInf',12,24,None,(7,10),2*10**10,5*10**5,(9,10))]:
    k=dig(v[i]+v[i+1]); c=10**k
    A=[int(f*c) for f in v[i]]; B=[int(f*c) for f in v[i+1]]
    w=[]
    for t in ts[nm]:
        t1=round(t*1000); w.append((t1,ceil(F(10**6)/t1)))
    T=1000*c; wc=[(a*c*c,b) for a,b in w]
    p,q,Z,E,C=polys(A,B,c,wc,T)
    p,q,Z,E,C=[[int(t) for t in l] for l in (p,q,Z,E,C)]
    s=1 if pev(q,F(lo))>0 else -1
    out.append(f"/-- Weights for `{nm}`, to be multiplied by `c^2` and 1. -/\ndef {nm}W : List (ℤ × ℤ) := {[(a,b) for a,b in w]}\n".replace("'",""))
    c_=f"(10 ^ {k})"; q_=f"(cfPair {c_} {nm}A.tail {nm}B).2"
    cert(nm+"_err",f"(cfErr {c_} (1000 * 10 ^ {k}) {nm}A.tail {nm}B ({nm}W.map fun w => (w.1 * 10 ^ {2*k}, w.2))) (pscale (1000 * 10 ^ {k}) (pmul {q_} {q_}))",E,psc(T,pmul(q,q)),ke[0],ke[1],lo,hi)
    cert(nm+"_crude",f"(cfCrude {c_} {nm}A.tail {nm}B) (pmul {q_} {q_})",C,pmul(q,q),kc,1,lo,hi)
    cert(nm+"_size",f"(cfSize {c_} {nm}A.tail {nm}B).2 (pscale {s if s>0 else '(-1)'} {q_})",Z,psc(s,q),kz,1,lo,hi)
    # value: |A0 q + c p - m c q| <= r c q
    N=padd(psc(A[0],q),psc(c,p))
    import sys
    xs=[lo+(((hi or 10*lo)-lo)*F(j,50)) for j in range(51)]
    vals=[float(pev(N,x)/pev(q,x)/c) for x in xs]
    print(nm,min(vals),max(vals))
    for m,r in ([(F(23,20),F(3,20))] if nm!='eiInf' else [(F(11,10),F(1,10))]):
        d=lcm(m.denominator,r.denominator)
        cert(nm+"_value",f"(psub (pscale {d} (cfNum {c_} {nm}A {nm}B)) (pscale ({int(m*d)}) (cfDen {c_} {nm}A {nm}B))) (pscale {s if s>0 else '(-1)'} (cfDen {c_} {nm}A {nm}B))",psub(psc(d,N),psc(int(m*d)*c,q)),psc(s*c,q),int(r*d),1,lo,hi)
def chebI(c):
    ts=[[1],[-3,1]]
    for j in range(8): ts.append(psub(psc(2,pmul([-3,1],ts[-1])),psc(9,ts[-2])))
    s=[c[0]*3**9]
    for j in range(1,10): s=padd(s,psc(2*c[j]*3**(9-j),ts[j]))
    return [int(t) for t in s]
k=dig(v[6]+v[7]); assert k==20
N6,D6=[chebI([int(f*10**k) for f in v[i]]) for i in (6,7)]
def low(K,e): return f"[{K} * (2 * 3 ^ 9 * 10 ^ 20)]",[K*2*3**9*10**20]
for nm,K,e,p in [('ei6_num_low',182*10**9,'ei6P',N6),('ei6_den_low',1497*10**7,'ei6Q',D6)]:
    ex,R=low(K,e); cert(nm,f"{ex} (pscale (-1) (chebInt {e}))",R,psc(-1,p),1,1,0,6)
cert('ei6_ratio',"(chebInt ei6P) (pscale (-1) (chebInt ei6Q))",N6,psc(-1,D6),15,1,0,6)
open('/verif/lean/Verif/Lemmas/RoundedFractionCert.lean','w').write('''import Verif.Lemmas.RoundedFraction

/-!
# Rounding errors of the continued fractions of Ei_approximation: certificates

Written by tools/expint/genround.py. The kernel evaluates the checks.
-/

namespace MU.ExpInt
open PolyCheck

'''+'\n'.join(out)+'\nend MU.ExpInt\n')
