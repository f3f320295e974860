from br0 import *
from math import lcm
def dig(fs):
    k=0
    while any((f*10**k).denominator!=1 for f in fs): k+=1
    return k
out=[]
def lst(name,doc,fs,k):
    out.append(f"/-- {doc}, times `10^{k}`. -/\ndef {name} : List ℤ :=\n  ["+",\n   ".join(str(int(f*10**k)) for f in fs)+"]\n")
# --- lists
k6=dig(v[6]+v[7]); lst("ei6P","`pj` of `Ei_approximation` below 6",v[6],k6); lst("ei6Q","`qj` of `Ei_approximation` below 6",v[7],k6)
def cf(n,doc,a,b):
    k=dig(a+b); lst(n+"A",f"`alphaj` {doc}",a,k); lst(n+"B",f"`betaj` {doc}",b,k); return k
kA=cf("ei12","of `Ei_approximation` on [6, 12)",v[8],v[9])
lst("ei12A'","`alphaj` on [6, 12) in the published table",a6c,kA)
kB=cf("ei24","of `Ei_approximation` on [12, 24)",v[10],v[11])
kC=cf("eiInf","of `Ei_approximation` above 24",v[12],v[13])
ka=dig(v[16]+v[17]); lst("e1aP","`pj` of `E1_approximation` below 1",v[16],ka); lst("e1aQ","`qj` of `E1_approximation` below 1",v[17],ka)
kb=dig(v[18]+v[19]); lst("e1bP","`pj` of `E1_approximation` on [1, 4)",v[18],kb); lst("e1bP'","`pj` on [1, 4) in the published table",p1c,kb); lst("e1bQ","`qj` of `E1_approximation` on [1, 4)",v[19],kb)
kc=dig(v[20]+v[21]); lst("e1cP","`pj` of `E1_approximation` above 4",v[20],kc); lst("e1cQ","`qj` of `E1_approximation` above 4",v[21],kc); lst("e1cQ'","`qj` above 4 in the published table",q4c,kc)
ks=dict(k6=k6,kA=kA,kB=kB,kC=kC,ka=ka,kb=kb,kc=kc)
# --- python mirror of Lean polynomials (integers)
I=lambda fs,k:[int(f*10**k) for f in fs]
def cfP(A,Bl,k):
    c=10**k
    p,q=[0],[1]
    for a,b in reversed(list(zip(A[1:],Bl))):
        p,q=psc(b,q), padd(pmul([a,c],q),psc(c,p))
    n=padd(psc(A[0],q),psc(c,p))
    return n,psc(c,q)
def eiIn(A,B,k):
    n,q=cfP(A,B,k); return n,[0]+q
def eiTail(A,B,k):
    n,q=cfP(A,B,k); return padd([0]+q,n),[0,0]+q
def chebI(c):
    t0,t1=[1],[-3,1]
    ts=[t0,t1]
    for j in range(8): ts.append(psub(psc(2,pmul([-3,1],ts[-1])),psc(9,ts[-2])))
    s=[c[0]*3**9]
    for j in range(1,10): s=padd(s,psc(2*c[j]*3**(9-j),ts[j]))
    return s
def e1tail(P,Q):
    P,Q=P[::-1],Q[::-1]; return padd([0]+Q,P),[0,0]+Q
def cuts(ps,A,B):
    """common breakpoints, interior, for all polys ps on [A,B]"""
    def rec(A,B,d=0):
        if all(ok(p,A,B) for p in ps): return []
        assert d<14,('fail',float(A))
        m=(A+B)/2 if B is not None else 2*A
        return rec(A,m,d+1)+[m]+rec(m,B,d+1)
    ps=[list(map(F,p)) for p in ps]
    for p in ps:
        while p and p[-1]==0:p.pop()
    return rec(F(A),None if B is None else F(B))
def ints(A,B,cs):
    c=1
    for m in cs:c=lcm(c,m.denominator)
    return c,A*c,[int(m*c) for m in cs],None if B is None else B*c
def cert(name,expr,R,S,en,ed,A,B):
    cs=cuts([padd(psc(en,S),psc(ed,R)),psub(psc(en,S),psc(ed,R))],A,B)
    c,a,l,b=ints(A,B,cs)
    if B is None:
        out.append(f"theorem {name} : certFrom {en} {ed} {expr} {c} {a} {l} = true := by decide +kernel\n")
    else:
        out.append(f"theorem {name} : certOn {en} {ed} {expr} {c} {a} {l} {b} = true := by decide +kernel\n")
    print(name,len(l)+1,len(R))
def pos(name,expr,M,A,B):
    cs=cuts([psub(M,[1])],A,B)
    c,a,l,b=ints(A,B,cs)
    ex=f"psub ({expr}) [1]"
    if B is None:
        out.append(f"theorem {name} : (decide (0 < ({c} : ℤ)) && checkFrom ({ex}) {c} {a} {l}) = true := by decide +kernel\n")
    else:
        out.append(f"theorem {name} : (decide (0 < ({c} : ℤ)) && decide (({a} : ℤ) < {b}) && checkOn ({ex}) {c} {a} {l} {b}) = true := by decide +kernel\n")
    print(name,len(l)+1)
out.append('''/-! ## The rational functions -/

/-- The continued fraction `b1 / (a1 + x + b2 / (a2 + x + ...))` as a quotient of polynomials; the coefficients are scaled by `c`. -/
def cfPair (c : ℤ) : List ℤ → List ℤ → List ℤ × List ℤ
  | a :: as, b :: bs => let r := cfPair c as bs; (pscale b r.2, padd (pmul [a, c] r.2) (pscale c r.1))
  | _, _ => ([0], [1])

/-- `a0` plus the continued fraction: numerator. -/
def cfNum (c : ℤ) (A B : List ℤ) : List ℤ := padd (pscale (A.headD 0) (cfPair c A.tail B).2) (pscale c (cfPair c A.tail B).1)

/-- `a0` plus the continued fraction: denominator. -/
def cfDen (c : ℤ) (A B : List ℤ) : List ℤ := pscale c (cfPair c A.tail B).2

/-- `3^j` times the shifted Chebyshev polynomial `T_j(2 (x / 6) - 1)`. -/
def chebPoly : Nat → List ℤ
  | 0 => [1]
  | 1 => [-3, 1]
  | n + 2 => psub (pscale 2 (pmul [-3, 1] (chebPoly (n + 1)))) (pscale 9 (chebPoly n))

/-- `2 * 3^9` times the Chebyshev sum of degree 9. -/
def chebInt (c : List ℤ) : List ℤ :=
  (List.range 9).foldl (fun s j => padd s (pscale (2 * c.getD (j + 1) 0 * 3 ^ (8 - j)) (chebPoly (j + 1)))) [c.headD 0 * 3 ^ 9]

/-- Above 4: `(1 + (1/x) p/q) / x` with `p`, `q` sums of inverse powers. -/
def tailN (P Q : List ℤ) : List ℤ := padd (0 :: Q.reverse) P.reverse
/-- Its denominator. -/
def tailM (Q : List ℤ) : List ℤ := 0 :: 0 :: Q.reverse
''')
x0i=int(x0*10**30)
A6,Q6=I(v[6],k6),I(v[7],k6)
n6i,d6i=chebI(A6),chebI(Q6)
U=pmul([-x0i,10**30],n6i); V=psc(10**30,d6i)
out.append(f'''/-- `(x - x0) P` below 6. -/
def ei6N : List ℤ := pmul [-{x0i}, 10 ^ 30] (chebInt ei6P)
/-- Its denominator. -/
def ei6M : List ℤ := pscale (10 ^ 30) (chebInt ei6Q)
''')
A,B=I(v[8],kA),I(v[9],kA); Ac=I(a6c,kA)
for nm,al,be,k,tl in [("ei12","ei12A","ei12B",kA,0),("ei12'","ei12A'","ei12B",kA,0),("ei24","ei24A","ei24B",kB,0),("eiInf","eiInfA","eiInfB",kC,1)]:
    base,pr=(nm[:-1],"'") if nm.endswith("'") else (nm,"")
    N=f"cfNum (10 ^ {k}) {al} {be}"; D=f"cfDen (10 ^ {k}) {al} {be}"
    if tl: N=f"padd (0 :: {D}) ({N})"; D=f"0 :: 0 :: {D}"
    else: D=f"0 :: {D}"
    out.append(f"/-- Numerator for `{nm}`. -/\ndef {base}N{pr} : List ℤ := {N}\n/-- Denominator for `{nm}`. -/\ndef {base}M{pr} : List ℤ := {D}\n")
out.append("/-! ## Certificates -/\n")
def sgn(M,A): return 1 if pev(M,F(A))>0 else -1
def doEi(nm,N,M,A_,B_,en,ed,pr=""):
    R=[int(t) for t in resid(N,M,1)]; S=pmul(M,M)
    cert(f"{nm}_res",f"(resEi {nm}N{pr} {nm}M{pr}) (pmul {nm}M{pr} {nm}M{pr})",R,S,en,ed,A_,B_)
    # denominators may change sign inside; find sign
    s=sgn(M,A_)
    pos(f"{nm}_pos",f"pscale ({s}) {nm}M{pr}",psc(s,M),A_,B_)
N12,M12=eiIn(Ac,B,kA); N12r,M12r=eiIn(A,B,kA)
doEi("ei12",N12,M12,6,12,1,10**16,"'")
s=sgn(M12r,6)
pos("ei12_pos_code",f"pscale ({s}) ei12M",psc(s,M12r),6,12)
s2=sgn(N12,6); 
# |Nr Mc - Nc Mr| <= d Nc Mr (sign s.t. positive)
d12=psub(pmul(N12r,M12),pmul(N12,M12r)); S12=psc(s*s2,pmul(N12,M12r))
cert("ei12_cmp",f"(psub (pmul ei12N ei12M') (pmul ei12N' ei12M)) (pscale ({s*s2}) (pmul ei12N' ei12M))",d12,S12,25,10**12,6,12)
A24,B24=I(v[10],kB),I(v[11],kB); N24,M24=eiIn(A24,B24,kB)
doEi("ei24",N24,M24,12,24,1,10**17)
AI,BI=I(v[12],kC),I(v[13],kC); NI,MI=eiTail(AI,BI,kC)
doEi("eiInf",NI,MI,24,None,1,10**16)
# zero branches
def zres(n,T,U,V):
    Fa=factorial(n); return psub(psc(Fa,psub(pmul(pder(U),V),pmul(U,pder(V)))),pmul(T,pmul(V,V)))
T45=[factorial(45)//factorial(i+1) for i in range(45)]
R=zres(45,T45,U,V)
cert("ei6_res","(resZero 45 (expm1 45) ei6N ei6M) (pscale (Nat.factorial 45) (pmul ei6M ei6M))",[int(t) for t in R],psc(factorial(45),pmul(V,V)),1,10**16,0,6)
s=sgn(V,1); pos("ei6_pos",f"pscale ({s}) ei6M",psc(s,V),0,6)
P0,Q0=I(v[16],ka),I(v[17],ka)
T21=[(-1)**i*factorial(21)//factorial(i+1) for i in range(21)]
R=zres(21,T21,P0,Q0)
cert("e1a_res","(resZero 21 (palt (expm1 21)) e1aP e1aQ) (pscale (Nat.factorial 21) (pmul e1aQ e1aQ))",[int(t) for t in R],psc(factorial(21),pmul(Q0,Q0)),1,10**17,0,1)
pos("e1a_pos","e1aQ",Q0,0,1)
Pb,Pbc,Qb=[I(t,kb)[::-1] for t in (v[18],p1c,v[19])]
R=[int(t) for t in resid(Pbc,Qb,-1)]
cert("e1b_res","(resE1 e1bP'.reverse e1bQ.reverse) (pmul e1bQ.reverse e1bQ.reverse)",R,pmul(Qb,Qb),2,10**17,1,4)
pos("e1b_pos","e1bQ.reverse",Qb,1,4)
cert("e1b_cmp","(psub e1bP.reverse e1bP'.reverse) e1bP'.reverse",psub(Pb,Pbc),Pbc,15,10**10,1,4)
Nc,Mc=e1tail(I(v[20],kc),I(q4c,kc)); Nr,Mr=e1tail(I(v[20],kc),I(v[21],kc))
R=[int(t) for t in resid(Nc,Mc,-1)]
cert("e1c_res","(resE1 (tailN e1cP e1cQ') (tailM e1cQ')) (pmul (tailM e1cQ') (tailM e1cQ'))",R,pmul(Mc,Mc),1,10**18,4,None)
pos("e1c_pos","tailM e1cQ'",Mc,4,None)
pos("e1c_pos_code","tailM e1cQ",Mr,4,None)
pos("e1c_posN","tailN e1cP e1cQ'",Nc,4,None)
cert("e1c_cmp","(psub (pmul (tailN e1cP e1cQ) (tailM e1cQ')) (pmul (tailN e1cP e1cQ') (tailM e1cQ))) (pmul (tailN e1cP e1cQ') (tailM e1cQ))",psub(pmul(Nr,Mc),pmul(Nc,Mr)),pmul(Nc,Mr),93,10**5,4,None)
print(ks)
hdr='''import Verif.Lemmas.ExpIntBranch

/-!
# Certificates for the exponential integrals

Generated by `tools/expint`. The tables of coefficients as integers, the rational functions they define, and the polynomial inequalities that bound
the residuals. A primed table is the published one where the table of the code differs from it.
-/

set_option maxRecDepth 100000

namespace MU.ExpInt
open PolyCheck

/-! ## Tables -/

'''
open('/verif/lean/Verif/Lemmas/ExpIntCert.lean','w').write(hdr+"\n".join(out)+"\nend MU.ExpInt\n")
