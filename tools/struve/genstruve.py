from chk import *
from math import lcm
from decimal import Decimal
a=[F(x) for x in "1.909859164 -1.909855001 0.687514637 -0.126164557 0.013828813 -0.000876918".split()]
d=[F(x) for x in "1.909859286 -1.145914713 0.294656958 -0.042070508 0.003785727 -0.000207183".split()]
p0=F('3.14159265358979')
def S(n,N):
    out=[]
    pr=F(1)
    for k in range(N):
        out.append(F((-1)**k,4**k)/pr); pr*=(F(3,2)+k)*(F(3,2)+k+n)
    return out
def inter(cs,off):
    r=[F(0)]*(off+2*len(cs)-1)
    for i,c in enumerate(cs): r[off+2*i]=c
    return r
P0=inter([a[j]/3**(2*j+1) for j in range(6)],1); S0=inter(S(0,12),1)
P1=inter([d[j]/3**(2*j+2) for j in range(6)],2); S1=inter([c*F(1,3) for c in S(1,12)],2)
for nm,P,S_ in (("struve0",P0,S0),("struve1",P1,S1)):
    R=psub(psc(p0,P),psc(2,S_))
    K=1
    for c in R: K=lcm(K,F(c).denominator)
    Ri=[int(c*K) for c in R]
    mx=max(abs(pev(R,F(i,100))) for i in range(301)); print(nm,float(mx),float(mx/p0),len(str(K)))
    for e in ['3.8e-8','4e-8','3.7e-8','7.7e-9','8e-9']:
        e=F(e)
        if e<mx: continue
        try:
            l=[adapt(padd([e],psc(s,R)),F(0),F(3)) for s in (1,-1)]
            print(e,[len(t) for t in l], [str(x[0]) for t in l for x in t])
        except Exception as ex: print('no',ex)
    open(f'/tmp/sf/{nm}.txt','w').write(f"{K}\n{Ri}")
