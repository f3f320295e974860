from ei import *
from math import factorial
def texp(n,sgn):
    Fa=factorial(n-1)
    return Fa,[F(Fa//factorial(m))*(sgn**(m-1)) for m in range(1,n)]
def mono_cheb(c,scale):  # sum c_j T_j(2x/6-1), halved first
    y=[F(-1),F(2,6)]
    t0,t1=[F(1)],y
    s=padd(psc(c[0]/2,t0),psc(c[1],t1))
    for j in range(2,10):
        t2=psub(psc(2,pmul(y,t1)),t0); s=padd(s,psc(c[j],t2)); t0,t1=t1,t2
    return s
def absres(U,V,Fa,T):
    return psub(psc(Fa,psub(pmul(pder(U),V),pmul(U,pder(V)))), pmul(T,pmul(V,V)))
def test2(U,V,n,sgn,A,B,eps):
    Fa,T=texp(n,sgn)
    R=absres(U,V,Fa,T); M=psc(eps*Fa,pmul(V,V))
    out=[]
    for s in (1,-1):
        a=padd(M,psc(s,R))
        while a[-1]==0:a.pop()
        r=adapt(a,A,B)
        out.append(None if r is None else len(r))
    print(n,float(eps),'deg',len(a)-1,out)
x0=F('0.372507410781366634461991866580')
n6=mono_cheb(v[6],6); d6=mono_cheb(v[7],6)
U6=pmul([-x0,F(1)],n6); V6=d6
p0,q0=v[16],v[17]
if __name__=='__main__':
    for e in ['1e-16','1e-17','1e-18']: test2(p0,q0,22,-1,F(0),F(1),F(e))
    for e in ['1e-15','1e-16','1e-17','1e-18']: test2(U6,V6,46,1,F(0),F(6),F(e))
    print([float(pev(V6,F(k,4))) for k in range(25)])
