from chk import *
from sf import L
v=[[F(str(x)) for x in l] for _,l in L]
p4,q4=v[20][:],v[21][:]
q4c=q4[:]; q4c[8]=F('2.5989762083608489777411e5')
def tail(p,q):
    P=p[::-1];Q=q[::-1]   # in x
    N=padd([F(0)]+Q,P); M=[F(0),F(0)]+Q
    return N,M
def resid(N,M,sgn):  # sgn=-1: e^{-x}N/M + ; returns R with |R|<=eps M^2
    # g' + e^-x/x : x(N'M-NM' - N M) + M^2 ; for Ei (sgn=+1) g' - e^x/x : x(N'M-NM'+NM) - M^2
    t=psub(pmul(pder(N),M),pmul(N,pder(M)))
    t=padd(t,psc(sgn,pmul(N,M)))
    return padd([F(0)]+t, psc(-sgn,pmul(M,M)))
def strip(R):
    k=0
    while R[k]==0:k+=1
    return R[k:],k
def test(N,M,sgn,A,B,eps):
    R=resid(N,M,sgn); M2=pmul(M,M)
    for s in (1,-1):
        a=padd(psc(eps,M2),psc(s,R))
        while a[-1]==0:a.pop()
        r=adapt(a,A,B)
        print(float(eps),s,'deg',len(a)-1,None if r is None else len(r))
if __name__=='__main__':
    N,M=tail(p4,q4c)
    for e in ['1e-15','1e-16','1e-17','1e-18']: test(N,M,-1,F(4),None,F(e))
    N,M=tail(p4,q4)
    for e in ['1e-2','1e-3']: test(N,M,-1,F(4),None,F(e))
    p1,q1=v[18][:],v[19][:]
    p1c=p1[:]; p1c[3]=F('7.633628843705946890896e1'); p1c[7]=F('1.107326627786831743809e1')
    for e in ['1e-15','1e-16','1e-17']: test(p1c[::-1],q1[::-1],-1,F(1),F(4),F(e))
    for e in ['1e-7','1e-8','5e-9']: test(p1[::-1],q1[::-1],-1,F(1),F(4),F(e))
