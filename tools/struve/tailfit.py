from decimal import Decimal as D, getcontext
import math,sys
from fractions import Fraction as F
getcontext().prec=40
def nodes():
    h=D(1)/32; out=[]
    for k in range(-160,170):
        u=h*k
        s=(u-(-u).exp()).exp(); w=s*(1+(-u).exp())*h
        if s>120 or w<D(10)**-45: continue
        out.append((s,w*(-s).exp()))
    return out
ND=nodes()
def phi(y): # y=1/x^2
    return sum(w/(1+s*s*y).sqrt() for s,w in ND)
print(phi(D(0)))
m=int(sys.argv[1])
n=2*m
pts=[D(repr(1/18*(1-math.cos(math.pi*(2*i+1)/(2*n))))) for i in range(n)]
# fit in z=9y
A=[];b=[]
for y in pts:
    v=phi(y); z=9*y
    A.append([z**j for j in range(1,m+1)]+[-v*z**j for j in range(1,m+1)]); b.append(v-1)
# solve
N=2*m
for i in range(N):
    p=max(range(i,N),key=lambda r:abs(A[r][i])); A[i],A[p]=A[p],A[i]; b[i],b[p]=b[p],b[i]
    for r in range(N):
        if r!=i:
            t=A[r][i]/A[i][i]
            A[r]=[a-t*c for a,c in zip(A[r],A[i])]; b[r]-=t*b[i]
sol=[b[i]/A[i][i] for i in range(N)]
nn=[D(1)]+sol[:m]; dd=[D(1)]+sol[m:]
print([float(x) for x in nn],[float(x) for x in dd])
# integer polys: coefficients of y^j = c*9^j, rounded to 10^-dig
dig=int(sys.argv[2])
S=10**dig
nI=[int((c*9**j*S).to_integral_value()) for j,c in enumerate(nn)]
dI=[int((c*9**j*S).to_integral_value()) for j,c in enumerate(dd)]
# N(x)=sum nI_j x^(2(m-j)), D(x)=x*sum dI_j x^(2(m-j)), ascending lists
Np=[0]*(2*m+1); Dp=[0]*(2*m+2)
for j in range(m+1):
    Np[2*(m-j)]=nI[j]; Dp[2*(m-j)+1]=dI[j]
def mul(a,b):
    r=[0]*(len(a)+len(b)-1)
    for i,x in enumerate(a):
        if x:
            for j,y in enumerate(b): r[i+j]+=x*y
    return r
def add(a,b):
    n=max(len(a),len(b)); return [(a[i] if i<len(a) else 0)+(b[i] if i<len(b) else 0) for i in range(n)]
def sc(k,a): return [k*x for x in a]
def der(a): return [i*a[i] for i in range(1,len(a))]
X=[0,1]
W=add(mul(der(Np),Dp),sc(-1,mul(Np,der(Dp))))
D3=mul(Dp,mul(Dp,Dp))
R=add(mul(X,add(mul(der(W),Dp),sc(-2,mul(W,der(Dp))))),add(mul(W,Dp),add(mul(X,mul(Np,mul(Dp,Dp))),sc(-1,D3))))
XR=mul(X,R)
def ev(p,x):
    r=F(0)
    for c in reversed(p): r=r*x+c
    return r
mx=0
for i in range(1,2000):
    x=F(3*2000,i)
    v=abs(ev(XR,x)/ev(D3,x)); mx=max(mx,float(v))
print("C2",mx, "deg",len(XR),len(D3))
# compare with code
b_=[99999906, 477228920, 385542044, 32303607];c_=[10**8, 488331068, 428957333, 52120508]
e_=[100000004, 392205313, 264893033, 27450895];f_=[10**8, 381095112, 226216956, 10885141]
def cp(q):
    p=[0]*7
    for j in range(4): p[2*(3-j)]=q[j]*9**j
    return p
m0=m1=0
for i in range(1,2000):
    x=F(3*2000,i)
    g=ev(Np,x)/ev(Dp,x); g1=ev(W,x)/ev(mul(Dp,Dp),x)
    m0=max(m0,abs(float(ev(cp(b_),x)/ev(cp(c_),x)/x-g))); m1=max(m1,abs(float(ev(cp(e_),x)/ev(cp(f_),x)-1+g1)))
print(m0,m1,m0*2/math.pi,m1*2/math.pi)
import json
json.dump(dict(N=Np,D=Dp,b=cp(b_),c=cp(c_),e=cp(e_),f=cp(f_)),open('tail.json','w'))
