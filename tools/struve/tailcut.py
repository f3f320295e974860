import json,time
from chk import *
from fractions import Fraction as F
exec(open('gencert.py').read().split("def cuts")[1].join(["def cuts",""]).split("def cert")[0]) if False else None
src=open('gencert.py').read()
i=src.index("def cuts"); j=src.index("def cert")
from math import lcm
exec(src[i:j])
J=json.load(open('tail.json'))
def mul(a,b):
    r=[0]*(len(a)+len(b)-1)
    for i,x in enumerate(a):
        if x:
            for j,y in enumerate(b): r[i+j]+=x*y
    return r
def add(a,b):
    n=max(len(a),len(b)); return [(a[i] if i<len(a) else 0)+(b[i] if i<len(b) else 0) for i in range(n)]
def sc(k,a): return [k*x for x in a]
def sub(a,b): return add(a,sc(-1,b))
def der(a): return [i*a[i] for i in range(1,len(a))]
X=[0,1]; N,D=J['N'],J['D']
W=sub(mul(der(N),D),mul(N,der(D)))
D2=mul(D,D); D3=mul(D,D2)
R=add(mul(X,sub(mul(der(W),D),sc(2,mul(W,der(D))))),add(mul(W,D),sub(mul(X,mul(N,D2)),D3)))
XR=mul(X,R)
def c(R,S,en,ed):
    t=time.time()
    cs=cuts([add(sc(en,S),sc(ed,R)),sub(sc(en,S),sc(ed,R))],3,None)
    print(ints(3,None,cs),len(cs),time.time()-t)
c(XR,D3,87,10**11)
# code 0: b/(x c) - N/D : |b D - x c N| <= d * x c D
c(sub(mul(J['b'],D),mul(mul(X,J['c']),N)),mul(mul(X,J['c']),D),13,10**9)
# code 1: e/f -1 + W/D2
c(add(mul(sub(J['e'],J['f']),D2),mul(W,J['f'])),mul(J['f'],D2),4001,10**11)
