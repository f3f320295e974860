import re
from decimal import Decimal as D, getcontext
getcontext().prec=60
src=open('/repo/src/MathUtils/BoostFunctions.h').read()
src=re.sub(r'//.*','',src)
vecs=[(m.group(1),m.group(2).split(','),src[:m.start()].count('\n')+1) for m in re.finditer(r'std::vector<double>\s+(\w+)\s*=\s*\{([^}]*)\}',src)]
L=[(n,[D(x.strip()) for x in v]) for n,v,_ in vecs]
if __name__=='__main__':
    for i,(n,v) in enumerate(L): print(i,n,len(v))
gamma=D('0.577215664901532860606512090082402431042159335939923598805767')
def Ein_s(x):
    s=D(0);t=D(1);k=1
    while True:
        t=t*x/k
        s+=t/k
        if k>abs(x)*2+10 and abs(t)<D(10)**-55: break
        k+=1
    return s
def Ei(x):
    getcontext().prec=120
    r=gamma+x.ln()+Ein_s(x)
    getcontext().prec=60
    return r
def E1(x):
    getcontext().prec=160
    r=-gamma-x.ln()-Ein_s(-x)
    getcontext().prec=60
    return r
def T(n,x):
    a,b=D(1),x
    if n==0:return a
    for _ in range(n-1): a,b=b,2*x*b-a
    return b
names={}
