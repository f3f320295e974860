from fractions import Fraction as F
def padd(a,b):
    n=max(len(a),len(b)); return [(a[i] if i<len(a) else 0)+(b[i] if i<len(b) else 0) for i in range(n)]
def pmul(a,b):
    r=[F(0)]*(len(a)+len(b)-1)
    for i,x in enumerate(a):
        for j,y in enumerate(b): r[i+j]+=x*y
    return r
def psc(c,a): return [c*x for x in a]
def psub(a,b): return padd(a,psc(-1,b))
def pder(a): return [i*a[i] for i in range(1,len(a))] or [F(0)]
def pev(a,x):
    r=F(0)
    for c in reversed(a): r=r*x+c
    return r
def shift(a,h):  # a(x+h)
    a=list(a);n=len(a)
    for i in range(n):
        for j in range(n-2,i-1,-1): a[j]+=h*a[j+1]
    return a
def mob(a,A,B): # coefficients of (1+t)^n a((A+Bt)/(1+t)), [A,B], = Bernstein up to binomials
    n=len(a)-1
    s=shift(a,A)           # a(A+y), y in [0,B-A]
    s=[s[i]*(B-A)**i for i in range(n+1)]  # y=(B-A) z, z in [0,1], z = t/(1+t)
    s=s[::-1]              # (1+t)^n s(t/(1+t)) : sum s_i t^i (1+t)^(n-i); reversed: in w=1/t .. use shift
    s=shift(s,F(1))        # sum s_i (1+w)^(n-i)
    return s               # coefficients in w=1/t
def ok(a,A,B):
    if B is None: return all(c>=0 for c in shift(a,A))
    return all(c>=0 for c in mob(a,A,B))
def adapt(a,A,B,depth=0,maxd=14):
    """list of breakpoints or None"""
    if ok(a,A,B): return [(A,B)]
    if depth>maxd: return None
    if B is None: m=2*A if A>0 else F(1)
    elif A==0 or B/A<4: m=(A+B)/2
    else: m=(A+B)/2
    l=adapt(a,A,m,depth+1,maxd)
    if l is None: return None
    r=adapt(a,m,B,depth+1,maxd)
    if r is None: return None
    return l+r
