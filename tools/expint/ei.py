from e1 import *
q4c[4]=F('7.9231787945279043698718e4')
p1,q1=v[18][:],v[19][:]
p1c=p1[:]; p1c[3]=F('7.633628843705946890896e1'); p1c[7]=F('1.107326627786831743809e1')
def cfpair(al,be):
    # fraction = p/q polys ; start 0/1
    p,q=[F(0)],[F(1)]
    for j in range(9,0,-1):
        p,q=psc(be[j-1],q), padd(pmul([al[j],F(1)],q),p)
    return p,q
def eiNM(al,be,tail=False):
    p,q=cfpair(al,be)
    # fraction + al0 = (p+al0 q)/q
    n=padd(p,psc(al[0],q))
    if not tail: return n, [F(0)]+q      # 1/x * n/q
    # 1/x (1 + 1/x n/q) = (x q + n)/(x^2 q)
    return padd([F(0)]+q,n), [F(0),F(0)]+q
a6=v[8][:]; a6c=a6[:]; a6c[9]=F('-2.645677793077147237806')
if __name__=='__main__':
    print('E1 tail'); 
    for e in ['1e-17','1e-18','5e-19']: test(*tail(p4,q4c),-1,F(4),None,F(e))
    print('E1 mid'); 
    for e in ['5e-17','2e-17']: test(p1c[::-1],q1[::-1],-1,F(1),F(4),F(e))
    print('Ei 6'); 
    for e in ['1e-15','1e-16','1e-17','1e-18']: test(*eiNM(a6c,v[9]),1,F(6),F(12),F(e))
    for e in ['1e-7','1e-8','1e-9','1e-10']: test(*eiNM(a6,v[9]),1,F(6),F(12),F(e))
    print('Ei 12'); 
    for e in ['1e-15','1e-16','1e-17','1e-18']: test(*eiNM(v[10],v[11]),1,F(12),F(24),F(e))
    print('Ei 24'); 
    for e in ['1e-15','1e-16','1e-17','1e-18']: test(*eiNM(v[12],v[13],True),1,F(24),None,F(e))
