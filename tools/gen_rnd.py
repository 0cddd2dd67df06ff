"""Writes lean/Verif/RndCert.lean."""
W=32;MASK=2**32-1
def T(x):
    x^=(x<<13)&MASK; x^=x>>17; x^=(x<<5)&MASK; return x
def app(M,x):
    r=0
    for c in M:
        if x&1: r^=c
        x>>=1
    return r
def mul(A,B): return [app(A,c) for c in B]
I=[1<<i for i in range(32)]
M=[[T(1<<i) for i in range(32)]]
for i in range(32): M.append(mul(M[-1],M[-1]))
assert M[32]==M[0]
def add(A,B): return [a^b for a,b in zip(A,B)]
def inv(A):
    # columns A[i]; gaussian elimination on rows
    n=32
    rows=[]
    for r in range(n):
        row=0
        for c in range(n):
            if A[c]>>r&1: row|=1<<c
        rows.append([row,1<<r])
    for c in range(n):
        p=next((r for r in range(c,n) if rows[r][0]>>c&1),None)
        if p is None: return None
        rows[c],rows[p]=rows[p],rows[c]
        for r in range(n):
            if r!=c and rows[r][0]>>c&1:
                rows[r][0]^=rows[c][0]; rows[r][1]^=rows[c][1]
    cols=[]
    for c in range(n):
        v=0
        for r in range(n):
            if rows[r][1]>>c&1: v|=1<<r
        cols.append(v)
    return cols
def fmt(L):
    s="";line="  ["
    for i,c in enumerate(L):
        t=str(c)+("," if i<31 else "]")
        if len(line)+len(t)>110: s+=line.rstrip()+"\n"; line="   "
        line+=t+" "
    return s+line.rstrip()
o=[]
o.append('''import Verif.Rnd

/-!
# Powers of the generator `rand_xorshift` as matrices over two elements

Generated data: `xs i` is the matrix of `2^i` steps of the generator, `xsA`, `xsB`, … are products of
these, `inv p` inverts the difference used to exclude the period `(2^32 - 1) / p`.  Every entry is checked by
the kernel in `Verif/Props/Rnd.lean`.
-/

namespace PC
''')
def d(n,L): o.append(f"def {n} : List ℕ :=\n{fmt(L)}\n")
for i in range(32): d(f"xs{i}",M[i])
P={}
def prod2(n,A,B): P[n]=mul(A,B); d(n,P[n])
prod2("xsA",M[16],M[0])
prod2("xsB",M[24],M[8])
prod2("xsC",P["xsA"],P["xsB"])
prod2("xsD",M[28],M[12])
prod2("xsE",M[20],M[4])
prod2("xsF",P["xsD"],P["xsE"])
prod2("xsG",P["xsC"],P["xsF"])
prod2("xsH",P["xsG"],P["xsG"])
prod2("xsI",P["xsH"],P["xsH"])
prod2("xsJ",P["xsI"],P["xsG"])
for p,(A,B) in {65537:(M[16],M[0]),257:(P["xsB"],P["xsA"]),17:(P["xsF"],P["xsC"]),5:(P["xsI"],P["xsG"]),3:(P["xsJ"],I)}.items():
    iv=inv(add(A,B)); assert mul(iv,add(A,B))==I
    d(f"xsInv{p}",iv)
o.append("end PC")
open('/verif/lean/Verif/RndCert.lean','w').write("\n".join(o)+"\n")
