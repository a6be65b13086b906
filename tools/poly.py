from collections import defaultdict
class P:
    def __init__(s,d=None): s.d={k:v for k,v in (d or {}).items() if v!=0}
    def __add__(s,o):
        o=lift(o); d=defaultdict(int,s.d)
        for k,v in o.d.items(): d[k]+=v
        return P(d)
    __radd__=__add__
    def __neg__(s): return P({k:-v for k,v in s.d.items()})
    def __sub__(s,o): return s+(-lift(o))
    def __mul__(s,o):
        o=lift(o); d=defaultdict(int)
        for k,v in s.d.items():
            for k2,v2 in o.d.items():
                m=defaultdict(int)
                for a,e in k+k2: m[a]+=e
                d[tuple(sorted(m.items()))]+=v*v2
        return P(d)
    __rmul__=__mul__
    def __pow__(s,n):
        r=lift(1)
        for _ in range(n): r=r*s
        return r
    def coeffs(s,x):
        out=defaultdict(lambda:P())
        for k,v in s.d.items():
            e=dict(k).get(x,0)
            kk=tuple((a,b) for a,b in k if a!=x)
            out[e]=out[e]+P({kk:v})
        n=max(out) if out else 0
        return [out[i] for i in range(n+1)]
    def lean(s,wrap=lambda x:x):
        if not s.d: return "0"
        ts=[]
        for k,v in sorted(s.d.items()):
            f=[]
            if v!=1 or not k: f.append(str(v) if v>=0 else f"({v})")
            for a,e in k: f.append(wrap(a)+(f"^{e}" if e>1 else ""))
            ts.append("*".join(f))
        return " + ".join(ts)
    def __len__(s): return len(s.d)
def lift(o): return o if isinstance(o,P) else P({():o})
def V(n): return P({((n,1),):1})
