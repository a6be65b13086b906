"""Writes lean/Verif/Lemmas/Expand.lean (run in /verif: PYTHONPATH=tools python3 tools/genexpand.py)."""
from poly import *
from poly import P as Poly
def subst(p,m):
    r=P()
    for k,v in p.d.items():
        t=lift(v)
        for a,e in k: t=t*(m.get(a,V(a))**e)
        r=r+t
    return r
def wrapl(s,ind,width=112):
    # break at ' + '
    parts=s.split(' + '); lines=[];cur=''
    for i,q in enumerate(parts):
        q2=(' + ' if i else '')+q
        if cur and len(ind)+len(cur)+len(q2)>width:
            lines.append(cur); cur='+ '+q if i else q
        else: cur+=q2 if cur else q
    lines.append(cur)
    return ('\n'+ind).join(lines)
import re
def L(p): 
    s=p.lean()
    s=s.replace('*',' * ').replace('^',' ^ ')
    return s
out=[]
x=V('x')
def emit(name,prev,prevparams,prevpoly,sub,params,mom):
    """prev: lean function name or None (then prevpoly given with lean string prevlean)"""
    sp=subst(prevpoly,sub)
    cs=sp.coeffs('x')
    new=P(); moms=[]
    for k,c in enumerate(cs):
        if k==2: new=new+c
        elif k>2:
            if len(c): 
                moms.append(f"{mom}{k}")
                new=new+V(f"{mom}{k}")*c
    allp=params+moms
    out.append(f"/-- Expansion step. -/\ndef {name} {{α : Type*}} [CommRing α] ({' '.join(allp)} : α) : α :=\n  {wrapl(L(new),'    ')}\n")
    args=[]
    for q in prevparams:
        if q in sub:
            # lean string with X d
            ccs=sub[q].coeffs('x'); t=[]
            for k,c in enumerate(ccs):
                if not len(c): continue
                s=L(c)
                t.append(s if k==0 else f"{s} * X d" if k==1 else f"{s} * X d ^ {k}")
            args.append("("+" + ".join(t)+")")
        else: args.append(q)
    lhs=prev.format(*args)
    frees=" ".join(f"(_h{q} : Free d {q})" for q in params)
    hl=", ".join(f"{wrapl(L(c),'        ')}" for c in cs)
    newargs=" ".join(params+[f"(C (mu d {m[len(mom):]}))" for m in moms])
    names=" ".join(params)
    lhsx=lhs.replace('X d','x')
    pd=prev.split()[0] if not prev.startswith('(') else ''
    sm=lambda l: "simp only ["+", ".join(q for q in l if q)+"]"
    out.append(f"""set_option maxHeartbeats 1000000 in\ntheorem {name}_poly {{α : Type*}} [CommRing α] (x {names} : α) :
    {lhsx} = polyL x [{hl}] := by
  {sm(['polyL',pd])}; ring

theorem {name}_step (mu : σ → ℕ → R) {{d : σ}} {{T : Finset σ}} (hd : d ∉ T) (h1 : mu d 1 = 0) (h2 : mu d 2 = 1)
    {{{names} : MvPolynomial σ R}} {frees} :
    Eo mu (insert d T) ({lhs}) = Eo mu T ({name} {newargs}) := by
  rw [{name}_poly, Eo_list mu hd h1 h2 _ _ _ _ (by free_tac) (by free_tac) (by free_tac) (by free_tac)]
  refine congrArg (Eo mu T) ?_
  simp only [dotL, {name}]; ring
""")
    return allp,new
A,B,K=V('A'),V('B'),V('K')
# ---- single quadratic, powers 3 and 4
for n in (3,4):
    f1p,f1=emit(f"F{n}1",f"({{0}}) ^ {n}",['q'],V('q')**n,{'q':A+B*x+K*x**2},['A','B','K'],'c')
    f2p,f2=emit(f"F{n}2",f"F{n}1 "+" ".join("{%d}"%i for i in range(len(f1p))),f1p,f1,
        {'A':V('A0')+V('A1')*x+V('A2')*x**2,'B':V('B0')+V('B1')*x},['A0','A1','A2','B0','B1']+f1p[2:],'b')
    ps=f2p
    f3p,f3=emit(f"F{n}3",f"F{n}2 "+" ".join("{%d}"%i for i in range(len(f2p))),f2p,f2,
        {'A0':V('A00')+V('A01')*x+V('A02')*x**2,'A1':V('A10')+V('A11')*x,'B0':V('B00')+V('B01')*x},
        ['A00','A01','A02','A10','A11','A2','B00','B01']+f2p[4:],'a')
    if n==4:
        f4p,f4=emit(f"F{n}4",f"F{n}3 "+" ".join("{%d}"%i for i in range(len(f3p))),f3p,f3,
        {'A00':V('A000')+V('A001')*x+V('A002')*x**2,'A01':V('A010')+V('A011')*x,'A10':V('A100')+V('A101')*x,'B00':V('B000')+V('B001')*x},
        ['A000','A001','A002','A010','A011','A02','A100','A101','A11','A2','B000','B001']+f3p[7:],'z')
# ---- product of two quadratics
f1p,f1=emit("P1","({0}) * ({1})",['q','r'],V('q')*V('r'),{'q':A+B*x+K*x**2,'r':V('U')+V('V')*x+V('W')*x**2},['A','B','K','U','V','W'],'c')
f2p,f2=emit("P2","P1 "+" ".join("{%d}"%i for i in range(len(f1p))),f1p,f1,
   {'A':V('A0')+V('A1')*x+V('A2')*x**2,'B':V('B0')+V('B1')*x,'U':V('U0')+V('U1')*x+V('U2')*x**2,'V':V('V0')+V('V1')*x},
   ['A0','A1','A2','B0','B1','K','U0','U1','U2','V0','V1','W']+f1p[6:],'b')
hdr='''import Verif.Lemmas.Quad

/-!
# Expectations of powers of quadratic polynomials, one variable at a time

Generated by `tools/genexpand.py`.
-/

namespace Unc
namespace Expect
open MvPolynomial

variable {σ R : Type*} [LinearOrder σ] [CommRing R]

/-- Proves `Free` goals. -/
macro "free_tac" : tactic => `(tactic| repeat' with_reducible (first
  | assumption
  | refine Free.add ?_ ?_
  | refine Free.mul ?_ ?_
  | refine Free.pow ?_ _
  | exact Free.ofNat _
  | exact Free.C _
  | exact Free.zero
  | exact List.forall_mem_nil _
  | refine List.forall_mem_cons.2 ⟨?_, ?_⟩))

'''
open('lean/Verif/Lemmas/Expand.lean','w').write(hdr+"\n".join(out)+"\nend Expect\nend Unc\n")
