#!/usr/bin/env python3
"""Transliterates the straight-line functions of /repo/src/curve25519-fiat32.h to Lean (lean/Verif/Model/Curve32Gen.lean).

Every C operation becomes a reduction of the same operation on natural numbers: `w32` or `w64` after its C type (the usual arithmetic
conversions). The three multiplication functions are cut at the same two places (after the 19 wide products, and after adding 19
times the upper ones); the script checks that what follows the first cut is the same text in all three up to the names."""
import re,sys
src=open('/repo/src/curve25519-fiat32.h').read().split('\n')
def find(name):
    for i,l in enumerate(src):
        if re.search(r'\b'+name+r'\(u32 out',l):
            j=i
            while src[j]!='}': j+=1
            return i+1,j+1,src[i+2:j]
    raise SystemExit(name)
tok=re.compile(r'\s*(0x[0-9a-f]+|\d+|x\d+|<<|>>|[()+\-*&|])')
class P:
    def __init__(s,t,ty):
        s.t=tok.findall(t); s.i=0; s.ty=ty
    def peek(s): return s.t[s.i] if s.i<len(s.t) else None
    def nxt(s): s.i+=1; return s.t[s.i-1]
    # precedence climbing: * > +,- > <<,>> > & 
    def expr(s): return s.band()
    def band(s):
        a=s.shift()
        while s.peek()=='&':
            s.nxt(); b=s.shift(); a=(f"({a[0]} &&& {b[0]})",max(a[1],b[1]))
        return a
    def shift(s):
        a=s.add()
        while s.peek() in('<<','>>'):
            o=s.nxt(); b=s.add()
            assert re.match(r'^\d+$',b[0])
            if o=='>>': a=(f"({a[0]} >>> {b[0]})",a[1])
            else: a=(f"w{a[1]} ({a[0]} <<< {b[0]})",a[1]); a=("("+a[0]+")",a[1])
        return a
    def wrap(s,e,t): assert t in (32,64),(e,t); return (f"(w{t} ({e}))",t)
    def add(s):
        a=s.mul()
        while s.peek() in('+','-'):
            o=s.nxt(); b=s.mul(); t=max(a[1],b[1])
            if o=='+': a=s.wrap(f"{a[0]} + {b[0]}",t)
            else: a=(f"(sub{t} {a[0]} {b[0]})",t)
        return a
    def mul(s):
        a=s.atom()
        while s.peek()=='*':
            s.nxt(); b=s.atom(); a=s.wrap(f"{a[0]} * {b[0]}",max(a[1],b[1]))
        return a
    def atom(s):
        x=s.nxt()
        if x=='(':
            e=s.expr(); assert s.nxt()==')'; return e
        if x[0]=='x': return (x,s.ty[x])
        return (str(int(x,0)),31)  # int constant
def casts(t): # (u64)X and (u32)X
    return t
class Q(P):
    def atom(s):
        x=s.nxt()
        if x in('U64','U32'):
            w=int(x[1:]); e=s.atom()
            if w==64: return (e[0],64)
            return (f"(w32 {e[0]})",32)
        if x=='(':
            e=s.expr(); assert s.nxt()==')'; return e
        if x[0]=='x': return (x,s.ty[x])
        return (str(int(x,0)),31)
tok=re.compile(r'\s*(U64|U32|0x[0-9a-f]+|\d+|x\d+|<<|>>|[()+\-*&|])')
def conv(t,ty):
    t=t.replace('(u64)','U64 ').replace('(u32)','U32 ')
    p=Q(t,ty); e=p.expr(); assert p.peek() is None,(t,p.t[p.i:])
    r=e[0]
    return r
def parse(name):
    a,b,body=find(name)
    ins={};lets=[];outs={};ty={}
    for l in body:
        l=l.strip()
        m=re.match(r'\{ const u32 (x\d+) = (in[12])\[(\d)\];$',l)
        if m: ins[m[1]]=(m[2],int(m[3])); ty[m[1]]=32; continue
        m=re.match(r'\{ const u32 (x\d+) = (\d+);$',l)
        if m: ins[m[1]]=('const',int(m[2])); ty[m[1]]=32; continue
        m=re.match(r'\{ u(32|64) (x\d+) = (.*);$',l)
        if m:
            lets.append((m[2],int(m[1]),m[3])); continue
        m=re.match(r'out\[(\d)\] = (.*);$',l)
        if m: outs[int(m[1])]=m[2]; continue
        assert re.match(r'^\}*$',l),l
    return a,b,ins,lets,outs,ty
def leanlets(lets,ty,ind='  '):
    o=[]
    for n,w,e in lets:
        ty[n]=w
        o.append(f"{ind}let {n} := {conv(e,ty)}")
    return o
L=[]
L.append("""import Verif.Base.Bytes
/-!
Generated by tools/fiat32.py from src/curve25519-fiat32.h: the straight-line field arithmetic of the 32-bit code, with the variable
names of the C text. `w32`, `w64` are the reductions of the C types, `sub32` the subtraction of `u32`.
-/
namespace WG.C32

/-- Reduction to a `u32`. -/
def w32 (n : Nat) : Nat := n % 2 ^ 32
/-- Reduction to a `u64`. -/
def w64 (n : Nat) : Nat := n % 2 ^ 64
/-- Subtraction of `u32`. -/
def sub32 (a b : Nat) : Nat := (a + 2 ^ 32 - b) % 2 ^ 32

/-- fiat32.h:20, 25 `struct fe`, `struct fe_loose`: an array of ten `u32`. -/
structure Fe where
"""+"\n".join(f"  l{i} : Nat" for i in range(10))+"""
deriving DecidableEq

/-- The 19 coefficients of a product. -/
structure Wide where
"""+"\n".join(f"  c{i} : Nat" for i in range(19))+"\n")
def inlets(ins,names,which=('in1','in2')):
    o=[]
    for x,(w,i) in ins.items():
        if w in names: o.append(f"  let {x} := {names[w]}.l{i}")
        else: o.append(f"  let {x} := {i}")
    return o
# add, sub
for n,ln in(('fe_add_impl','add'),('fe_sub_impl','sub')):
    a,b,ins,lets,outs,ty=parse(n)
    L.append(f"/-- fiat32.h:{a}-{b} `{n}`. -/\ndef {ln} (in1 in2 : Fe) : Fe :=")
    L+=inlets(ins,{'in1':'in1','in2':'in2'})
    L.append("  ⟨"+",\n   ".join(conv(outs[i],ty) for i in range(10))+"⟩\n")
tails=[]
for n,ln,args in(('fe_mul_impl','mulWide','(in1 in2 : Fe)'),('fe_sqr_impl','sqrWide','(in1 : Fe)'),('fe_mul_121666_impl','mulWide121666','(in1 : Fe)')):
    a,b,ins,lets,outs,ty=parse(n)
    wide=lets[:19]; rest=lets[19:]
    L.append(f"/-- fiat32.h:{a}-{b} `{n}`, the 19 products. -/\ndef {ln} {args} : Wide :=")
    L+=inlets(ins,{'in1':'in1','in2':'in2'})
    L+=leanlets(wide,ty)
    L.append("  ⟨"+", ".join(w[0] for w in wide)+"⟩\n")
    # normalised tail: rename
    ren={}
    for k,w in enumerate(wide): ren[w[0]]=f"c{k}"
    for k,w in enumerate(rest): ren[w[0]]=f"t{k}"
    f=lambda e: re.sub(r'\bx\d+',lambda m:ren[m[0]],e)
    tails.append(([(ren[x],w,f(e)) for x,w,e in rest],{i:f(e) for i,e in outs.items()}))
    if n=='fe_mul_impl': keep=(a,b,wide,rest,outs,ty)
assert tails[0]==tails[1]==tails[2]
a,b,wide,rest,outs,ty=keep
fold=rest[:27]; carry=rest[27:]
assert fold[-1][0]=='x85' and carry[0][0]=='x86'
L.append(f"/-- fiat32.h:{a}-{b} `fe_mul_impl`, x59 to x85 (the same in `fe_sqr_impl` and `fe_mul_121666_impl` up to names): the upper products times 19\nto the lower ones. -/\ndef fold (w : Wide) : Fe :=")
for k,x in enumerate(wide): L.append(f"  let {x[0]} := w.c{k}")
L+=leanlets(fold,ty)
L.append("  ⟨x85, x82, x79, x76, x73, x70, x67, x64, x61, x49⟩\n")
L.append(f"/-- fiat32.h:{a}-{b} `fe_mul_impl`, from x86 on (the same in `fe_sqr_impl` and `fe_mul_121666_impl` up to names): the carries. -/\ndef carry (t : Fe) : Fe :=")
for k,x in enumerate(['x85','x82','x79','x76','x73','x70','x67','x64','x61','x49']): L.append(f"  let {x} := t.l{k}")
L+=leanlets(carry,ty)
L.append("  ⟨"+", ".join(conv(outs[i],ty) for i in range(10))+"⟩\n")
L.append("end WG.C32")
open('/verif/lean/Verif/Model/Curve32Gen.lean','w').write("\n".join(L)+"\n")
