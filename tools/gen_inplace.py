#!/usr/bin/env python3
"""Generates lean/Verif/Model/InPlaceTuple.lean and lean/Verif/Lemmas/InPlaceTuple.lean: tuple encoders over buffers."""
def proj(v,i,n):
    return v + ".2"*i + (".1" if i<n-1 else "")
def rest(v,i):
    return v + ".2"*i
out=[]
w=out.append
w('''import Verif.Model.InPlace
import Verif.Model.Tuple
/-!
# Tuple encoders that write into a buffer

Models the `Encode` half of `src/tuple.rs` for arities 2 to 8. (Generated text.)
-/
namespace Bytecodec
''')
for n in range(2,9):
    S=" × ".join(f"σ{i}" for i in range(n)); A=" × ".join(f"α{i}" for i in range(n))
    tv=" ".join(f"σ{i} α{i}" for i in range(n))
    es=" ".join(f"(B{i} : BufEncoder σ{i} α{i})" for i in range(n))
    w(f'''/-- `src/tuple.rs` 96-121 at arity {n} (line {131+n}): `impl Encode for TupleEncoder`. -/
def tupleBufEncoder{n} {{{tv} : Type}}
    {es} :
    BufEncoder ({S}) ({A}) where
  encode s buf e :=''')
    ind="    "
    for i in range(n):
        off = "0" if i==0 else f"o{i-1}"
        b = "buf" if i==0 else f"b{i-1}"
        st = proj("s",i,n)
        def tup(k,last):
            comps=[f"s{j}" for j in range(k)]+[last]
            if k<n-1: comps.append(rest("s",k+1))
            return "("+", ".join(comps)+")"
        w(f"{ind}match tryEncodeBuf B{i} {st} {off} {b} e with")
        w(f"{ind}| .ret r (s{i}, b{i}) => (r, {tup(i,f's{i}')}, b{i})")
        w(f"{ind}| .next o{i} (s{i}, b{i}) =>")
        ind+="  "
    w(f"{ind}(.ok o{n-1}, ({', '.join(f's{i}' for i in range(n))}), b{n-1})")
    w("  start s t :=")
    ind="    "
    for i in range(n):
        comps=[f"s{j}" for j in range(i)]+["u"]
        if i<n-1: comps.append(rest("s",i+1))
        w(f"{ind}Res.step (B{i}.start {proj('s',i,n)} {proj('t',i,n)}) (fun u => ({', '.join(comps)})) fun _ s{i} =>")
        ind+="  "
    w(f"{ind}(.ok (), ({', '.join(f's{i}' for i in range(n))}))")
    r="ByteCount.finite 0"
    for i in range(n):
        r=f"({r}).addForEncoding (B{i}.requiring {proj('s',i,n)})"
    w(f"  requiring s := {r}")
    w("  isIdle s := "+" && ".join(f"B{i}.isIdle {proj('s',i,n)}" for i in range(n)))
    w("")
w("end Bytecodec")
open("/verif/lean/Verif/Model/InPlaceTuple.lean","w").write("\n".join(out)+"\n")
out=[]
w=out.append
w('''import Verif.Lemmas.InPlace
import Verif.Model.InPlaceTuple
/-!
# Lemmas for C74: tuples

(Generated text.)
-/
namespace Bytecodec

open Spec
''')
for n in range(2,9):
    S=" × ".join(f"σ{i}" for i in range(n)); A=" × ".join(f"α{i}" for i in range(n))
    tv=" ".join(f"σ{i} α{i}" for i in range(n))
    bs=" ".join(f"{{B{i} : BufEncoder σ{i} α{i}}} {{E{i} : Encoder σ{i} α{i}}}" for i in range(n))
    hs=" ".join(f"(h{i} : InPlace B{i} E{i})" for i in range(n))
    Bs=" ".join(f"B{i}" for i in range(n)); Es=" ".join(f"E{i}" for i in range(n))
    hl=lambda f: ", ".join(f"h{i}.{f}" for i in range(n))
    w(f'''theorem inPlace_tuple{n} {{{tv} : Type}}
    {bs}
    {hs} :
    InPlace (tupleBufEncoder{n} {Bs}) (tupleEncoder{n} {Es}) where
  idle s := by simp only [tupleBufEncoder{n}, tupleEncoder{n}, {hl('idle')}]
  requiring s := by simp only [tupleBufEncoder{n}, tupleEncoder{n}, {hl('requiring')}]
  start s x := by simp only [tupleBufEncoder{n}, tupleEncoder{n}, {hl('start')}]
  encode s buf e := by
    simp only [tupleBufEncoder{n}, tupleEncoder{n}]''')
    for i in range(n):
        first = f"h{i}.first {proj('s',i,n)} buf e" if i==0 else f"h{i}.next {proj('s',i,n)} (q{i-1}) e"
        w(f"    rcases {first} with ⟨o{i}, t{i}, q{i}, p{i}, p{i}'⟩ | ⟨r{i}, r{i}', t{i}, b{i}, q{i}, p{i}, p{i}'⟩")
        if i==0:
            w(f"    rotate_left")
        else:
            w(f"    rotate_left")
        w(f"    · rw [p{i}, p{i}']; exact q{i}.wrap _")
        w(f"    rw [p{i}, p{i}']")
        w(f"    simp only")
    w(f"    exact .ok q{n-1}")
    w("")
w("end Bytecodec")
open("/verif/lean/Verif/Lemmas/InPlaceTuple.lean","w").write("\n".join(out)+"\n")
