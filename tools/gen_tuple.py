#!/usr/bin/env python3
"""Generates lean/Verif/Model/Tuple.lean: the macro expansions of src/tuple.rs for arities 2..8."""
def proj(v,i,n):
    # i-th component of right-nested n-tuple
    return v + ".2"*i + (".1" if i<n-1 else "")
def rest(v,i):
    return v + ".2"*i
out=[]
w=out.append
w('''import Verif.Model.Core
/-!
# Tuple codecs

Models `src/tuple.rs`: the macro expansions for arities 2 to 8, one definition per arity.
(Generated text; each definition is the literal expansion of the macro body.)
-/
namespace Bytecodec
''')
for n in range(2,9):
    S=" × ".join(f"σ{i}" for i in range(n)); A=" × ".join(f"α{i}" for i in range(n))
    tv=" ".join(f"σ{i} α{i}" for i in range(n))
    ds=" ".join(f"(D{i} : Decoder σ{i} α{i})" for i in range(n))
    w(f'''/-- `src/tuple.rs` 31-60 at arity {n} (line {59+n}): `impl Decode for TupleDecoder`. -/
def tupleDecoder{n} {{{tv} : Type}}
    {ds} :
    Decoder ({S}) ({A}) where
  decode s buf e :=''')
    ind="    "
    for i in range(n):
        off = "0" if i==0 else f"o{i-1}"
        st = proj("s",i,n)
        def tup(k,last): # state with components 0..k-1 new, last given, rest old
            comps=[f"s{j}" for j in range(k)]+[last]
            if k<n-1: comps.append(rest("s",k+1))
            return "("+", ".join(comps)+")"
        w(f"{ind}match tryDecode D{i} {st} {off} buf e with")
        w(f"{ind}| .ret r s{i} => (r, {tup(i,f's{i}')})")
        w(f"{ind}| .next o{i} s{i} =>")
        ind+="  "
    w(f"{ind}(.ok o{n-1}, ({', '.join(f's{i}' for i in range(n))}))")
    w("  finish s :=")
    ind="    "
    for i in range(n):
        comps=[f"s{j}" for j in range(i)]+["t"]
        if i<n-1: comps.append(rest("s",i+1))
        w(f"{ind}Res.step (D{i}.finish {proj('s',i,n)}) (fun t => ({', '.join(comps)})) fun x{i} s{i} =>")
        ind+="  "
    w(f"{ind}(.ok ({', '.join(f'x{i}' for i in range(n))}), ({', '.join(f's{i}' for i in range(n))}))")
    r="ByteCount.finite 0"
    for i in range(n):
        r=f"({r}).addForDecoding (D{i}.requiring {proj('s',i,n)})"
    w(f"  requiring s := {r}")
    w("  isIdle s := "+" && ".join(f"D{i}.isIdle {proj('s',i,n)}" for i in range(n)))
    w("")
for n in range(2,9):
    S=" × ".join(f"σ{i}" for i in range(n)); A=" × ".join(f"α{i}" for i in range(n))
    tv=" ".join(f"σ{i} α{i}" for i in range(n))
    es=" ".join(f"(E{i} : Encoder σ{i} α{i})" for i in range(n))
    w(f'''/-- `src/tuple.rs` 96-121 at arity {n} (line {131+n}): `impl Encode for TupleEncoder`. -/
def tupleEncoder{n} {{{tv} : Type}}
    {es} :
    Encoder ({S}) ({A}) where
  encode s cap e :=''')
    ind="    "
    for i in range(n):
        off = "[]" if i==0 else f"o{i-1}"
        st = proj("s",i,n)
        def tup(k,last):
            comps=[f"s{j}" for j in range(k)]+[last]
            if k<n-1: comps.append(rest("s",k+1))
            return "("+", ".join(comps)+")"
        w(f"{ind}match tryEncode E{i} {st} {off} cap e with")
        w(f"{ind}| .ret r s{i} => (r, {tup(i,f's{i}')})")
        w(f"{ind}| .next o{i} s{i} =>")
        ind+="  "
    w(f"{ind}(.ok o{n-1}, ({', '.join(f's{i}' for i in range(n))}))")
    w("  start s t :=")
    ind="    "
    for i in range(n):
        comps=[f"s{j}" for j in range(i)]+["u"]
        if i<n-1: comps.append(rest("s",i+1))
        w(f"{ind}Res.step (E{i}.start {proj('s',i,n)} {proj('t',i,n)}) (fun u => ({', '.join(comps)})) fun _ s{i} =>")
        ind+="  "
    w(f"{ind}(.ok (), ({', '.join(f's{i}' for i in range(n))}))")
    r="ByteCount.finite 0"
    for i in range(n):
        r=f"({r}).addForEncoding (E{i}.requiring {proj('s',i,n)})"
    w(f"  requiring s := {r}")
    w("  isIdle s := "+" && ".join(f"E{i}.isIdle {proj('s',i,n)}" for i in range(n)))
    w("")
for n in range(2,9):
    S=" × ".join(f"σ{i}" for i in range(n)); A=" × ".join(f"α{i}" for i in range(n))
    tv=" ".join(f"σ{i} α{i}" for i in range(n))
    es=" ".join(f"(E{i} : SizedEncoder σ{i} α{i})" for i in range(n))
    w(f'''/-- `src/tuple.rs` 122-130 at arity {n}: `impl SizedEncode for TupleEncoder` (the `u64` sum is unbounded here). -/
def sizedTupleEncoder{n} {{{tv} : Type}}
    {es} :
    SizedEncoder ({S}) ({A}) where
  toEncoder := tupleEncoder{n} {' '.join(f'E{i}.toEncoder' for i in range(n))}
  exact s := 0 + {' + '.join(f"E{i}.exact {proj('s',i,n)}" for i in range(n))}
''')
w("end Bytecodec")
open("/verif/lean/Verif/Model/Tuple.lean","w").write("\n".join(out)+"\n")
