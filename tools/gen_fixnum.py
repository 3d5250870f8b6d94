#!/usr/bin/env python3
"""Generates lean/Verif/Model/Fixnum.lean: one definition per codec of src/fixnum.rs."""
import re
src=open("/repo/src/fixnum.rs").read().split("\n")
def line_of(name):
    st=next(i for i,l in enumerate(src) if l.startswith(f"pub struct {name}("))
    en=next(i for i in range(st,len(src)) if src[i].startswith(f"impl_") and name in src[i])
    return st+1,en+1
out=[]; w=out.append
w('''import Verif.Model.Bytes
/-!
# Fixed-width numbers

Models `src/fixnum.rs`. The reading/writing of multi-byte numbers is done by the `byteorder` crate
(not part of the repository); `readBE`/`readLE`/`writeBE`/`writeLE` are its documented behaviour.
Floating point numbers are represented by their bit patterns (`f32::to_bits`, `f64::to_bits`).
(Generated text; one definition per codec.)
-/
namespace Bytecodec

/-- `byteorder::BigEndian::read_*`: most significant byte first. -/
def readBE (b : Bytes) : Nat := b.foldl (fun acc x => acc * 256 + x.toNat) 0

/-- `byteorder::LittleEndian::read_*`: least significant byte first. -/
def readLE (b : Bytes) : Nat := b.foldr (fun x acc => x.toNat + 256 * acc) 0

/-- `byteorder::BigEndian::write_*` into a `k`-byte array. -/
def writeBE (k n : Nat) : Bytes := (List.range k).map fun i => UInt8.ofNat (n / 256 ^ (k - 1 - i))

/-- `byteorder::LittleEndian::write_*` into a `k`-byte array. -/
def writeLE (k n : Nat) : Bytes := (List.range k).map fun i => UInt8.ofNat (n / 256 ^ i)

/-- `src/fixnum.rs` 6-28: `impl_decode!`; `f` is `decode_item`. -/
def fixDecoder {α : Type} (f : Bytes → α) : Decoder CopyableState α where
  decode s buf e := copyableBytesDecoder.decode s buf e
  finish s := Res.step (copyableBytesDecoder.finish s) id fun b s' => (.ok (f b), s')
  requiring s := copyableBytesDecoder.requiring s
  isIdle s := copyableBytesDecoder.isIdle s

/-- `src/fixnum.rs` 30-59: `impl_encode!`; `f` is `encode_item`. -/
def fixEncoder {α : Type} (f : α → Except ErrorKind Bytes) : SizedEncoder (BytesEncoderState Bytes) α where
  encode s cap e := (bytesEncoder id).encode s cap e
  start s item :=
    match f item with
    | .ok b => (bytesEncoder id).start s b
    | .error k => (.err k, s)
  requiring s := (bytesEncoder id).requiring s
  isIdle s := (bytesEncoder id).isIdle s
  exact s := (bytesEncoder id).exact s

/-- The default state of a decoder for `k`-byte numbers: `CopyableBytesDecoder<[u8; k]>::default()`. -/
def fixInit (k : Nat) : CopyableState := ⟨List.replicate k 0, 0⟩
''')
# name, width, item type, to bits, of bits, limit
spec=[("U16",2,"UInt16",None),("I16",2,"Int16",None),("U24",3,"UInt32","0xFFFFFF"),("U32",4,"UInt32",None),("I32",4,"Int32",None),
("U40",5,"UInt64","0xFFFFFFFFFF"),("U48",6,"UInt64","0xFFFFFFFFFFFF"),("U56",7,"UInt64","0xFFFFFFFFFFFFFF"),("U64",8,"UInt64",None),("I64",8,"Int64",None),
("F32",4,"UInt32",None),("F64",8,"UInt64",None)]
for nm,k in (("U8","UInt8"),("I8","Int8")):
    a,b=line_of(nm+"Decoder"); c,d=line_of(nm+"Encoder")
    of = "b.headD 0" if nm=="U8" else "(b.headD 0).toInt8"
    to = "n" if nm=="U8" else "n.toUInt8"
    lo=nm[0].lower()+nm[1:]
    w(f'''/-- `src/fixnum.rs` {a}-{b}: `{nm}Decoder`. -/
def {lo}Decoder : Decoder CopyableState {k} := fixDecoder fun b => {of}

/-- `src/fixnum.rs` {c}-{d}: `{nm}Encoder`. -/
def {lo}Encoder : SizedEncoder (BytesEncoderState Bytes) {k} := fixEncoder fun n => .ok [{to}]
''')
for nm,k,ty,lim in spec:
    for o,O in (("be","BE"),("le","LE")):
        a,b=line_of(nm+o+"Decoder"); c,d=line_of(nm+o+"Encoder")
        lo=nm[0].lower()+nm[1:]+o
        signed=ty.startswith("Int")
        if signed:
            U="U"+ty
            of=f"({U}.ofNat (read{O} b)).to{ty}"; to=f"n.to{U}.toNat"
        else:
            of=f"{ty}.ofNat (read{O} b)"; to="n.toNat"
        body = f".ok (write{O} {k} ({to}))"
        if lim: body=f"\n  if n.toNat ≤ {lim} then {body} else .error .invalidInput"
        else: body=" "+body
        w(f'''/-- `src/fixnum.rs` {a}-{b}: `{nm}{o}Decoder`. -/
def {lo}Decoder : Decoder CopyableState {ty} := fixDecoder fun b => {of}

/-- `src/fixnum.rs` {c}-{d}: `{nm}{o}Encoder`. -/
def {lo}Encoder : SizedEncoder (BytesEncoderState Bytes) {ty} := fixEncoder fun n =>{body}
''')
w("end Bytecodec")
open("/verif/lean/Verif/Model/Fixnum.lean","w").write("\n".join(out)+"\n")
