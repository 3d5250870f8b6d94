import Verif.Model.Bytes
/-!
# The memory `RemainingBytesDecoder` asks for

The decoder of `Model/Bytes.lean` once more, together with the capacity of its `Vec<u8>`. What `Vec`
does is modelled after std (`alloc/src/raw_vec`): `reserve_exact` makes the capacity exactly what is
needed if it does not suffice, `extend_from_slice` grows it to the double or to what is needed, and at
least to 8 elements of one byte. An allocator that runs out of memory is not modelled.
-/
namespace Bytecodec

/-- std: `Vec::reserve_exact(add)` of a vector of `len` elements. -/
def growExact (cap len add : Nat) : Nat := if cap - len < add then len + add else cap

/-- std: `Vec::reserve(add)`, as used by `extend_from_slice`. -/
def growAmortized (cap len add : Nat) : Nat :=
  if cap - len < add then max 8 (max (2 * cap) (len + add)) else cap

/-- `src/bytes.rs` 290-293: `struct RemainingBytesDecoder`, with the capacity of `buf`. -/
structure RemainingMem where
  buf : Bytes
  eos : Bool
  cap : Nat
deriving DecidableEq, Repr

/-- `src/bytes.rs` 289-299: `new`/`default`; an empty `Vec` owns no memory. -/
def RemainingMem.new : RemainingMem := ⟨[], false, 0⟩

/-- `src/bytes.rs` 300-334: `impl Decode for RemainingBytesDecoder`. `decode` 303-314: line 309 reserves
for the buffer and all that is announced, line 311 appends. `finish` 316-321: `mem::take` leaves an empty
`Vec`; the memory goes with the item. -/
def remainingMemDecoder : Decoder RemainingMem Bytes where
  decode s buf e :=
    if s.eos then (.ok 0, s)
    else
      let go (cap : Nat) : Res Nat × RemainingMem :=
        (.ok buf.length, ⟨s.buf ++ buf, e.isReached, growAmortized cap s.buf.length buf.length⟩)
      match e.remainingBytes.toU64 with
      | some remaining =>
        if 2 ^ 64 ≤ buf.length + remaining then (.panic, s)
        else if 2 ^ 63 ≤ s.buf.length + (buf.length + remaining) then (.capacity, s)
        else go (growExact s.cap s.buf.length (buf.length + remaining))
      | none => go s.cap
  finish s :=
    if s.eos then (.ok s.buf, ⟨[], false, 0⟩) else (.err .incompleteDecoding, s)
  requiring s := if s.eos then .finite 0 else .infinite
  isIdle s := s.eos

end Bytecodec
