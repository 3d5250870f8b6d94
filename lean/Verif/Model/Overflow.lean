import Verif.Model.Basic
import Verif.Model.EncCombinator
/-!
# `u64` arithmetic of tuples

The dictionaries of `Model/Tuple.lean` add byte counts without a bound. Here are the same sums with the
overflow check of Rust (debug profile), for any arity.
-/
namespace Bytecodec

/-- `src/tuple.rs` 51-53: `TupleDecoder::requiring_bytes`, given what the components answer (from left
to right); `.panic` is the overflow of an addition in `src/byte_count.rs` 54. -/
def tupleRequiringDec (cs : List ByteCount) : Res ByteCount :=
  cs.foldl (fun acc c => match acc with
    | .ok a => a.addForDecodingChecked c
    | r => r) (.ok (.finite 0))

/-- `src/tuple.rs` 115-117: `TupleEncoder::requiring_bytes`, likewise. -/
def tupleRequiringEnc (cs : List ByteCount) : Res ByteCount :=
  cs.foldl (fun acc c => match acc with
    | .ok a => a.addForEncodingChecked c
    | r => r) (.ok (.finite 0))

/-- `src/tuple.rs` 127-129: `TupleEncoder::exact_requiring_bytes`, likewise; the additions are those of
`u64`. -/
def tupleExact (ns : List Nat) : Res Nat :=
  ns.foldl (fun acc n => match acc with
    | .ok a => if a + n < 2 ^ 64 then .ok (a + n) else .panic
    | r => r) (.ok 0)

/-- The same for a pair whose components' own answers may overflow: a panic of one of them is the panic of
the whole. -/
def pairRequiringDec : Res ByteCount → Res ByteCount → Res ByteCount
  | .ok a, .ok b => tupleRequiringDec [a, b]
  | .ok _, r => r
  | r, _ => r

/-- `requiring_bytes` of a pair of encoders, likewise. -/
def pairRequiringEnc : Res ByteCount → Res ByteCount → Res ByteCount
  | .ok a, .ok b => tupleRequiringEnc [a, b]
  | .ok _, r => r
  | r, _ => r

/-- `exact_requiring_bytes` of a pair, likewise. -/
def pairExact : Res Nat → Res Nat → Res Nat
  | .ok a, .ok b => tupleExact [a, b]
  | .ok _, r => r
  | r, _ => r

/-- `src/combinator.rs` 1047-1073: `impl Encode for MaxBytes<E>`, with the check of the addition to the `u64`
counter in line 1052. -/
def maxBytesEncoderChecked {σ α : Type} (E : Encoder σ α) : Encoder (MaxBytesState σ) α where
  encode s cap e :=
    Res.step (E.encode s.inner cap e) (fun i => { s with inner := i }) fun bs i =>
      if s.consumed + bs.length < 2 ^ 64 then
        let consumed := s.consumed + bs.length
        if s.max < consumed then (.err .invalidInput, { s with inner := i, consumed := consumed })
        else if E.isIdle i then (.ok bs, { s with inner := i, consumed := 0 })
        else (.ok bs, { s with inner := i, consumed := consumed })
      else (.panic, { s with inner := i })
  start := (maxBytesEncoder E).start
  requiring := (maxBytesEncoder E).requiring
  isIdle := (maxBytesEncoder E).isIdle

end Bytecodec
