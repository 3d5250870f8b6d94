import Verif.Model.Basic
/-!
# The `Decode` and `Encode` interfaces

Models `src/decode.rs` (trait `Decode`, `decode_from_bytes`), `src/encode.rs` (traits `Encode`,
`SizedEncode`) and `src/macros.rs`.

A Rust type implementing `Decode` is a dictionary `Decoder σ α`, a Rust value of the type is a
state of type `σ`. `&mut self` methods return the updated state, also when they fail.
The `&mut T` / `Box<T>` impls (`src/decode.rs` 85-122, `src/encode.rs` 73-110) forward every method;
they are in `Model/Forward.lean`.
-/
namespace Bytecodec

/-- `src/decode.rs` 9-84: `trait Decode`. -/
structure Decoder (σ α : Type) where
  /-- `fn decode(&mut self, buf: &[u8], eos: Eos) -> Result<usize>` -/
  decode : σ → Bytes → Eos → Res Nat × σ
  /-- `fn finish_decoding(&mut self) -> Result<Self::Item>` -/
  finish : σ → Res α × σ
  /-- `fn requiring_bytes(&self) -> ByteCount` -/
  requiring : σ → ByteCount
  /-- `fn is_idle(&self) -> bool`; the default method (`src/decode.rs` 80-82) is
  `isIdleDefault` below. -/
  isIdle : σ → Bool

/-- `src/decode.rs` 80-82 / `src/encode.rs` 69-71: default `is_idle`: `requiring_bytes` is `Finite(0)`. -/
def isIdleDefault (requiring : ByteCount) : Bool := requiring == .finite 0

/-- `src/encode.rs` 9-72: `trait Encode`.
Simplification: `encode` receives the *length* of the output buffer and returns the bytes it put at
the front of the buffer; `Ok(n)` in Rust is `ok bytes` with `bytes.length = n`. The buffer
itself is in `Model/InPlace.lean`; C74 shows that the two models agree. -/
structure Encoder (σ α : Type) where
  /-- `fn encode(&mut self, buf: &mut [u8], eos: Eos) -> Result<usize>` -/
  encode : σ → Nat → Eos → Res Bytes × σ
  /-- `fn start_encoding(&mut self, item: Self::Item) -> Result<()>` -/
  start : σ → α → Res Unit × σ
  /-- `fn requiring_bytes(&self) -> ByteCount` -/
  requiring : σ → ByteCount
  /-- `fn is_idle(&self) -> bool` -/
  isIdle : σ → Bool

/-- `src/encode.rs` 113-116: `trait SizedEncode: Encode`. -/
structure SizedEncoder (σ α : Type) extends Encoder σ α where
  /-- `fn exact_requiring_bytes(&self) -> u64` -/
  exact : σ → Nat

/-- Control flow of the two macros of `src/macros.rs`: fall through with the updated offset, or
return from the enclosing function. `ω` is what has been accumulated (a byte count for decoding,
the bytes written for encoding). -/
inductive Flow (ω σ : Type) where
  | next (offset : ω) (s : σ)
  | ret (r : Res ω) (s : σ)

/-- `src/macros.rs` 54-79: `bytecodec_try_decode!`.
`&$buf[$offset..]` panics when the offset lies beyond the buffer. -/
def tryDecode {σ α : Type} (D : Decoder σ α) (s : σ) (offset : Nat) (buf : Bytes) (e : Eos) :
    Flow Nat σ :=
  if D.isIdle s then .next offset s
  else if buf.length < offset then .ret .panic s
  else
    match D.decode s (buf.drop offset) e with
    | (.ok n, s') => if D.isIdle s' then .next (offset + n) s' else .ret (.ok (offset + n)) s'
    | (.err k, s') => .ret (.err k) s'
    | (.panic, s') => .ret .panic s'
    | (.capacity, s') => .ret .capacity s'
    | (.diverge, s') => .ret .diverge s'

/-- `src/macros.rs` 14-39: `bytecodec_try_encode!`. `out` is what is already in the buffer, whose
length is `cap`; `&mut $buf[$offset..]` panics when the offset lies beyond the buffer. -/
def tryEncode {σ α : Type} (E : Encoder σ α) (s : σ) (out : Bytes) (cap : Nat) (e : Eos) :
    Flow Bytes σ :=
  if E.isIdle s then .next out s
  else if cap < out.length then .ret .panic s
  else
    match E.encode s (cap - out.length) e with
    | (.ok bs, s') => if E.isIdle s' then .next (out ++ bs) s' else .ret (.ok (out ++ bs)) s'
    | (.err k, s') => .ret (.err k) s'
    | (.panic, s') => .ret .panic s'
    | (.capacity, s') => .ret .capacity s'
    | (.diverge, s') => .ret .diverge s'

/-- `src/decode.rs` 447-451: `DecodeExt::decode_from_bytes`. -/
def decodeFromBytes {σ α : Type} (D : Decoder σ α) (s : σ) (buf : Bytes) : Res α × σ :=
  Res.step (D.decode s buf (Eos.new true)) id fun size s' =>
    if size = buf.length then D.finish s' else (.err .invalidInput, s')

end Bytecodec
