/-!
# Basic data: error kinds, results, byte counts, end-of-stream markers

Models `src/error.rs`, `src/byte_count.rs`, `src/eos.rs`.
-/
namespace Bytecodec

/-- A byte sequence: `&[u8]`, `[u8; N]`, `Vec<u8>`. -/
abbrev Bytes := List UInt8

/-- `src/error.rs` 25-56: `enum ErrorKind`.
Simplification: an `Error` is represented by its kind only; `Model/Tracked.lean` has cause and history, and C100 says that
nothing else depends on them. -/
inductive ErrorKind where
  | invalidInput
  | inconsistentState
  | unexpectedEos
  | encoderFull
  | decoderTerminated
  | incompleteDecoding
  | other
deriving DecidableEq, Repr

/-- The kinds of `std::io::Error` the crate distinguishes (`src/error.rs` 12-21, `src/io.rs` 206, 327).
All remaining kinds are `other`. -/
inductive IoErr where
  | wouldBlock
  | unexpectedEof
  | other
deriving DecidableEq, Repr

/-- `src/error.rs` 12-21: `impl From<std::io::Error> for Error`. -/
def ErrorKind.ofIo (e : IoErr) : ErrorKind :=
  if e = .unexpectedEof then .unexpectedEos else .other

/-- Outcome of a Rust call returning `Result<α>`.
`panic`: arithmetic overflow, slice index out of range, or another explicit panic;
`capacity`: the "capacity overflow" panic of `Vec::reserve_exact`;
`diverge`: the call never returns. -/
inductive Res (α : Type) where
  | ok (a : α)
  | err (k : ErrorKind)
  | panic
  | capacity
  | diverge
deriving DecidableEq, Repr

/-- Rust's `let a = expr?; k` for a call that also updates a state: on success continue with `k`,
otherwise return the failure. `wrap` embeds the updated inner state into the outer one
(mutations made before the failure persist). -/
def Res.step {α β σ τ : Type} (p : Res α × σ) (wrap : σ → τ) (k : α → σ → Res β × τ) : Res β × τ :=
  match p with
  | (.ok a, s) => k a s
  | (.err e, s) => (.err e, wrap s)
  | (.panic, s) => (.panic, wrap s)
  | (.capacity, s) => (.capacity, wrap s)
  | (.diverge, s) => (.diverge, wrap s)

/-- `Result::is_ok`. -/
def Res.isOk {α : Type} : Res α → Bool
  | .ok _ => true
  | _ => false

/-- `Result::map_err` on the outcome. -/
def Res.mapErr {α : Type} (f : ErrorKind → ErrorKind) : Res α → Res α
  | .err k => .err (f k)
  | r => r

/-- `src/byte_count.rs` 6-10: `enum ByteCount`. `u64` is modelled by `Nat`; the places where Rust
would overflow are modelled where the additions happen. -/
inductive ByteCount where
  | finite (n : Nat)
  | infinite
  | unknown
deriving DecidableEq, Repr

namespace ByteCount

/-- `src/byte_count.rs` 13-15. -/
def isFinite : ByteCount → Bool
  | .finite _ => true
  | _ => false

/-- `src/byte_count.rs` 18-20. -/
def isInfinite (b : ByteCount) : Bool := b == .infinite

/-- `src/byte_count.rs` 23-25. -/
def isUnknown (b : ByteCount) : Bool := b == .unknown

/-- `src/byte_count.rs` 30-36. -/
def toU64 : ByteCount → Option Nat
  | .finite n => some n
  | _ => none

/-- `src/byte_count.rs` 52-63: `add_for_decoding`, arms in source order.
Simplification: the sum is not bounded; `addForDecodingChecked` adds the overflow check. -/
def addForDecoding : ByteCount → ByteCount → ByteCount
  | .finite a, .finite b => .finite (a + b)
  | .infinite, _ => .infinite
  | _, .infinite => .infinite
  | .unknown, .unknown => .unknown
  | .finite 0, .unknown => .unknown
  | .unknown, .finite 0 => .unknown
  | .finite a, .unknown => .finite a
  | .unknown, .finite b => .finite b

/-- `src/byte_count.rs` 76-84: `add_for_encoding`, arms in source order. Unbounded as above. -/
def addForEncoding : ByteCount → ByteCount → ByteCount
  | .finite a, .finite b => .finite (a + b)
  | .infinite, _ => .infinite
  | _, .infinite => .infinite
  | _, .unknown => .unknown
  | .unknown, _ => .unknown

/-- `src/byte_count.rs` 54: the `a + b` on `u64` panics on overflow (debug profile). -/
def addForDecodingChecked (x y : ByteCount) : Res ByteCount :=
  match x, y with
  | .finite a, .finite b => if a + b < 2 ^ 64 then .ok (addForDecoding x y) else .panic
  | _, _ => .ok (addForDecoding x y)

/-- `src/byte_count.rs` 78: likewise for encoding. -/
def addForEncodingChecked (x y : ByteCount) : Res ByteCount :=
  match x, y with
  | .finite a, .finite b => if a + b < 2 ^ 64 then .ok (addForEncoding x y) else .panic
  | _, _ => .ok (addForEncoding x y)

/-- `src/byte_count.rs` 86-96: `partial_cmp`, arms in source order. -/
def partialCmp : ByteCount → ByteCount → Option Ordering
  | .finite l, .finite r => some (compare l r)
  | .unknown, _ => none
  | _, .unknown => none
  | .infinite, .infinite => some .eq
  | .infinite, _ => some .gt
  | _, .infinite => some .lt

/-- `src/byte_count.rs` 97-102: `Default`. -/
def default : ByteCount := .unknown

end ByteCount

/-- `src/eos.rs` 5: `struct Eos(ByteCount)`. -/
structure Eos where
  remaining : ByteCount
deriving DecidableEq, Repr

namespace Eos

/-- `src/eos.rs` 8-14. -/
def new (isEosReached : Bool) : Eos :=
  if isEosReached then ⟨.finite 0⟩ else ⟨.unknown⟩

/-- `src/eos.rs` 18-20: `with_remaining_bytes`. -/
def withRemainingBytes (n : ByteCount) : Eos := ⟨n⟩

/-- `src/eos.rs` 23-25: `is_reached`. -/
def isReached (e : Eos) : Bool := e.remaining == .finite 0

/-- `src/eos.rs` 28-30: `remaining_bytes`. -/
def remainingBytes (e : Eos) : ByteCount := e.remaining

/-- `src/eos.rs` 48-54: `back`; the `u64` addition panics on overflow. -/
def back (e : Eos) (bytes : Nat) : Res Eos :=
  match e.remaining with
  | .finite n => if n + bytes < 2 ^ 64 then .ok ⟨.finite (n + bytes)⟩ else .panic
  | _ => .ok e

end Eos
end Bytecodec
