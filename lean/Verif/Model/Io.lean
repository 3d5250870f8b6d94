import Verif.Model.Bytes
/-!
# Blocking I/O helpers

Models `src/io.rs` 1-139: `decode_exact`, `encode_all`, `StreamState`, and the parts of
`std::io::{Read, Write}` they rely on.
-/
namespace Bytecodec

/-- Answer of `std::io::Read::read`: `Ok(n)` together with the `n` bytes stored at the front of the
caller's buffer, or an error. -/
inductive ReadRes where
  | data (bs : Bytes)
  | error (e : IoErr)
deriving DecidableEq, Repr

/-- Answer of `std::io::Write::write`: the number of bytes accepted, or an error. -/
inductive WriteRes where
  | wrote (n : Nat)
  | error (e : IoErr)
deriving DecidableEq, Repr

/-- A `std::io::Read` value: an arbitrary state machine. `read r n` is `read(&mut buf[..n])`. -/
structure Reader (ρ : Type) where
  read : ρ → Nat → ReadRes × ρ

/-- A `std::io::Write` value: an arbitrary state machine. -/
structure Writer (ω : Type) where
  write : ω → Bytes → WriteRes × ω

/-- std's `Write::write_all`: repeat `write` on what is left; `Ok(0)` is a `WriteZero` error.
Simplification: `ErrorKind::Interrupted` (which std retries) is left to `Model/Interrupted.lean`.
`&buf[n..]` panics when the writer claims to have written more than it was given. -/
def writeAll {ω : Type} (W : Writer ω) (w : ω) (buf : Bytes) : Res Unit × ω :=
  if buf.isEmpty then (.ok (), w)
  else
    match W.write w buf with
    | (.error k, w') => (.err (ErrorKind.ofIo k), w')
    | (.wrote n, w') =>
      if n = 0 then (.err (ErrorKind.ofIo .other), w')
      else if buf.length < n then (.panic, w')
      else writeAll W w' (buf.drop n)
termination_by buf.length
decreasing_by
  cases buf with
  | nil => simp_all
  | cons _ _ => simp only [List.length_drop, List.length_cons]; omega

/-- `impl Write for Vec<u8>`: appends everything. -/
def vecWriter : Writer Bytes where
  write w buf := (.wrote buf.length, w ++ buf)

/-- `src/io.rs` 30-52: `IoDecodeExt::decode_exact`. The loop need not terminate, so it is a least
fixed point; `none` means that it runs forever. The internal buffer has 1024 bytes; `&buf[..size]`
panics if the reader claims more. -/
def decodeExact {σ α ρ : Type} (D : Decoder σ α) (R : Reader ρ) (s : σ) (r : ρ) :
    Option (Res α × σ × ρ) :=
  let size :=
    match D.requiring s with
    | .finite n => min n 1024
    | .infinite => 1024
    | .unknown => 1
  match (if size ≠ 0 then R.read r size else (.data [], r)) with
  | (.error k, r') => some (.err (ErrorKind.ofIo k), s, r')
  | (.data bs, r') =>
    if 1024 < bs.length then some (.panic, s, r')
    else
      match D.decode s bs (Eos.new (size ≠ 0 && bs.isEmpty)) with
      | (.ok consumed, s') =>
        if consumed ≠ bs.length then some (.err .inconsistentState, s', r')
        else if D.isIdle s' then some ((D.finish s').1, (D.finish s').2, r')
        else decodeExact D R s' r'
      | (.err k, s') => some (.err k, s', r')
      | (.panic, s') => some (.panic, s', r')
      | (.capacity, s') => some (.capacity, s', r')
      | (.diverge, s') => some (.diverge, s', r')
partial_fixpoint

/-- `src/io.rs` 95-105: `IoEncodeExt::encode_all`; a least fixed point as above. -/
def encodeAll {σ α ω : Type} (E : Encoder σ α) (W : Writer ω) (s : σ) (w : ω) :
    Option (Res Unit × σ × ω) :=
  if E.isIdle s then some (.ok (), s, w)
  else
    match E.encode s 1024 (Eos.new false) with
    | (.ok bs, s') =>
      if 1024 < bs.length then some (.panic, s', w)
      else
        match writeAll W w bs with
        | (.ok (), w') =>
          if !E.isIdle s' && bs.isEmpty then some (.err .other, s', w')
          else encodeAll E W s' w'
        | (.err k, w') => some (.err k, s', w')
        | (.panic, w') => some (.panic, s', w')
        | (.capacity, w') => some (.capacity, s', w')
        | (.diverge, w') => some (.diverge, s', w')
    | (.err k, s') => some (.err k, s', w)
    | (.panic, s') => some (.panic, s', w)
    | (.capacity, s') => some (.capacity, s', w)
    | (.diverge, s') => some (.diverge, s', w)
partial_fixpoint

/-- `src/encode.rs` 428-447: `EncodeExt::encode_into_bytes`.
`size <= usize::MAX as u64` always holds with 64-bit `usize`; `vec![0; size]` panics with a capacity
overflow when `size > isize::MAX`. The number of bytes reported by `encode` is ignored by the code:
the whole zero-initialised buffer is returned. -/
def encodeIntoBytes {σ α : Type} (E : Encoder σ α) (s : σ) (item : α) : Res Bytes × σ :=
  Res.step (E.start s item) id fun _ s' =>
    match E.requiring s' with
    | .finite size =>
      if 2 ^ 63 ≤ size then (.capacity, s')
      else
        Res.step (E.encode s' size (Eos.new true)) id fun bs s'' =>
          if E.isIdle s'' then (.ok ((bs ++ List.replicate (size - bs.length) 0).take size), s'')
          else (.err .inconsistentState, s'')
    | .unknown =>
      match encodeAll E vecWriter s' [] with
      | none => (.diverge, s')
      | some (r, s'', out) => Res.step (r, s'') id fun _ t => (.ok out, t)
    | .infinite => (.err .invalidInput, s')

/-- `src/encode.rs` 145-152: `EncodeExt::with_item`, given the default state. -/
def withItem {σ α : Type} (E : Encoder σ α) (default : σ) (item : α) : Res σ :=
  match E.start default item with
  | (.ok (), s) => .ok s
  | (.err k, _) => .err k
  | (.panic, _) => .panic
  | (.capacity, _) => .capacity
  | (.diverge, _) => .diverge

end Bytecodec
