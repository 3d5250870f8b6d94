import Verif.Model.Io
/-!
# Readers and writers whose system calls are interrupted

`std::io::Write::write_all`, which `encode_all` uses, calls `write` again when it was interrupted
(`ErrorKind::Interrupted`). `writeAll` in `Model/Io.lean` leaves this out; here it is put back.
-/
namespace Bytecodec

/-- Answer of `std::io::Write::write` with the kind `Interrupted` set apart. -/
inductive RawRes where
  | done (r : WriteRes)
  | interrupted
deriving DecidableEq, Repr

/-- A `std::io::Write` value whose calls may be interrupted. -/
structure RawWriter (ω : Type) where
  write : ω → Bytes → RawRes × ω

/-- std's `Write::write_all`, complete: repeat `write` on what is left, and again when it was
interrupted. `none`: it is interrupted forever. -/
def writeAllRaw {ω : Type} (W : RawWriter ω) (w : ω) (buf : Bytes) : Option (Res Unit × ω) :=
  if buf.isEmpty then some (.ok (), w)
  else
    match W.write w buf with
    | (.interrupted, w') => writeAllRaw W w' buf
    | (.done (.error k), w') => some (.err (ErrorKind.ofIo k), w')
    | (.done (.wrote n), w') =>
      if n = 0 then some (.err (ErrorKind.ofIo .other), w')
      else if buf.length < n then some (.panic, w')
      else writeAllRaw W w' (buf.drop n)
partial_fixpoint

/-- `src/io.rs` 95-105: `IoEncodeExt::encode_all` with the `write_all` above. -/
def encodeAllRaw {σ α ω : Type} (E : Encoder σ α) (W : RawWriter ω) (s : σ) (w : ω) :
    Option (Res Unit × σ × ω) :=
  if E.isIdle s then some (.ok (), s, w)
  else
    match E.encode s 1024 (Eos.new false) with
    | (.ok bs, s') =>
      if 1024 < bs.length then some (.panic, s', w)
      else
        match writeAllRaw W w bs with
        | none => none
        | some (.ok (), w') =>
          if !E.isIdle s' && bs.isEmpty then some (.err .other, s', w')
          else encodeAllRaw E W s' w'
        | some (.err k, w') => some (.err k, s', w')
        | some (.panic, w') => some (.panic, s', w')
        | some (.capacity, w') => some (.capacity, s', w')
        | some (.diverge, w') => some (.diverge, s', w')
    | (.err k, s') => some (.err k, s', w)
    | (.panic, s') => some (.panic, s', w)
    | (.capacity, s') => some (.capacity, s', w)
    | (.diverge, s') => some (.diverge, s', w)
partial_fixpoint

/-- How the code that calls `write` directly (`src/io.rs` 325, `src/io_async.rs` 78) sees such a writer:
`Interrupted` is an error like any other. -/
def RawWriter.direct {ω : Type} (W : RawWriter ω) : Writer ω where
  write w buf :=
    match W.write w buf with
    | (.interrupted, w') => (.error .other, w')
    | (.done r, w') => (r, w')

/-- A `std::io::Read` value whose calls may be interrupted (`none`). -/
structure RawReader (ρ : Type) where
  read : ρ → Nat → Option ReadRes × ρ

/-- How the code that calls `read` directly (`src/io.rs` 38, 205, `src/io_async.rs` 37) sees such a reader:
`Interrupted` is an error like any other. -/
def RawReader.direct {ρ : Type} (R : RawReader ρ) : Reader ρ where
  read r n :=
    match R.read r n with
    | (none, r') => (.error .other, r')
    | (some x, r') => (x, r')

end Bytecodec
