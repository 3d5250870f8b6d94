import Verif.Model.Serde
/-!
# Parsers and serializers that call `read` and `write` themselves

`src/monolithic.rs` hands the user's `monolithic_decode` a `std::io::Read` and the user's `monolithic_encode` a
`std::io::Write`. In `Model/Monolithic.lean` these functions are summed up by what they make of all the bytes.
Here they are programs which call `read` or `write` step by step and may look at every answer.
-/
namespace Bytecodec

variable {α π ρ ω : Type}

/-- The reader `self.buf.as_slice().chain(buf.by_ref())` of `src/monolithic.rs` 56: what is left of the
two slices, and std's flag that the first one is exhausted. -/
structure ReadChain where
  first : Bytes
  doneFirst : Bool
  second : Bytes
deriving DecidableEq, Repr

/-- std's `impl Read for Chain<T, U>` on two slices (`impl Read for &[u8]` copies what fits and advances),
as used in `src/monolithic.rs` 56: the second is read once the first has answered `Ok(0)` to a buffer that
is not empty. -/
def chainReader : Reader ReadChain where
  read c n :=
    if !c.doneFirst && (n == 0 || !c.first.isEmpty) then
      (.data (c.first.take n), { c with first := c.first.drop n })
    else (.data (c.second.take n), { c with doneFirst := true, second := c.second.drop n })

/-- A user's `monolithic_decode` (`src/monolithic.rs` 13) as a program in the state `π`: it either returns a
result or calls `read` with a buffer of some size, and goes on with the answer. -/
structure ReadProgram (π α : Type) where
  step : π → Res α ⊕ Nat
  resume : π → ReadRes → π

/-- The program running on a reader; `none` if it never returns. Least fixed point. -/
def ReadProgram.run (P : ReadProgram π α) (R : Reader ρ) (p : π) (r : ρ) : Option (Res α × ρ) :=
  match P.step p with
  | .inl res => some (res, r)
  | .inr n => ReadProgram.run P R (P.resume p (R.read r n).1) (R.read r n).2
partial_fixpoint

/-- std's default `Read::read_exact`: `read` into what is left of the buffer until it is full; `Ok(0)` is the
error `UnexpectedEof`. `n` is the size of what is left.
Simplification: readers that claim more than the size of the buffer count as having filled it (std
panics); the chain of two slices never does. `ErrorKind::Interrupted` does not occur on slices. -/
def readExact (R : Reader ρ) (n : Nat) (r : ρ) (got : Bytes) : Except IoErr Bytes × ρ :=
  if h0 : n = 0 then (.ok got, r)
  else
    match R.read r n with
    | (.error k, r') => (.error k, r')
    | (.data bs, r') =>
      if h : bs.length = 0 then (.error .unexpectedEof, r')
      else readExact R (n - bs.length) r' (got ++ bs)
termination_by n
decreasing_by omega

/-- A user's `monolithic_decode` that reads through `read_exact` only, as bincode does (and, with one byte at a
time, serde_json). -/
structure ExactProgram (π α : Type) where
  step : π → Res α ⊕ Nat
  resume : π → Except IoErr Bytes → π

/-- The program running on a reader; `none` if it never returns. Least fixed point. -/
def ExactProgram.run (P : ExactProgram π α) (R : Reader ρ) (p : π) (r : ρ) : Option (Res α × ρ) :=
  match P.step p with
  | .inl res => some (res, r)
  | .inr n => ExactProgram.run P R (P.resume p (readExact R n r []).1) (readExact R n r []).2
partial_fixpoint

/-- `src/monolithic.rs` 49-84: `impl Decode for MonolithicDecoder<D>`, with `run` for the run of
`monolithic_decode` on the chained reader. `decode` 52-66: the number of bytes consumed is the difference of the
lengths of the caller's slice before and after. The other methods as in `monolithicDecoder`. -/
def readingDecoder (run : ReadChain → Option (Res α × ReadChain)) : Decoder (MonoDecState α) α where
  decode s buf e :=
    if e.isReached then
      match run ⟨s.buf, false, buf⟩ with
      | some (.ok item, c) => (.ok (buf.length - c.second.length), ⟨some item, []⟩)
      | some (.err k, _) => (.err k, s)
      | some (.panic, _) => (.panic, s)
      | some (.capacity, _) => (.capacity, s)
      | some (.diverge, _) => (.diverge, s)
      | none => (.diverge, s)
    else (.ok buf.length, { s with buf := s.buf ++ buf })
  finish s :=
    match s.item with
    | some x => (.ok x, { s with item := none })
    | none => (.err .incompleteDecoding, s)
  requiring s := if s.item.isSome then .finite 0 else .unknown
  isIdle s := s.item.isSome

/-- A user's `monolithic_encode` (`src/monolithic.rs` 94) as a program in the state `π`: it either returns a
result or calls `write` with some bytes, and goes on with the answer. -/
structure WriteProgram (π : Type) where
  step : π → Res Unit ⊕ Bytes
  resume : π → WriteRes → π

/-- The program running on a writer; `none` if it never returns. Least fixed point. -/
def WriteProgram.run (P : WriteProgram π) (W : Writer ω) (p : π) (w : ω) : Option (Res Unit × ω) :=
  match P.step p with
  | .inl res => some (res, w)
  | .inr b => WriteProgram.run P W (P.resume p (W.write w b).1) (W.write w b).2
partial_fixpoint

/-- `src/monolithic.rs` 129-170: `impl Encode for MonolithicEncoder<E>`, with `run` for the run of
`monolithic_encode` on the chained writer. `encode` 132-149; the other methods as in `monolithicEncoder`. -/
def writingEncoder (run : α → ChainState → Option (Res Unit × ChainState)) : Encoder (MonoEncState α) α where
  encode s cap e :=
    match s.item with
    | some x =>
      match run x ⟨[], cap, []⟩ with
      | none => (.diverge, { s with item := none })
      | some p =>
        Res.step p (fun _ => { s with item := none }) fun _ w =>
          if w.b.isEmpty then (.ok w.a, { s with item := none })
          else
            Res.step ((bytesEncoder id).start s.buf w.b) (fun b => ⟨none, b⟩) fun _ b =>
              (.ok w.a, ⟨none, b⟩)
    | none =>
      Res.step ((bytesEncoder id).encode s.buf cap e) (fun b => { s with buf := b }) fun bs b =>
        (.ok bs, { s with buf := b })
  start s x :=
    if s.item.isNone && (bytesEncoder id).isIdle s.buf then (.ok (), { s with item := some x })
    else (.err .encoderFull, s)
  requiring s :=
    if s.item.isNone && (bytesEncoder id).isIdle s.buf then .finite 0
    else if s.item.isSome then .unknown
    else (bytesEncoder id).requiring s.buf
  isIdle s := s.item.isNone && (bytesEncoder id).isIdle s.buf

end Bytecodec
