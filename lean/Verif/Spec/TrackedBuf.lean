import Verif.Model.TrackedBuf
import Verif.Spec.Tracked
/-!
# Specification: the failures of a stream and what is reported of them

* `noting`: a reader, writer or stream that does what it did and notes each failure it returns, in order. For blocking streams
  `WouldBlock` is no failure.
* `Reports fs r`: if the failures were `fs`, then `r` is the right result of the call: no error without a failure; the
  error caused by it if there was one; and there cannot have been more.
-/
namespace Bytecodec

variable {κ σ α ρ ω τ : Type}

/-! ## Forgetting all but the kind -/

def Poll.eraseRes : Poll (TRes κ α) → Poll (Res α)
  | .pending => .pending
  | .ready r => .ready r.erase

def TStream.erase (T : TStream κ τ) : Stream τ := ⟨T.reader.erase, T.writer.erase⟩

def TAsyncReader.erase (R : TAsyncReader κ ρ) : AsyncReader ρ where
  pollRead r n :=
    match R.pollRead r n with
    | (.pending, r') => (.pending, r')
    | (.ready a, r') => (.ready a.erase, r')

def TAsyncWriter.erase (W : TAsyncWriter κ ω) : AsyncWriter ω where
  pollWrite w b :=
    match W.pollWrite w b with
    | (.pending, w') => (.pending, w')
    | (.ready a, w') => (.ready a.erase, w')

def TAsyncStream.erase (T : TAsyncStream κ τ) : AsyncStream τ := ⟨T.reader.erase, T.writer.erase⟩

/-! ## Noting failures -/

/-- A failure of a stream: the kind of the I/O error and the I/O error itself. -/
abbrev Failed (κ : Type) := IoErr × κ

def TReadRes.failures : TReadRes κ → List (Failed κ)
  | .data _ => []
  | .error k c => [(k, c)]

def TWriteRes.failures : TWriteRes κ → List (Failed κ)
  | .wrote _ => []
  | .error k c => [(k, c)]

/-- Those that are no `WouldBlock`. -/
def hard (fs : List (Failed κ)) : List (Failed κ) := fs.filter fun f => f.1 ≠ .wouldBlock

def TReader.noting (R : TReader κ ρ) : TReader κ (ρ × List (Failed κ)) where
  read p n := ((R.read p.1 n).1, (R.read p.1 n).2, p.2 ++ hard (R.read p.1 n).1.failures)

def TWriter.noting (W : TWriter κ ω) : TWriter κ (ω × List (Failed κ)) where
  write p b := ((W.write p.1 b).1, (W.write p.1 b).2, p.2 ++ hard (W.write p.1 b).1.failures)

def TStream.noting (T : TStream κ τ) : TStream κ (τ × List (Failed κ)) := ⟨T.reader.noting, T.writer.noting⟩

def TAsyncReader.noting (R : TAsyncReader κ ρ) : TAsyncReader κ (ρ × List (Failed κ)) where
  pollRead p n :=
    match R.pollRead p.1 n with
    | (.pending, r') => (.pending, r', p.2)
    | (.ready a, r') => (.ready a, r', p.2 ++ a.failures)

def TAsyncWriter.noting (W : TAsyncWriter κ ω) : TAsyncWriter κ (ω × List (Failed κ)) where
  pollWrite p b :=
    match W.pollWrite p.1 b with
    | (.pending, w') => (.pending, w', p.2)
    | (.ready a, w') => (.ready a, w', p.2 ++ a.failures)

def TAsyncStream.noting (T : TAsyncStream κ τ) : TAsyncStream κ (τ × List (Failed κ)) :=
  ⟨T.reader.noting, T.writer.noting⟩

/-- The same buffers over the noting stream, with nothing noted yet. -/
def BufferedIo.noted (κ : Type) (io : BufferedIo τ) : BufferedIo (τ × List (Failed κ)) :=
  ⟨(io.stream, []), io.rbuf, io.wbuf⟩

/-- The same buffers over the stream itself. -/
def BufferedIo.unnoted (io : BufferedIo (τ × List (Failed κ))) : BufferedIo τ := ⟨io.stream.1, io.rbuf, io.wbuf⟩

/-! ## Reporting them -/

def Reports (fs : List (Failed κ)) (r : TRes κ Unit) : Prop :=
  match fs with
  | [] => ∀ x, r ≠ .err x
  | [(k, c)] => ∃ x, r = .err x ∧ Surfaces (becauseOf k c) x
  | _ => False

/-- As `Reports`; a call that is `Pending` reports nothing. -/
def ReportsPoll (fs : List (Failed κ)) (r : Poll (TRes κ Unit)) : Prop :=
  match r with
  | .pending => fs = []
  | .ready r => Reports fs r

end Bytecodec
