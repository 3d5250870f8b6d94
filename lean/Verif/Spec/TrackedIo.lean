import Verif.Spec.TrackedBuf
/-!
# Specification: the failures of a blocking reader or writer

As `noting` of `Spec/TrackedBuf.lean`, but every failure is noted: `decode_exact` and `encode_all` treat `WouldBlock` like any
other. A writer that accepts no byte has failed as well; std's `write_all` makes the error `zero` of it.
-/
namespace Bytecodec

variable {κ ρ ω : Type}

def TReader.notingAll (R : TReader κ ρ) : TReader κ (ρ × List (Failed κ)) where
  read p n := ((R.read p.1 n).1, (R.read p.1 n).2, p.2 ++ (R.read p.1 n).1.failures)

def TWriteRes.failuresOr (zero : κ) : TWriteRes κ → List (Failed κ)
  | .wrote n => if n = 0 then [(.other, zero)] else []
  | .error k c => [(k, c)]

def TWriter.notingAll (zero : κ) (W : TWriter κ ω) : TWriter κ (ω × List (Failed κ)) where
  write p b := ((W.write p.1 b).1, (W.write p.1 b).2, p.2 ++ (W.write p.1 b).1.failuresOr zero)

/-- If there were failures, there was one, and the result is the error caused by it. -/
def ReportsAny {α : Type} (fs : List (Failed κ)) (r : TRes κ α) : Prop :=
  fs = [] ∨ ∃ k c x, fs = [(k, c)] ∧ r = .err x ∧ Surfaces (becauseOf k c) x

end Bytecodec
