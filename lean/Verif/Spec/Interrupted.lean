import Verif.Model.Interrupted
/-!
# Specification: what readers and writers do when interrupted calls are repeated
-/
namespace Bytecodec.Spec

variable {ω : Type}

/-- `Settles W w buf n r w'`: the call `write(buf)` is interrupted `n` times, and repeated each time, and
then returns `r`. -/
inductive Settles (W : RawWriter ω) : ω → Bytes → Nat → WriteRes → ω → Prop
  | done {w w' : ω} {buf : Bytes} {r : WriteRes} : W.write w buf = (.done r, w') → Settles W w buf 0 r w'
  | again {w u w' : ω} {buf : Bytes} {n : Nat} {r : WriteRes} : W.write w buf = (.interrupted, u) →
      Settles W u buf n r w' → Settles W w buf (n + 1) r w'

/-- `V` is the writer `W` without its interruptions. -/
def WithoutInterruptions (W : RawWriter ω) (V : Writer ω) : Prop :=
  ∀ w buf, ∃ n, Settles W w buf n (V.write w buf).1 (V.write w buf).2

/-- Example: a writer that collects the bytes one by one, and is interrupted `k` times before each of
them. The state is the number of interruptions to come, and what was written. -/
def interruptedWriter (k : Nat) : RawWriter (Nat × Bytes) where
  write w buf :=
    match w.1 with
    | 0 => (.done (.wrote (min 1 buf.length)), (k, w.2 ++ buf.take 1))
    | n + 1 => (.interrupted, (n, w.2))

/-- The same without interruptions. -/
def steadyWriter (k : Nat) : Writer (Nat × Bytes) where
  write w buf := (.wrote (min 1 buf.length), (k, w.2 ++ buf.take 1))

/-- `SettlesRead R r k n x r'`: the call `read` with room for `k` bytes is interrupted `n` times, and
repeated each time, and then returns `x`. -/
inductive SettlesRead {ρ : Type} (R : RawReader ρ) : ρ → Nat → Nat → ReadRes → ρ → Prop
  | done {r r' : ρ} {k : Nat} {x : ReadRes} : R.read r k = (some x, r') → SettlesRead R r k 0 x r'
  | again {r u r' : ρ} {k n : Nat} {x : ReadRes} : R.read r k = (none, u) →
      SettlesRead R u k n x r' → SettlesRead R r k (n + 1) x r'

/-- `V` is the reader `R` without its interruptions. -/
def ReadsWithoutInterruptions {ρ : Type} (R : RawReader ρ) (V : Reader ρ) : Prop :=
  ∀ r k, ∃ n, SettlesRead R r k n (V.read r k).1 (V.read r k).2

/-- Example: a reader that delivers given bytes one by one, and is interrupted before each of them. The
state is whether the next call is interrupted, and the bytes to come. -/
def interruptedReader : RawReader (Bool × Bytes) where
  read r n := if r.1 then (none, (false, r.2)) else (some (.data (r.2.take (min 1 n))), (true, r.2.drop (min 1 n)))

/-- The same without interruptions. -/
def steadyReader : Reader (Bool × Bytes) where
  read r n := (.data (r.2.take (min 1 n)), (true, r.2.drop (min 1 n)))

end Bytecodec.Spec
