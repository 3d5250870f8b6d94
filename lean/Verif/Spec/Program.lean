import Verif.Model.Program
import Verif.Spec.Io
/-!
# Specification: what a reading or writing program means without a decoder around it

`eval` runs a program that reads through `read_exact` on one plain byte string. `WritesText` is what it means for a
program to write everything it is told to, whatever the answers of the writer.
-/
namespace Bytecodec.Spec

variable {α π : Type}

/-- The next `n` bytes of a byte string, or the end of input, after which nothing is left. -/
def nextBytes (n : Nat) (b : Bytes) : Except IoErr Bytes × Bytes :=
  if n ≤ b.length then (.ok (b.take n), b.drop n) else (.error .unexpectedEof, [])

/-- The program running on one byte string: its result and the bytes it has left; `none` if it never returns. -/
def eval (P : ExactProgram π α) (p : π) (b : Bytes) : Option (Res α × Bytes) :=
  match P.step p with
  | .inl res => some (res, b)
  | .inr n => eval P (P.resume p (nextBytes n b).1) (nextBytes n b).2
partial_fixpoint

/-- The program, started in `p`, writes exactly the text `b` and then returns `res`, on every writer that never fails
and always takes something. -/
inductive WritesText (P : WriteProgram π) (res : Res Unit) : π → Bytes → Prop
  | done {p : π} : P.step p = .inl res → WritesText P res p []
  | write {p : π} {c b : Bytes} : P.step p = .inr c → (c = [] → WritesText P res (P.resume p (.wrote 0)) b) →
      (∀ k, 0 < k → k ≤ c.length → WritesText P res (P.resume p (.wrote k)) (c.drop k ++ b)) →
      WritesText P res p (c ++ b)

end Bytecodec.Spec
