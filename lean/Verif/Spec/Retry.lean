import Verif.Spec.Io
import Verif.Model.Buf
/-!
# Specification: streams that fail now and then, and callers that try again
-/
namespace Bytecodec.Spec

variable {σ α ρ ω : Type}

/-- `V` is the reader `R` for a caller who tries again whenever a read fails (with whatever error, such as
`WouldBlock` or a timeout): what `R` delivers `V` delivers, and where `R` fails, `V` goes on from where this
leaves the reader. -/
def TriesReading (R V : Reader ρ) : Prop :=
  ∀ r n, match R.read r n with
    | (.data bs, r') => V.read r n = (.data bs, r')
    | (.error _, r') => V.read r n = V.read r' n

/-- The same for writers. -/
def TriesWriting (W V : Writer ω) : Prop :=
  ∀ w buf, match W.write w buf with
    | (.wrote n, w') => V.write w buf = (.wrote n, w')
    | (.error _, w') => V.write w buf = V.write w' buf

/-- The blocking reader `V` is the asynchronous reader `R` for a caller who polls again whenever a poll is `Pending`
or fails. -/
def TriesPolling (R : AsyncReader ρ) (V : Reader ρ) : Prop :=
  ∀ r n, match R.pollRead r n with
    | (.ready (.data bs), r') => V.read r n = (.data bs, r')
    | (.ready (.error _), r') => V.read r n = V.read r' n
    | (.pending, r') => V.read r n = V.read r' n

/-- The same for writers. -/
def TriesPollingWrites (W : AsyncWriter ω) (V : Writer ω) : Prop :=
  ∀ w buf, match W.pollWrite w buf with
    | (.ready (.wrote n), w') => V.write w buf = (.wrote n, w')
    | (.ready (.error _), w') => V.write w buf = V.write w' buf
    | (.pending, w') => V.write w buf = V.write w' buf

/-- `Insists D R n s r y s' r'`: `decode_exact` is called until it returns without a failed read, which is
after `n` calls that ended with a failed read; the last call returned `y`. -/
inductive Insists (D : Decoder σ α) (R : Reader ρ) : Nat → σ → ρ → Res α → σ → ρ → Prop
  | once {s s' : σ} {r r' : ρ} {y : Res α} {log : List ReadRes} :
      decodeExact D (loggedReader R) s (r, []) = some (y, s', (r', log)) →
      (∀ io, log.getLast? ≠ some (.error io)) → Insists D R 0 s r y s' r'
  | again {s u s' : σ} {r v r' : ρ} {x y : Res α} {log : List ReadRes} {io : IoErr} {n : Nat} :
      decodeExact D (loggedReader R) s (r, []) = some (x, u, (v, log)) →
      log.getLast? = some (.error io) → Insists D R n u v y s' r' → Insists D R (n + 1) s r y s' r'

/-- The reader fails only finitely often: `left r` bounds the number of failures to come. -/
def FailsFinitely (R : Reader ρ) (left : ρ → Nat) : Prop :=
  ∀ r n, match R.read r n with
    | (.data _, r') => left r' ≤ left r
    | (.error _, r') => left r' < left r

/-- Example: the reader delivers given bytes one by one and would block `k` times before each of them. The
state is the number of failures before the next byte, and the bytes to come. -/
def hesitating (k : Nat) : Reader (Nat × Bytes) where
  read r n :=
    match r.1 with
    | m + 1 => (.error .wouldBlock, (m, r.2))
    | 0 => (.data (r.2.take (min 1 n)), (if n = 0 ∨ r.2 = [] then 0 else k, r.2.drop (min 1 n)))

/-- The same reader without the failures. -/
def unhesitating (k : Nat) : Reader (Nat × Bytes) where
  read r n := (.data (r.2.take (min 1 n)), (if n = 0 ∨ r.2 = [] then 0 else k, r.2.drop (min 1 n)))

/-- Example: a writer that takes one byte, would block once, and takes everything after that. The state is the
number of calls so far, and what was written. -/
def hesitatingWriter : Writer (Nat × Bytes) where
  write w buf :=
    if w.1 = 0 then (.wrote (min 1 buf.length), (1, w.2 ++ buf.take 1))
    else if w.1 = 1 then (.error .wouldBlock, (2, w.2))
    else (.wrote buf.length, (w.1, w.2 ++ buf))

/-- The same writer without the failure. -/
def unhesitatingWriter : Writer (Nat × Bytes) where
  write w buf :=
    if w.1 = 0 then (.wrote (min 1 buf.length), (1, w.2 ++ buf.take 1))
    else (.wrote buf.length, (max w.1 2, w.2 ++ buf))

/-- Example: the same as an asynchronous reader: `Pending` `k` times before each byte. -/
def sleepy (k : Nat) : AsyncReader (Nat × Bytes) where
  pollRead r n :=
    match r.1 with
    | m + 1 => (.pending, (m, r.2))
    | 0 => (.ready (.data (r.2.take (min 1 n))), (if n = 0 ∨ r.2 = [] then 0 else k, r.2.drop (min 1 n)))

end Bytecodec.Spec
