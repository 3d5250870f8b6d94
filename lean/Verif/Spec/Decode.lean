import Verif.Model.Core
import Verif.Spec.Counts
/-!
# Specification: what a caller does with a decoder

Nothing here mentions a particular decoder. `Reach` is the set of states a caller can produce,
`feed` the loop a caller writes around `decode`, `Schedule` the ways of cutting a byte sequence into
chunks.
-/
namespace Bytecodec.Spec

variable {σ α : Type}

/-- The states a caller can reach from `s₀` by calling `decode` (any buffer, any sane eos) and
`finish_decoding` in any order, also after errors. -/
inductive Reach (D : Decoder σ α) (s₀ : σ) : σ → Prop
  | refl : Reach D s₀ s₀
  | decode {s : σ} (b : Bytes) (e : Eos) :
      Reach D s₀ s → EosSane e b.length → Reach D s₀ (D.decode s b e).2
  | finish {s : σ} : Reach D s₀ s → Reach D s₀ (D.finish s).2

/-- The loop a caller writes: while the decoder is not idle, pass it the next chunk; the chunk must be
consumed completely unless it completes the item; once idle, take the item.
The result is the number of bytes consumed, the item, and the decoder afterwards;
`none` when a call fails, or the chunks do not suffice. -/
def feed (D : Decoder σ α) (s : σ) (chunks : List (Bytes × Eos)) : Option (Nat × α × σ) :=
  if D.isIdle s then
    match D.finish s with
    | (.ok x, s') => some (0, x, s')
    | _ => none
  else
    match chunks with
    | [] => none
    | (b, e) :: rest =>
      match D.decode s b e with
      | (.ok n, s') =>
        if D.isIdle s' ∨ n = b.length then
          (feed D s' rest).map fun (m, x, t) => (n + m, x, t)
        else none
      | _ => none
termination_by chunks.length

/-- The error with which the caller's loop ends: the error of the first failing call, provided every
call before it consumed its chunk completely. -/
def feedErr (D : Decoder σ α) (s : σ) : List (Bytes × Eos) → Option ErrorKind
  | [] => none
  | (b, e) :: rest =>
    if D.isIdle s then none
    else
      match D.decode s b e with
      | (.ok n, s') => if n = b.length then feedErr D s' rest else none
      | (.err k, _) => some k
      | _ => none

/-- The decoder can be used again and again from `s₀`: in every round, chunks that belong to the item
`x` and `n` bytes according to `P` yield `x` and consume `n` bytes. -/
def Repeatedly (D : Decoder σ α) (s₀ : σ) (P : List (Bytes × Eos) → Nat → α → Prop) : Prop :=
  ∃ G : σ → Prop, G s₀ ∧ ∀ s, G s → ∀ chunks n x, P chunks n x →
    ∃ s', feed D s chunks = some (n, x, s') ∧ G s'

/-- `Schedule chunks b e`: `chunks` cuts the bytes `b` into consecutive chunks (possibly empty ones).
The last chunk comes with the marker `e`; every earlier one with `Eos::new(false)` or with the true
distance to the end of the stream. -/
inductive Schedule : List (Bytes × Eos) → Bytes → Eos → Prop
  | last (b : Bytes) (e : Eos) : Schedule [(b, e)] b e
  | cons {chunks : List (Bytes × Eos)} {rest : Bytes} {e : Eos} (c : Bytes) (ec : Eos) :
      (ec = Eos.new false ∨ ec = eosShift e rest.length) → Schedule chunks rest e →
      Schedule ((c, ec) :: chunks) (c ++ rest) e

/-- A call neither crashed (arithmetic overflow, index out of range) nor ran forever. -/
def NoCrash {β : Type} (r : Res β) : Prop := r ≠ .panic ∧ r ≠ .diverge

/-- A call returned `Ok` or `Err`. -/
def Returns {β : Type} (r : Res β) : Prop := (∃ x, r = .ok x) ∨ ∃ k, r = .err k

/-- Whatever the caller did before, no call crashes or hangs, and no call reports more bytes than it
was given. The one panic left open here is the "capacity overflow" of `RemainingBytesDecoder`, see
`C17_capacity`. -/
def SafeFrom (D : Decoder σ α) (s₀ : σ) : Prop :=
  ∀ s, Reach D s₀ s →
    (∀ b e, EosSane e b.length →
      NoCrash (D.decode s b e).1 ∧ ∀ n, (D.decode s b e).1 = .ok n → n ≤ b.length) ∧
    Returns (D.finish s).1

/-- Whatever the caller did before: while the decoder is idle, `decode` consumes nothing and changes
nothing. (It may still report an error, e.g. `Length` at a premature end of stream.) -/
def IdleStable (D : Decoder σ α) (s₀ : σ) : Prop :=
  ∀ s, Reach D s₀ s → D.isIdle s = true → ∀ b e, EosSane e b.length →
    (D.decode s b e).2 = s ∧ ∀ n, (D.decode s b e).1 = .ok n → n = 0

/-- Whatever the caller did before: an item can only be taken from an idle decoder. -/
def FinishGuarded (D : Decoder σ α) (s₀ : σ) : Prop :=
  ∀ s, Reach D s₀ s → D.isIdle s = false → ∃ k, (D.finish s).1 = .err k

/-- Whatever the caller did before: a `decode` call at the end of the stream completes the item or
fails. -/
def EosStrict (D : Decoder σ α) (s₀ : σ) : Prop :=
  ∀ s, Reach D s₀ s → ∀ b n s', b.length < 2 ^ 64 → D.decode s b (Eos.new true) = (.ok n, s') →
    D.isIdle s' = true

/-- Whatever the caller did before: a `decode` call at the end of the stream without any bytes completes the
item or fails. -/
def EosStrictAtLast (D : Decoder σ α) (s₀ : σ) : Prop :=
  ∀ s, Reach D s₀ s → ∀ n s', D.decode s [] (Eos.new true) = (.ok n, s') → D.isIdle s' = true

/-- Item-level reachability: an item that was completed is taken before anything else happens.
This is how `collect` and `collectn` use their inner decoder. -/
inductive ReachItem (D : Decoder σ α) (s₀ : σ) : σ → Prop
  | refl : ReachItem D s₀ s₀
  | decode {s : σ} (b : Bytes) (e : Eos) : ReachItem D s₀ s → EosSane e b.length →
      D.isIdle s = false → ((D.decode s b e).1.isOk && D.isIdle (D.decode s b e).2) = false →
      ReachItem D s₀ (D.decode s b e).2
  | item {s : σ} (b : Bytes) (e : Eos) : ReachItem D s₀ s → EosSane e b.length →
      D.isIdle s = false → ((D.decode s b e).1.isOk && D.isIdle (D.decode s b e).2) = true →
      ReachItem D s₀ (D.finish (D.decode s b e).2).2
  | finish {s : σ} : ReachItem D s₀ s → D.isIdle s = true → ReachItem D s₀ (D.finish s).2

/-- Every item takes at least one byte: no item is obtained without consuming anything. -/
def Productive (D : Decoder σ α) (s₀ : σ) : Prop :=
  ∀ s, ReachItem D s₀ s →
    (D.isIdle s = true → (D.finish s).1.isOk = false) ∧
    ∀ b e, b ≠ [] → EosSane e b.length → D.isIdle s = false → (D.decode s b e).1 = .ok 0 →
      D.isIdle (D.decode s b e).2 = true → (D.finish (D.decode s b e).2).1.isOk = false

end Bytecodec.Spec
