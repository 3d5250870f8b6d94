import Verif.Model.NullPadding
import Verif.Model.Tuple
import Verif.Model.EncCombinator
import Verif.Model.Fixnum
import Verif.Model.Monolithic
import Verif.Spec.Decode
/-!
# Specification: all encoders assembled from the library, under any use

Unlike `Writes` (in `Spec/Encode.lean`) this covers every encoder and combinator, and unlike `EncRun`
it covers every sequence of calls, also after errors.
-/
namespace Bytecodec.Spec

variable {σ α : Type}

/-- The states a caller can reach from `s₀` by calling `start_encoding` (any item) and `encode` (any
buffer size, any sane eos) in any order, also after errors. -/
inductive EncReach (E : Encoder σ α) (s₀ : σ) : σ → Prop
  | refl : EncReach E s₀ s₀
  | encode {s : σ} (cap : Nat) (e : Eos) : EncReach E s₀ s → EosSane e cap →
      EncReach E s₀ (E.encode s cap e).2
  | start {s : σ} (x : α) : EncReach E s₀ s → EncReach E s₀ (E.start s x).2

/-- Whatever the caller did before: no call panics (arithmetic, indexing), and no `encode` reports more
bytes than its buffer has. With `full`, every call returns `Ok` or `Err`. -/
def SafeEncFrom (full : Bool) (E : Encoder σ α) (s₀ : σ) : Prop :=
  ∀ s, EncReach E s₀ s →
    (∀ cap e, EosSane e cap →
      (E.encode s cap e).1 ≠ .panic ∧ (full = true → Returns (E.encode s cap e).1) ∧
      ∀ bs, (E.encode s cap e).1 = .ok bs → bs.length ≤ cap) ∧
    ∀ x, (E.start s x).1 ≠ .panic ∧ (full = true → Returns (E.start s x).1)

/-- Which encoders of the user's own, in which initial states, may be parts. -/
abbrev OwnEncoder := (σ α : Type) → Encoder σ α → σ → Prop

/-- `AssembledEncWith own pre E s`: `E` is an encoder a user can write with the encoders and combinators of the
crate and encoders of their own (see `own`), and `s` is a state its constructors return. With `pre = false`, without `pre_encode`.
Tuples of arity 3 to 8 are nested pairs (`C20_nested`). -/
inductive AssembledEncWith (own : OwnEncoder) (pre : Bool) : {σ α : Type} → Encoder σ α → σ → Prop
  /-- an encoder of the user's own -/
  | own {σ α : Type} {E : Encoder σ α} {s : σ} : own σ α E s → AssembledEncWith own pre E s
  | bytes {β : Type} (asRef : β → Bytes) : AssembledEncWith own pre (bytesEncoder asRef).toEncoder .new
  | number {α : Type} (f : α → Except ErrorKind Bytes) : AssembledEncWith own pre (fixEncoder f).toEncoder .new
  | utf8 : AssembledEncWith own pre utf8Encoder.toEncoder .new
  | null : AssembledEncWith own pre nullEncoder.toEncoder ()
  | padding : AssembledEncWith own pre paddingEncoder none
  /-- the serializer itself returns -/
  | monolithic {α : Type} (ser : MonolithicSerializer α) : (∀ x, Returns (ser x).2) →
      AssembledEncWith own pre (monolithicEncoder ser) .new
  | mapErr {σ α : Type} {E : Encoder σ α} {s : σ} (f : ErrorKind → ErrorKind) : AssembledEncWith own pre E s →
      AssembledEncWith own pre (mapErrEncoder E f) s
  | mapFrom {σ α β : Type} {E : Encoder σ α} {s : σ} (f : β → α) : AssembledEncWith own pre E s →
      AssembledEncWith own pre (mapFromEncoder E f) s
  | tryMapFrom {σ α β : Type} {E : Encoder σ α} {s : σ} (f : β → Except ErrorKind α) :
      AssembledEncWith own pre E s → AssembledEncWith own pre (tryMapFromEncoder E f) s
  | repeated {σ α : Type} {E : Encoder σ α} {s : σ} : AssembledEncWith own pre E s →
      AssembledEncWith own pre (repeatEncoder E) (.new s)
  | optional {σ α : Type} {E : Encoder σ α} {s : σ} : AssembledEncWith own pre E s →
      AssembledEncWith own pre (optionalEncoder E) s
  | length {σ α : Type} {E : Encoder σ α} {s : σ} (n : Nat) : n < 2 ^ 64 → AssembledEncWith own pre E s →
      AssembledEncWith own pre (lengthEncoder E).toEncoder (.new s n)
  | maxBytes {σ α : Type} {E : Encoder σ α} {s : σ} (n : Nat) : AssembledEncWith own pre E s →
      AssembledEncWith own pre (maxBytesEncoder E) (.new s n)
  | preEncode {σ α : Type} {E : Encoder σ α} {s : σ} : pre = true → AssembledEncWith own pre E s →
      AssembledEncWith own pre (preEncodeEncoder E).toEncoder (.new s)
  | slice {σ α : Type} {E : Encoder σ α} {s : σ} (n : Nat) : AssembledEncWith own pre E s →
      AssembledEncWith own pre (sliceEncoder E) ⟨s, n⟩
  | last {σ α : Type} {E : Encoder σ α} {s : σ} (x : α) : AssembledEncWith own pre E s →
      AssembledEncWith own pre (lastEncoder E) (.new s x)
  | pair {σ0 α0 σ1 α1 : Type} {E0 : Encoder σ0 α0} {E1 : Encoder σ1 α1} {s0 : σ0} {s1 : σ1} :
      AssembledEncWith own pre E0 s0 → AssembledEncWith own pre E1 s1 → AssembledEncWith own pre (tupleEncoder2 E0 E1) (s0, s1)

/-- Those assembled from the library alone. -/
abbrev AssembledEnc (pre : Bool) (E : Encoder σ α) (s : σ) : Prop :=
  AssembledEncWith (fun _ _ _ _ => False) pre E s

/-- Whatever the caller did before, a busy encoder that succeeds with room in the buffer writes something: it never
holds an item whose encoding is empty. -/
def Substantial (E : Encoder σ α) (s₀ : σ) : Prop :=
  ∀ s, EncReach E s₀ s → E.isIdle s = false → ∀ cap e s', EosSane e cap → 0 < cap → E.encode s cap e ≠ (.ok [], s')

/-- `Eager E s`: an encoder a user can write with the crate without `slice` and `last`, in a state its constructors
return; `repeat` only over items that are never empty. -/
inductive Eager : {σ α : Type} → Encoder σ α → σ → Prop
  | bytes {β : Type} (asRef : β → Bytes) : Eager (bytesEncoder asRef).toEncoder .new
  | number {α : Type} (f : α → Except ErrorKind Bytes) : Eager (fixEncoder f).toEncoder .new
  | utf8 : Eager utf8Encoder.toEncoder .new
  | null : Eager nullEncoder.toEncoder ()
  | padding : Eager paddingEncoder none
  | monolithic {α : Type} (ser : MonolithicSerializer α) : Eager (monolithicEncoder ser) .new
  | mapErr {σ α : Type} {E : Encoder σ α} {s : σ} (f : ErrorKind → ErrorKind) : Eager E s →
      Eager (mapErrEncoder E f) s
  | mapFrom {σ α β : Type} {E : Encoder σ α} {s : σ} (f : β → α) : Eager E s → Eager (mapFromEncoder E f) s
  | tryMapFrom {σ α β : Type} {E : Encoder σ α} {s : σ} (f : β → Except ErrorKind α) : Eager E s →
      Eager (tryMapFromEncoder E f) s
  | optional {σ α : Type} {E : Encoder σ α} {s : σ} : Eager E s → Eager (optionalEncoder E) s
  | maxBytes {σ α : Type} {E : Encoder σ α} {s : σ} (n : Nat) : Eager E s → Eager (maxBytesEncoder E) (.new s n)
  | length {σ α : Type} {E : Encoder σ α} {s : σ} (n : Nat) : n < 2 ^ 64 → Eager E s →
      Eager (lengthEncoder E).toEncoder (.new s n)
  | repeated {σ α : Type} {E : Encoder σ α} {s : σ} : Substantial E s →
      Eager (repeatEncoder E) (.new s)
  /-- any encoder below: its output is gathered first -/
  | preEncode {σ α : Type} (E : Encoder σ α) (s : σ) : Eager (preEncodeEncoder E).toEncoder (.new s)
  | pair {σ0 α0 σ1 α1 : Type} {E0 : Encoder σ0 α0} {E1 : Encoder σ1 α1} {s0 : σ0} {s1 : σ1} :
      Eager E0 s0 → Eager E1 s1 → Eager (tupleEncoder2 E0 E1) (s0, s1)

end Bytecodec.Spec
