import Verif.Model.Basic
/-!
# Specification: byte counts

The two addition tables from the documentation of `ByteCount` (`src/byte_count.rs` 42-51, 69-75),
one constructor per line. A line applies to the cases no earlier line covers.
-/
namespace Bytecodec.Spec

open ByteCount

/-- The documented rule table of `add_for_decoding`. -/
inductive DecodingRule : ByteCount → ByteCount → ByteCount → Prop
  | finite_finite (a b : Nat) : DecodingRule (finite a) (finite b) (finite (a + b))
  | infinite_left (y : ByteCount) : DecodingRule infinite y infinite
  | infinite_right (x : ByteCount) : DecodingRule x infinite infinite
  | unknown_unknown : DecodingRule unknown unknown unknown
  | zero_unknown : DecodingRule (finite 0) unknown unknown
  | unknown_zero : DecodingRule unknown (finite 0) unknown
  | finite_unknown (a : Nat) : a ≠ 0 → DecodingRule (finite a) unknown (finite a)
  | unknown_finite (b : Nat) : b ≠ 0 → DecodingRule unknown (finite b) (finite b)

/-- The documented rule table of `add_for_encoding`. -/
inductive EncodingRule : ByteCount → ByteCount → ByteCount → Prop
  | finite_finite (a b : Nat) : EncodingRule (finite a) (finite b) (finite (a + b))
  | infinite_left (y : ByteCount) : EncodingRule infinite y infinite
  | infinite_right (x : ByteCount) : EncodingRule x infinite infinite
  | unknown_left (y : ByteCount) : y ≠ infinite → EncodingRule unknown y unknown
  | unknown_right (x : ByteCount) : x ≠ infinite → EncodingRule x unknown unknown

/-- Both operands are finite and their sum does not fit in a `u64`. -/
def SumOverflows (x y : ByteCount) : Prop :=
  ∃ a b, x = finite a ∧ y = finite b ∧ 2 ^ 64 ≤ a + b

/-- The eos marker can be passed together with a buffer of `len` bytes: the distance to the end of
the stream, measured from the start of the buffer, fits in a `u64`. (Every real stream is that short.) -/
def EosSane (e : Eos) (len : Nat) : Prop :=
  ∀ n, e.remaining = finite n → n + len < 2 ^ 64

/-- The marker for a position `k` bytes earlier in the stream. -/
def eosShift (e : Eos) (k : Nat) : Eos :=
  match e.remaining with
  | .finite n => ⟨finite (n + k)⟩
  | _ => e

/-- The sum of the finite counts of a list. -/
def knownTotal : List ByteCount → Nat
  | [] => 0
  | finite n :: cs => n + knownTotal cs
  | _ :: cs => knownTotal cs

end Bytecodec.Spec
