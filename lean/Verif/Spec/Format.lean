import Verif.Spec.Decode
/-!
# Specification: decoders that read a format

A format is a relation `wire x bs`: the bytes `bs` are an encoding of the item `x`.
-/
namespace Bytecodec.Spec

variable {σ α : Type}

/-- The contract of a decoder for the format `wire`, in the states `F` (those in which it waits for a
new item). `delim = true`: it recognises the end of an item from the bytes; otherwise items end at the
end of the stream. `again = true`: it is ready for the next item afterwards. -/
structure Reads (delim again : Bool) (D : Decoder σ α) (F : σ → Prop) (wire : α → Bytes → Prop) : Prop where
  /-- the loop of a caller on an encoded item, followed by anything, returns the item and consumes
  exactly its bytes -/
  item : ∀ {s x bs tail e}, F s → wire x bs → EosSane e (bs ++ tail).length →
    (delim = true ∨ tail = [] ∧ e.isReached = true) →
    ∃ s', feed D s [(bs ++ tail, e)] = some (bs.length, x, s') ∧ (again = true → F s')
  /-- if the decoder is idle before an item that takes no bytes, a `decode` call does nothing -/
  idle : ∀ {s x bs b e}, F s → wire x bs → D.isIdle s = true → EosSane e b.length →
    (delim = true ∨ b = [] ∧ (e.isReached = true ∨ e = Eos.new false)) → D.decode s b e = (.ok 0, s)

/-- A sequence of items, one after the other; every one takes at least one byte. -/
inductive Many (wire : α → Bytes → Prop) : List α → Bytes → Prop
  | nil : Many wire [] []
  | cons {x : α} {b : Bytes} {xs : List α} {bs : Bytes} : wire x b → b ≠ [] → Many wire xs bs →
      Many wire (x :: xs) (b ++ bs)

end Bytecodec.Spec
