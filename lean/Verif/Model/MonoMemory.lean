import Verif.Model.Memory
import Verif.Model.Monolithic
/-!
# The memory `MonolithicDecoder` asks for

The decoder of `Model/Monolithic.lean` once more, together with the capacity of its `Vec<u8>` (see
`Model/Memory.lean` for what `Vec` does).
-/
namespace Bytecodec

variable {α : Type}

/-- `src/monolithic.rs` 19-23: `struct MonolithicDecoder<D>`, with the capacity of `buf`. -/
structure MonoMem (α : Type) where
  item : Option α
  buf : Bytes
  cap : Nat

/-- `src/monolithic.rs` 26-32: `new`; an empty `Vec` owns no memory. -/
def MonoMem.new : MonoMem α := ⟨none, [], 0⟩

/-- `src/monolithic.rs` 49-84: `impl Decode for MonolithicDecoder<D>`. `decode` 52-66: at the end of the stream the
parser reads the vector and the caller's buffer one after the other (line 56), and `Vec::clear` (line 59) keeps
the capacity; otherwise line 63 appends the buffer to the vector. The other methods do not touch the vector.
Simplification: memory the parser asks for is not counted. -/
def monoMemDecoder (parse : MonolithicParser α) : Decoder (MonoMem α) α where
  decode s buf e :=
    if e.isReached then
      match parse s.buf buf with
      | (.ok item, n) => (.ok (min (n - s.buf.length) buf.length), ⟨some item, [], s.cap⟩)
      | (.err k, _) => (.err k, s)
      | (.panic, _) => (.panic, s)
      | (.capacity, _) => (.capacity, s)
      | (.diverge, _) => (.diverge, s)
    else (.ok buf.length, ⟨s.item, s.buf ++ buf, growAmortized s.cap s.buf.length buf.length⟩)
  finish s :=
    match s.item with
    | some x => (.ok x, { s with item := none })
    | none => (.err .incompleteDecoding, s)
  requiring s := if s.item.isSome then .finite 0 else .unknown
  isIdle s := s.item.isSome

end Bytecodec
