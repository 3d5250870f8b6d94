import Verif.Model.DecCombinator
import Verif.Model.EncCombinator
import Verif.Model.NullPadding
/-!
# Model: accessors that report progress and settings
-/
namespace Bytecodec

variable {σ α : Type}

/-- `src/combinator.rs` 488-490: `will_omit`. -/
def OmitState.willOmit (s : OmitState σ) : Bool := s.doOmit

/-- `src/combinator.rs` 679-681: `expected_bytes`. -/
def LengthState.expectedBytes (s : LengthState σ) : Nat := s.expected

/-- `src/combinator.rs` 701-703: `remaining_bytes`. -/
def LengthState.remainingBytes (s : LengthState σ) : Nat := s.remaining

/-- `src/combinator.rs` 813-815: `remaining_items`. -/
def CollectNState.remainingItems (s : CollectNState σ α) : Nat := s.remaining

/-- `src/combinator.rs` 966-968: `consumed_bytes`. -/
def MaxBytesState.consumedBytes (s : MaxBytesState σ) : Nat := s.consumed

/-- `src/combinator.rs` 971-973: `max_bytes`. -/
def MaxBytesState.maxBytes (s : MaxBytesState σ) : Nat := s.max

/-- `src/combinator.rs` 1157-1159: `consumable_bytes`. -/
def SliceState.consumableBytes (s : SliceState σ) : Nat := s.consumable

/-- `src/combinator.rs` 1320-1322: `peek_mut`; the caller applies `f` to the item through the reference, if there is
one. -/
def PeekState.peekMut (s : PeekState σ α) (f : α → α) : PeekState σ α :=
  match s.item with
  | some x => { s with item := some (f x) }
  | none => s

end Bytecodec
