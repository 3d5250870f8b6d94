import Verif.Model.DecCombinator
import Verif.Model.EncCombinator
/-!
# Model: `Collect`, `CollectN` and `Repeat` over any container and any iterator

`Verif/Model/DecCombinator.lean` and `Verif/Model/EncCombinator.lean` take `Vec` for the container and a
finite list for the iterator. Here the container is any `T: Default + Extend<D::Item>` and the iterator any
`I: Iterator<Item = E::Item>`, possibly endless. C69 says when the two agree.

Simplification: `Extend::extend`, `Default::default` and `Iterator::next` are total functions: they return
and do not panic.
-/
namespace Bytecodec

variable {σ α κ ι : Type}

/-! ## `Collect` -/

/-- `src/combinator.rs` 586-590: `struct Collect<D, T>`, for any `T`. -/
structure CollectIntoState (σ κ : Type) where
  inner : σ
  items : κ
  eos : Bool

/-- `src/combinator.rs` 607-613: `new`; `dflt` is `T::default()`. -/
def CollectIntoState.new (dflt : κ) (inner : σ) : CollectIntoState σ κ := ⟨inner, dflt, false⟩

/-- How the `while` loop of `Collect::decode` ends (see `LoopExit`). -/
inductive IntoExit (σ κ : Type) where
  | done (offset : Nat) (s : σ) (items : κ)
  | ret (r : Res Nat) (s : σ) (items : κ)

/-- `src/combinator.rs` 628-633: the `while` loop of `Collect::decode`; `ext items x` is what
`items.extend(iter::once(x))` leaves in `items`. -/
def collectIntoLoop (ext : κ → α → κ) (D : Decoder σ α) (buf : Bytes) (e : Eos) (offset : Nat) (s : σ)
    (items : κ) : Option (IntoExit σ κ) :=
  if offset < buf.length then
    match tryDecode D s offset buf e with
    | .ret r s' => some (.ret r s' items)
    | .next offset' s' =>
      match D.finish s' with
      | (.ok x, s'') => collectIntoLoop ext D buf e offset' s'' (ext items x)
      | (.err k, s'') => some (.ret (.err k) s'' items)
      | (.panic, s'') => some (.ret .panic s'' items)
      | (.capacity, s'') => some (.ret .capacity s'' items)
      | (.diverge, s'') => some (.ret .diverge s'' items)
  else some (.done offset s items)
partial_fixpoint

/-- `src/combinator.rs` 615-658: `impl Decode for Collect<D, T>`.
`decode` 622-638, `finish` 640-645 (`mem::take` leaves `T::default()`), `requiring` 647-653,
`isIdle` 655-657. -/
def collectIntoDecoder (ext : κ → α → κ) (dflt : κ) (D : Decoder σ α) : Decoder (CollectIntoState σ κ) κ where
  decode s buf e :=
    if s.eos then (.ok 0, s)
    else
      match collectIntoLoop ext D buf e 0 s.inner s.items with
      | none => (.diverge, s)
      | some (.ret r i items) => (r, ⟨i, items, s.eos⟩)
      | some (.done offset i items) => (.ok offset, ⟨i, items, if e.isReached then true else s.eos⟩)
  finish s :=
    if s.eos then (.ok s.items, ⟨s.inner, dflt, false⟩) else (.err .incompleteDecoding, s)
  requiring s := if s.eos then .finite 0 else D.requiring s.inner
  isIdle s := s.eos

/-! ## `CollectN` -/

/-- `src/combinator.rs` 806-810: `struct CollectN<D, T>`, for any `T`. -/
structure CollectNIntoState (σ κ : Type) where
  inner : σ
  remaining : Nat
  items : κ

/-- `src/combinator.rs` 837-843: `new`. -/
def CollectNIntoState.new (dflt : κ) (inner : σ) (count : Nat) : CollectNIntoState σ κ := ⟨inner, count, dflt⟩

/-- Exit of the `CollectN` loop (see `LoopExitN`). -/
inductive IntoExitN (σ κ : Type) where
  | done (offset : Nat) (s : σ) (items : κ) (remaining : Nat)
  | ret (r : Res Nat) (s : σ) (items : κ) (remaining : Nat)

/-- `src/combinator.rs` 854-860: the `while` loop of `CollectN::decode`. -/
def collectNIntoLoop (ext : κ → α → κ) (D : Decoder σ α) (buf : Bytes) (e : Eos) :
    (remaining : Nat) → (offset : Nat) → σ → κ → IntoExitN σ κ
  | 0, offset, s, items => .done offset s items 0
  | n + 1, offset, s, items =>
    if offset < buf.length then
      match tryDecode D s offset buf e with
      | .ret r s' => .ret r s' items (n + 1)
      | .next offset' s' =>
        match D.finish s' with
        | (.ok x, s'') => collectNIntoLoop ext D buf e n offset' s'' (ext items x)
        | (.err k, s'') => .ret (.err k) s'' items (n + 1)
        | (.panic, s'') => .ret .panic s'' items (n + 1)
        | (.capacity, s'') => .ret .capacity s'' items (n + 1)
        | (.diverge, s'') => .ret .diverge s'' items (n + 1)
    else .done offset s items (n + 1)

/-- `src/combinator.rs` 845-884: `impl Decode for CollectN<D, T>`.
`decode` 852-865, `finish` 867-871, `requiring` 873-879, `isIdle` 881-883. -/
def collectNIntoDecoder (ext : κ → α → κ) (dflt : κ) (D : Decoder σ α) : Decoder (CollectNIntoState σ κ) κ where
  decode s buf e :=
    match collectNIntoLoop ext D buf e s.remaining 0 s.inner s.items with
    | .ret r i items n => (r, ⟨i, n, items⟩)
    | .done offset i items n =>
      if n ≠ 0 ∧ e.isReached then (.err .unexpectedEos, ⟨i, n, items⟩)
      else (.ok offset, ⟨i, n, items⟩)
  finish s :=
    if s.remaining = 0 then (.ok s.items, { s with items := dflt })
    else (.err .incompleteDecoding, s)
  requiring s := if s.remaining = 0 then .finite 0 else D.requiring s.inner
  isIdle s := s.remaining == 0

/-! ## `Repeat` -/

/-- `src/combinator.rs` 382-385: `struct Repeat<E, I>`, for any iterator `I`. -/
structure RepeatIterState (σ ι : Type) where
  inner : σ
  items : Option ι

/-- `src/combinator.rs` 402-404: `new`. -/
def RepeatIterState.new (inner : σ) : RepeatIterState σ ι := ⟨inner, none⟩

/-- Result of the inner `while` loop of `Repeat::encode` (see `Started`). -/
inductive StartedIter (σ ι : Type) where
  | busy (s : σ) (rest : Option ι)
  | exhausted (s : σ)
  | failed (r : Res Unit) (s : σ) (rest : ι)

/-- `src/combinator.rs` 416-423: feed items to the inner encoder while it is idle. `next i` is the item
`Iterator::next` returns, with the iterator left behind (the iterator is dropped after `None`).
The loop need not terminate (an endless iterator of items without bytes): `none` means that it runs
forever. -/
def startNextIter (next : ι → Option (α × ι)) (E : Encoder σ α) (s : σ) (i : Option ι) :
    Option (StartedIter σ ι) :=
  if E.isIdle s then
    match i.bind next with
    | none => some (.exhausted s)
    | some (x, i') =>
      match E.start s x with
      | (.ok (), s') => startNextIter next E s' (some i')
      | (r, s') => some (.failed r s' i')
  else some (.busy s i)
partial_fixpoint

/-- `src/combinator.rs` 415-430: the outer loop of `Repeat::encode` (see `repeatLoop`). -/
def repeatIterLoop (next : ι → Option (α × ι)) (E : Encoder σ α) (cap : Nat) (e : Eos) (out : Bytes) (s : σ)
    (i : Option ι) : Res Bytes × RepeatIterState σ ι :=
  match startNextIter next E s i with
  | none => (.diverge, ⟨s, i⟩)
  | some (.exhausted s') => (.ok out, ⟨s', none⟩)
  | some (.failed r s' rest) => (r.failAs, ⟨s', some rest⟩)
  | some (.busy s' rest) =>
    if cap < out.length then (.panic, ⟨s', rest⟩)
    else
      match E.encode s' (cap - out.length) e with
      | (.ok bs, s'') =>
        if bs.length = 0 then (.ok out, ⟨s'', rest⟩)
        else repeatIterLoop next E cap e (out ++ bs) s'' rest
      | (.err k, s'') => (.err k, ⟨s'', rest⟩)
      | (.panic, s'') => (.panic, ⟨s'', rest⟩)
      | (.capacity, s'') => (.capacity, ⟨s'', rest⟩)
      | (.diverge, s'') => (.diverge, ⟨s'', rest⟩)
termination_by cap + 1 - out.length
decreasing_by simp only [List.length_append]; omega

/-- `src/combinator.rs` 406-450: `impl Encode for Repeat<E, I>`.
`encode` 413-431, `start` 433-437, `requiring` 439-445, `isIdle` 447-449. -/
def repeatIterEncoder (next : ι → Option (α × ι)) (E : Encoder σ α) : Encoder (RepeatIterState σ ι) ι where
  encode s cap e := repeatIterLoop next E cap e [] s.inner s.items
  start s i := if s.items.isNone then (.ok (), { s with items := some i }) else (.err .encoderFull, s)
  requiring s := if s.items.isNone then .finite 0 else .unknown
  isIdle s := s.items.isNone

end Bytecodec
