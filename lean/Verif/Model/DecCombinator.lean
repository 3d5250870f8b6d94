import Verif.Model.Core
/-!
# Decoder combinators

Models the `Decode` half of `src/combinator.rs`.
-/
namespace Bytecodec

variable {σ α β : Type}

/-! ## `Map`, `TryMap`, `MapErr` -/

/-- `src/combinator.rs` 17-72: `Map<D, T, F>`. -/
def mapDecoder (D : Decoder σ α) (f : α → β) : Decoder σ β where
  decode s buf e := D.decode s buf e
  finish s := Res.step (D.finish s) id fun x s' => (.ok (f x), s')
  requiring s := D.requiring s
  isIdle s := D.isIdle s

/-- `src/combinator.rs` 890-943: `TryMap<D, T, E, F>`; `f` returns the kind of the converted error. -/
def tryMapDecoder (D : Decoder σ α) (f : α → Except ErrorKind β) : Decoder σ β where
  decode s buf e := D.decode s buf e
  finish s :=
    Res.step (D.finish s) id fun x s' =>
      match f x with
      | .ok y => (.ok y, s')
      | .error k => (.err k, s')
  requiring s := D.requiring s
  isIdle s := D.isIdle s

/-- `src/combinator.rs` 78-138: `MapErr<C, E, F>` as a decoder; `f` acts on error kinds. -/
def mapErrDecoder (D : Decoder σ α) (f : ErrorKind → ErrorKind) : Decoder σ α where
  decode s buf e := ((D.decode s buf e).1.mapErr f, (D.decode s buf e).2)
  finish s := ((D.finish s).1.mapErr f, (D.finish s).2)
  requiring s := D.requiring s
  isIdle s := D.isIdle s

/-! ## `AndThen` -/

/-- `src/combinator.rs` 185-239: `AndThen<D0, D1, F>`. The state is `(inner0, inner1)`; the closure
`and_then` returns the initial state of the second decoder. `decode` 210-221, `finish` 223-226,
`requiring` 228-234, `isIdle` 236-238. -/
def andThenDecoder {σ0 α0 σ1 α1 : Type} (D0 : Decoder σ0 α0) (D1 : Decoder σ1 α1) (f : α0 → σ1) :
    Decoder (σ0 × Option σ1) α1 where
  decode s buf e :=
    let second (s0 : σ0) (offset : Nat) (s1 : σ1) : Res Nat × (σ0 × Option σ1) :=
      match tryDecode D1 s1 offset buf e with
      | .ret r s1' => (r, (s0, some s1'))
      | .next offset s1' => (.ok offset, (s0, some s1'))
    match s.2 with
    | some s1 => second s.1 0 s1
    | none =>
      match tryDecode D0 s.1 0 buf e with
      | .ret r s0 => (r, (s0, none))
      | .next offset s0 =>
        Res.step (D0.finish s0) (fun s0' => (s0', none)) fun item s0' => second s0' offset (f item)
  finish s :=
    match s.2 with
    | none => (.err .incompleteDecoding, s)
    | some s1 => ((D1.finish s1).1, (s.1, none))
  requiring s :=
    match s.2 with
    | some s1 => D1.requiring s1
    | none => D0.requiring s.1
  isIdle s :=
    match s.2 with
    | some s1 => D1.isIdle s1
    | none => false

/-! ## `Omittable` -/

/-- `src/combinator.rs` 461-464: `struct Omittable<D>`. -/
structure OmitState (σ : Type) where
  inner : σ
  doOmit : Bool

/-- `src/combinator.rs` 483-485: `do_omit`. -/
def OmitState.setDoOmit (s : OmitState σ) (b : Bool) : OmitState σ := { s with doOmit := b }

/-- `src/combinator.rs` 496-526: `impl Decode for Omittable<D>`. -/
def omittableDecoder (D : Decoder σ α) : Decoder (OmitState σ) (Option α) where
  decode s buf e :=
    if s.doOmit then (.ok 0, s)
    else Res.step (D.decode s.inner buf e) (fun i => { s with inner := i }) fun n i =>
      (.ok n, { s with inner := i })
  finish s :=
    if s.doOmit then (.ok none, s)
    else Res.step (D.finish s.inner) (fun i => { s with inner := i }) fun x i =>
      (.ok (some x), { s with inner := i })
  requiring s := if s.doOmit then .finite 0 else D.requiring s.inner
  isIdle s := s.doOmit || D.isIdle s.inner

/-! ## `Collect` -/

/-- `src/combinator.rs` 586-590: `struct Collect<D, T>` with `T = Vec<D::Item>`
(`extend(once(item))` appends at the end). -/
structure CollectState (σ α : Type) where
  inner : σ
  items : List α
  eos : Bool

/-- How the `while` loop of `Collect::decode` / `CollectN::decode` ends: by falling out of the loop,
or by returning from the function. -/
inductive LoopExit (σ α : Type) where
  | done (offset : Nat) (s : σ) (items : List α)
  | ret (r : Res Nat) (s : σ) (items : List α)

/-- `src/combinator.rs` 628-633: the `while` loop of `Collect::decode`. The loop need not terminate
(items of zero bytes), so it is a least fixed point: `none` means that it runs forever. -/
def collectLoop (D : Decoder σ α) (buf : Bytes) (e : Eos) (offset : Nat) (s : σ) (items : List α) :
    Option (LoopExit σ α) :=
  if offset < buf.length then
    match tryDecode D s offset buf e with
    | .ret r s' => some (.ret r s' items)
    | .next offset' s' =>
      match D.finish s' with
      | (.ok x, s'') => collectLoop D buf e offset' s'' (items ++ [x])
      | (.err k, s'') => some (.ret (.err k) s'' items)
      | (.panic, s'') => some (.ret .panic s'' items)
      | (.capacity, s'') => some (.ret .capacity s'' items)
      | (.diverge, s'') => some (.ret .diverge s'' items)
  else some (.done offset s items)
partial_fixpoint

/-- `src/combinator.rs` 615-658: `impl Decode for Collect<D, T>`.
`decode` 622-638, `finish` 640-645, `requiring` 647-653, `isIdle` 655-657. -/
def collectDecoder (D : Decoder σ α) : Decoder (CollectState σ α) (List α) where
  decode s buf e :=
    if s.eos then (.ok 0, s)
    else
      match collectLoop D buf e 0 s.inner s.items with
      | none => (.diverge, s)
      | some (.ret r i items) => (r, ⟨i, items, s.eos⟩)
      | some (.done offset i items) => (.ok offset, ⟨i, items, if e.isReached then true else s.eos⟩)
  finish s :=
    if s.eos then (.ok s.items, ⟨s.inner, [], false⟩) else (.err .incompleteDecoding, s)
  requiring s := if s.eos then .finite 0 else D.requiring s.inner
  isIdle s := s.eos

/-! ## `CollectN` -/

/-- `src/combinator.rs` 806-810: `struct CollectN<D, T>`. -/
structure CollectNState (σ α : Type) where
  inner : σ
  remaining : Nat
  items : List α

/-- `src/combinator.rs` 837-843: `new`. -/
def CollectNState.new (inner : σ) (count : Nat) : CollectNState σ α := ⟨inner, count, []⟩

/-- `src/combinator.rs` 818-820: `set_remaining_items`. -/
def CollectNState.setRemainingItems (s : CollectNState σ α) (n : Nat) : CollectNState σ α :=
  { s with remaining := n }

/-- Exit of the `CollectN` loop: as `LoopExit`, with the number of items still to decode. -/
inductive LoopExitN (σ α : Type) where
  | done (offset : Nat) (s : σ) (items : List α) (remaining : Nat)
  | ret (r : Res Nat) (s : σ) (items : List α) (remaining : Nat)

/-- `src/combinator.rs` 854-860: the `while` loop of `CollectN::decode`; structural in the number
of remaining items, which decreases by one per round. -/
def collectNLoop (D : Decoder σ α) (buf : Bytes) (e : Eos) :
    (remaining : Nat) → (offset : Nat) → σ → List α → LoopExitN σ α
  | 0, offset, s, items => .done offset s items 0
  | n + 1, offset, s, items =>
    if offset < buf.length then
      match tryDecode D s offset buf e with
      | .ret r s' => .ret r s' items (n + 1)
      | .next offset' s' =>
        match D.finish s' with
        | (.ok x, s'') => collectNLoop D buf e n offset' s'' (items ++ [x])
        | (.err k, s'') => .ret (.err k) s'' items (n + 1)
        | (.panic, s'') => .ret .panic s'' items (n + 1)
        | (.capacity, s'') => .ret .capacity s'' items (n + 1)
        | (.diverge, s'') => .ret .diverge s'' items (n + 1)
    else .done offset s items (n + 1)

/-- `src/combinator.rs` 845-884: `impl Decode for CollectN<D, T>`.
`decode` 852-865, `finish` 867-871, `requiring` 873-879, `isIdle` 881-883. -/
def collectNDecoder (D : Decoder σ α) : Decoder (CollectNState σ α) (List α) where
  decode s buf e :=
    match collectNLoop D buf e s.remaining 0 s.inner s.items with
    | .ret r i items n => (r, ⟨i, n, items⟩)
    | .done offset i items n =>
      if n ≠ 0 ∧ e.isReached then (.err .unexpectedEos, ⟨i, n, items⟩)
      else (.ok offset, ⟨i, n, items⟩)
  finish s :=
    if s.remaining = 0 then (.ok s.items, { s with items := [] })
    else (.err .incompleteDecoding, s)
  requiring s := if s.remaining = 0 then .finite 0 else D.requiring s.inner
  isIdle s := s.remaining == 0

/-! ## `Length` -/

/-- `src/combinator.rs` 664-668: `struct Length<C>`. -/
structure LengthState (σ : Type) where
  inner : σ
  expected : Nat
  remaining : Nat

namespace LengthState

/-- `src/combinator.rs` 670-676: `new`. -/
def new (inner : σ) (expected : Nat) : LengthState σ := ⟨inner, expected, expected⟩

/-- `src/combinator.rs` 688-698: `set_expected_bytes`. -/
def setExpectedBytes (s : LengthState σ) (bytes : Nat) : Res Unit × LengthState σ :=
  if s.remaining = s.expected then (.ok (), { s with expected := bytes, remaining := bytes })
  else (.err .incompleteDecoding, s)

end LengthState

/-- `src/combinator.rs` 720-751: `impl Decode for Length<D>`.
`decode` 723-735 (the `u64` addition on line 728 and the subtraction on line 733 panic on
overflow or underflow), `finish` 737-742, `requiring` 744-746, `isIdle` 748-750. -/
def lengthDecoder (D : Decoder σ α) : Decoder (LengthState σ) α where
  decode s buf e :=
    let limit := min buf.length s.remaining
    let required := s.remaining - limit
    let go : Res Nat × LengthState σ :=
      Res.step (D.decode s.inner (buf.take limit) (Eos.withRemainingBytes (.finite required)))
        (fun i => { s with inner := i }) fun size i =>
          if s.remaining < size then (.panic, { s with inner := i })
          else (.ok size, { s with inner := i, remaining := s.remaining - size })
    match e.remainingBytes.toU64 with
    | some remaining =>
      if 2 ^ 64 ≤ remaining + buf.length then (.panic, s)
      else if remaining + buf.length < required then (.err .unexpectedEos, s)
      else go
    | none => go
  finish s :=
    if s.remaining = 0 then
      Res.step (D.finish s.inner) (fun i => ⟨i, s.expected, s.expected⟩) fun x i =>
        (.ok x, ⟨i, s.expected, s.expected⟩)
    else (.err .incompleteDecoding, s)
  requiring s := .finite s.remaining
  isIdle s := D.isIdle s.inner

/-! ## `MaxBytes` -/

/-- `src/combinator.rs` 951-955: `struct MaxBytes<C>`. -/
structure MaxBytesState (σ : Type) where
  inner : σ
  consumed : Nat
  max : Nat

namespace MaxBytesState

/-- `src/combinator.rs` 957-963: `new`. -/
def new (inner : σ) (max : Nat) : MaxBytesState σ := ⟨inner, 0, max⟩

/-- `src/combinator.rs` 980-989: `set_max_bytes`. -/
def setMaxBytes (s : MaxBytesState σ) (n : Nat) : Res Unit × MaxBytesState σ :=
  if s.consumed ≤ n then (.ok (), { s with max := n }) else (.err .invalidInput, s)

end MaxBytesState

/-- `src/combinator.rs` 1006-1046: `impl Decode for MaxBytes<D>`.
`decode` 1009-1032 (the subtractions on lines 1016/1022 and the addition on line 1023 panic on
underflow or overflow; the addition on line 1030 cannot overflow after the check), `finish` 1034-1037. -/
def maxBytesDecoder (D : Decoder σ α) : Decoder (MaxBytesState σ) α where
  decode s buf e :=
    let go : Res Nat × MaxBytesState σ :=
      Res.step (D.decode s.inner buf e) (fun i => { s with inner := i }) fun size i =>
        (.ok size, { s with inner := i, consumed := s.consumed + size })
    match e.remainingBytes with
    | .infinite => (.err .invalidInput, s)
    | .unknown =>
      if s.max < s.consumed then (.panic, s)
      else if buf.length ≤ s.max - s.consumed then go
      else (.err .invalidInput, s)
    | .finite remaining =>
      if s.max < s.consumed then (.panic, s)
      else if 2 ^ 64 ≤ buf.length + remaining then (.panic, s)
      else if buf.length + remaining ≤ s.max - s.consumed then go
      else (.err .invalidInput, s)
  finish s :=
    Res.step (D.finish s.inner) (fun i => { s with inner := i, consumed := 0 }) fun x i =>
      (.ok x, { s with inner := i, consumed := 0 })
  requiring s := D.requiring s.inner
  isIdle s := D.isIdle s.inner

/-! ## `Slice` -/

/-- `src/combinator.rs` 1142-1145: `struct Slice<T>`. -/
structure SliceState (σ : Type) where
  inner : σ
  consumable : Nat

namespace SliceState

/-- `src/combinator.rs` 1147-1152: `new`. -/
def new (inner : σ) : SliceState σ := ⟨inner, 0⟩

/-- `src/combinator.rs` 1162-1164: `set_consumable_bytes`. -/
def setConsumableBytes (s : SliceState σ) (n : Nat) : SliceState σ := { s with consumable := n }

/-- `src/combinator.rs` 1170-1172: `is_suspended`. -/
def isSuspended (s : SliceState σ) : Bool := s.consumable == 0

end SliceState

/-- `src/combinator.rs` 1189-1211: `impl Decode for Slice<D>`. `decode` 1192-1198: `Eos::back` and
the subtraction on line 1196 panic on overflow or underflow. -/
def sliceDecoder (D : Decoder σ α) : Decoder (SliceState σ) α where
  decode s buf e :=
    let limit := min buf.length s.consumable
    match e.back (buf.length - limit) with
    | .ok e' =>
      Res.step (D.decode s.inner (buf.take limit) e') (fun i => { s with inner := i }) fun size i =>
        if s.consumable < size then (.panic, { s with inner := i })
        else (.ok size, ⟨i, s.consumable - size⟩)
    | _ => (.panic, s)
  finish s :=
    Res.step (D.finish s.inner) (fun i => { s with inner := i }) fun x i =>
      (.ok x, { s with inner := i })
  requiring s := D.requiring s.inner
  isIdle s := D.isIdle s.inner

/-! ## `Peekable` -/

/-- `src/combinator.rs` 1309-1312: `struct Peekable<D>`. -/
structure PeekState (σ α : Type) where
  inner : σ
  item : Option α

/-- `src/combinator.rs` 1315-1317: `peek`. -/
def PeekState.peek (s : PeekState σ α) : Option α := s.item

/-- `src/combinator.rs` 1361-1392: `impl Decode for Peekable<D>`.
`decode` 1364-1374, `finish` 1376-1379, `requiring` 1381-1387, `isIdle` 1389-1391. -/
def peekableDecoder (D : Decoder σ α) : Decoder (PeekState σ α) α where
  decode s buf e :=
    if s.item.isNone then
      Res.step (D.decode s.inner buf e) (fun i => { s with inner := i }) fun size i =>
        if D.isIdle i then
          Res.step (D.finish i) (fun i' => { s with inner := i' }) fun x i' => (.ok size, ⟨i', some x⟩)
        else (.ok size, { s with inner := i })
    else (.ok 0, s)
  finish s :=
    match s.item with
    | some x => (.ok x, { s with item := none })
    | none => (.err .incompleteDecoding, s)
  requiring s := if s.item.isSome then .finite 0 else D.requiring s.inner
  isIdle s := s.item.isSome

/-! ## `MaybeEos` -/

/-- `src/combinator.rs` 1398-1401: `struct MaybeEos<D>`. -/
structure MaybeEosState (σ : Type) where
  inner : σ
  started : Bool

/-- `src/combinator.rs` 1418-1423: `new`. -/
def MaybeEosState.new (inner : σ) : MaybeEosState σ := ⟨inner, false⟩

/-- `src/combinator.rs` 1425-1452: `impl Decode for MaybeEos<D>`.
`decode` 1428-1438, `finish` 1440-1443. -/
def maybeEosDecoder (D : Decoder σ α) : Decoder (MaybeEosState σ) α where
  decode s buf e :=
    let e' := if !s.started && buf.isEmpty && e.isReached then Eos.new false else e
    Res.step (D.decode s.inner buf e') (fun i => { s with inner := i }) fun size i =>
      (.ok size, ⟨i, if size ≠ 0 then true else s.started⟩)
  finish s :=
    Res.step (D.finish s.inner) (fun i => ⟨i, false⟩) fun x i => (.ok x, ⟨i, false⟩)
  requiring s := D.requiring s.inner
  isIdle s := D.isIdle s.inner

end Bytecodec
