import Verif.Model.Tuple
import Verif.Model.DecCombinator
import Verif.Model.EncCombinator
/-!
# Model: errors with their cause and history

The rest of the model represents an `Error` by its kind. Here it has all its parts (`src/error.rs` 5-6,
`trackable::error::TrackableError`), and the combinators and I/O helpers say what they do with those. Their control flow is
the same; C100 says so.

`trackable` is not part of the repository; its documented behaviour is: `kind.cause(c)` makes an error with a cause and an
empty history, `ErrorKind::into` one without a cause; `track!(e)` adds the place of the macro call to the history if tracking
is enabled for `e`; `track_assert!` and `track_panic!` make an error whose cause is their text and track it.
A macro called inside another macro is placed where the outermost one is called.
Simplification: the text of an assertion, which may show values, is represented by its place.
-/
namespace Bytecodec

variable {κ σ α β : Type}

/-- `trackable::Location`: file (in `src`) and line. -/
structure Loc where
  file : String
  line : Nat
deriving DecidableEq, Repr

/-- What an error is caused by: the text of an assertion, or something the application, the I/O layer or a parser provides. -/
inductive Cause (κ : Type) where
  | text (place : Loc)
  | given (c : κ)
deriving DecidableEq, Repr

/-- `src/error.rs` 5-6: `struct Error(TrackableError<ErrorKind>)`. No history: tracking is disabled. -/
structure TError (κ : Type) where
  kind : ErrorKind
  cause : Option (Cause κ)
  history : Option (List Loc)
deriving DecidableEq, Repr

/-- `track!(e)`. -/
def TError.track (l : Loc) (e : TError κ) : TError κ := { e with history := e.history.map (· ++ [l]) }

/-- The error made by `track_assert!(_, kind, ..)` or `track_panic!(kind, text)` at a place. -/
def TError.raised (k : ErrorKind) (l : Loc) : TError κ := ⟨k, some (.text l), some [l]⟩

/-- The error made by `track_panic!(kind)`, without a text. -/
def TError.bare (k : ErrorKind) (l : Loc) : TError κ := ⟨k, none, some [l]⟩

/-- `src/error.rs` 12-21: `impl From<std::io::Error> for Error`; `c` stands for the `std::io::Error`. -/
def TError.ofIo (k : IoErr) (c : κ) : TError κ := ⟨ErrorKind.ofIo k, some (.given c), some []⟩

/-- `src/error.rs` 7-11: `impl From<Failure> for Error` with `takes_over`: only the kind is new. A `Failure` is a
`TrackableError` with another type of kind, so its cause and its history are given. -/
def TError.ofFailure (cause : Option (Cause κ)) (history : Option (List Loc)) : TError κ := ⟨.other, cause, history⟩

/-- Outcome of a Rust call returning `Result<α>`, with the whole error (see `Res`). -/
inductive TRes (κ α : Type) where
  | ok (a : α)
  | err (e : TError κ)
  | panic
  | capacity
  | diverge
deriving DecidableEq, Repr

/-- `track!(result)`, for a call that also updates a state. -/
def tracked {τ : Type} (l : Loc) (p : TRes κ α × τ) : TRes κ α × τ :=
  match p with
  | (.err e, s) => (.err (e.track l), s)
  | p => p

/-- As `Res.step`: `let a = expr?; k`. -/
def TRes.step {τ υ : Type} (p : TRes κ α × τ) (wrap : τ → υ) (k : α → τ → TRes κ β × υ) : TRes κ β × υ :=
  match p with
  | (.ok a, s) => k a s
  | (.err e, s) => (.err e, wrap s)
  | (.panic, s) => (.panic, wrap s)
  | (.capacity, s) => (.capacity, wrap s)
  | (.diverge, s) => (.diverge, wrap s)

/-- `src/decode.rs` 9-84: `trait Decode`. -/
structure TDecoder (κ σ α : Type) where
  decode : σ → Bytes → Eos → TRes κ Nat × σ
  finish : σ → TRes κ α × σ
  requiring : σ → ByteCount
  isIdle : σ → Bool

/-- `src/encode.rs` 9-72: `trait Encode`. -/
structure TEncoder (κ σ α : Type) where
  encode : σ → Nat → Eos → TRes κ Bytes × σ
  start : σ → α → TRes κ Unit × σ
  requiring : σ → ByteCount
  isIdle : σ → Bool

/-- As `Flow`. -/
inductive TFlow (κ ω σ : Type) where
  | next (offset : ω) (s : σ)
  | ret (r : TRes κ ω) (s : σ)

/-- `src/macros.rs` 54-79: `bytecodec_try_decode!`, called at `l`. -/
def tTryDecode (l : Loc) (D : TDecoder κ σ α) (s : σ) (offset : Nat) (buf : Bytes) (e : Eos) : TFlow κ Nat σ :=
  if D.isIdle s then .next offset s
  else if buf.length < offset then .ret .panic s
  else
    match tracked l (D.decode s (buf.drop offset) e) with
    | (.ok n, s') => if D.isIdle s' then .next (offset + n) s' else .ret (.ok (offset + n)) s'
    | (.err x, s') => .ret (.err x) s'
    | (.panic, s') => .ret .panic s'
    | (.capacity, s') => .ret .capacity s'
    | (.diverge, s') => .ret .diverge s'

/-- `src/macros.rs` 14-39: `bytecodec_try_encode!`, called at `l`. -/
def tTryEncode (l : Loc) (E : TEncoder κ σ α) (s : σ) (out : Bytes) (cap : Nat) (e : Eos) : TFlow κ Bytes σ :=
  if E.isIdle s then .next out s
  else if cap < out.length then .ret .panic s
  else
    match tracked l (E.encode s (cap - out.length) e) with
    | (.ok bs, s') => if E.isIdle s' then .next (out ++ bs) s' else .ret (.ok (out ++ bs)) s'
    | (.err x, s') => .ret (.err x) s'
    | (.panic, s') => .ret .panic s'
    | (.capacity, s') => .ret .capacity s'
    | (.diverge, s') => .ret .diverge s'

/-- A line of `src/combinator.rs`. -/
abbrev inCombinator (line : Nat) : Loc := ⟨"combinator.rs", line⟩

/-! ## Decoders -/

/-- `src/combinator.rs` 17-72: `Map<D, T, F>`; tracks nothing. -/
def tMapDecoder (D : TDecoder κ σ α) (f : α → β) : TDecoder κ σ β where
  decode s buf e := D.decode s buf e
  finish s := TRes.step (D.finish s) id fun x s' => (.ok (f x), s')
  requiring s := D.requiring s
  isIdle s := D.isIdle s

/-- `src/combinator.rs` 890-943: `TryMap<D, T, E, F>`; `f` returns the converted error. -/
def tTryMapDecoder (D : TDecoder κ σ α) (f : α → Except (TError κ) β) : TDecoder κ σ β where
  decode s buf e := tracked (inCombinator 928) (D.decode s buf e)
  finish s :=
    TRes.step (tracked (inCombinator 932) (D.finish s)) id fun x s' =>
      match f x with
      | .ok y => (.ok y, s')
      | .error k => tracked (inCombinator 933) (.err k, s')
  requiring s := D.requiring s
  isIdle s := D.isIdle s

/-- `Result::map_err` for a call that also updates a state. -/
def TRes.mapErr {τ : Type} (f : TError κ → TError κ) (p : TRes κ α × τ) : TRes κ α × τ :=
  match p with
  | (.err e, s) => (.err (f e), s)
  | p => p

/-- `src/combinator.rs` 78-138: `MapErr<C, E, F>` as a decoder; `f` sees the whole error. -/
def tMapErrDecoder (D : TDecoder κ σ α) (f : TError κ → TError κ) : TDecoder κ σ α where
  decode s buf e := TRes.mapErr f (D.decode s buf e)
  finish s := TRes.mapErr f (D.finish s)
  requiring s := D.requiring s
  isIdle s := D.isIdle s

/-- `src/combinator.rs` 185-239: `AndThen<D0, D1, F>`. -/
def tAndThenDecoder {σ0 α0 σ1 α1 : Type} (D0 : TDecoder κ σ0 α0) (D1 : TDecoder κ σ1 α1) (f : α0 → σ1) :
    TDecoder κ (σ0 × Option σ1) α1 where
  decode s buf e :=
    let second (s0 : σ0) (offset : Nat) (s1 : σ1) : TRes κ Nat × (σ0 × Option σ1) :=
      match tTryDecode (inCombinator 219) D1 s1 offset buf e with
      | .ret r s1' => (r, (s0, some s1'))
      | .next offset s1' => (.ok offset, (s0, some s1'))
    match s.2 with
    | some s1 => second s.1 0 s1
    | none =>
      match tTryDecode (inCombinator 213) D0 s.1 0 buf e with
      | .ret r s0 => (r, (s0, none))
      | .next offset s0 =>
        TRes.step (tracked (inCombinator 214) (D0.finish s0)) (fun s0' => (s0', none)) fun item s0' =>
          second s0' offset (f item)
  finish s :=
    match s.2 with
    | none => (.err (.raised .incompleteDecoding (inCombinator 224)), s)
    | some s1 => ((tracked (inCombinator 225) (D1.finish s1)).1, (s.1, none))
  requiring s :=
    match s.2 with
    | some s1 => D1.requiring s1
    | none => D0.requiring s.1
  isIdle s :=
    match s.2 with
    | some s1 => D1.isIdle s1
    | none => false

/-- `src/combinator.rs` 496-526: `impl Decode for Omittable<D>`. -/
def tOmittableDecoder (D : TDecoder κ σ α) : TDecoder κ (OmitState σ) (Option α) where
  decode s buf e :=
    if s.doOmit then (.ok 0, s)
    else TRes.step (tracked (inCombinator 503) (D.decode s.inner buf e)) (fun i => { s with inner := i }) fun n i =>
      (.ok n, { s with inner := i })
  finish s :=
    if s.doOmit then (.ok none, s)
    else TRes.step (tracked (inCombinator 511) (D.finish s.inner)) (fun i => { s with inner := i }) fun x i =>
      (.ok (some x), { s with inner := i })
  requiring s := if s.doOmit then .finite 0 else D.requiring s.inner
  isIdle s := s.doOmit || D.isIdle s.inner

/-- Exit of the `while` loop of `Collect::decode` (see `LoopExit`). -/
inductive TLoopExit (κ σ α : Type) where
  | done (offset : Nat) (s : σ) (items : List α)
  | ret (r : TRes κ Nat) (s : σ) (items : List α)

/-- `src/combinator.rs` 628-633: the `while` loop of `Collect::decode`. -/
def tCollectLoop (D : TDecoder κ σ α) (buf : Bytes) (e : Eos) (offset : Nat) (s : σ) (items : List α) :
    Option (TLoopExit κ σ α) :=
  if offset < buf.length then
    match tTryDecode (inCombinator 629) D s offset buf e with
    | .ret r s' => some (.ret r s' items)
    | .next offset' s' =>
      match tracked (inCombinator 631) (D.finish s') with
      | (.ok x, s'') => tCollectLoop D buf e offset' s'' (items ++ [x])
      | (.err k, s'') => some (.ret (.err k) s'' items)
      | (.panic, s'') => some (.ret .panic s'' items)
      | (.capacity, s'') => some (.ret .capacity s'' items)
      | (.diverge, s'') => some (.ret .diverge s'' items)
  else some (.done offset s items)
partial_fixpoint

/-- `src/combinator.rs` 615-658: `impl Decode for Collect<D, T>`. -/
def tCollectDecoder (D : TDecoder κ σ α) : TDecoder κ (CollectState σ α) (List α) where
  decode s buf e :=
    if s.eos then (.ok 0, s)
    else
      match tCollectLoop D buf e 0 s.inner s.items with
      | none => (.diverge, s)
      | some (.ret r i items) => (r, ⟨i, items, s.eos⟩)
      | some (.done offset i items) => (.ok offset, ⟨i, items, if e.isReached then true else s.eos⟩)
  finish s :=
    if s.eos then (.ok s.items, ⟨s.inner, [], false⟩)
    else (.err (.raised .incompleteDecoding (inCombinator 641)), s)
  requiring s := if s.eos then .finite 0 else D.requiring s.inner
  isIdle s := s.eos

/-- Exit of the `CollectN` loop (see `LoopExitN`). -/
inductive TLoopExitN (κ σ α : Type) where
  | done (offset : Nat) (s : σ) (items : List α) (remaining : Nat)
  | ret (r : TRes κ Nat) (s : σ) (items : List α) (remaining : Nat)

/-- `src/combinator.rs` 854-860: the `while` loop of `CollectN::decode`. -/
def tCollectNLoop (D : TDecoder κ σ α) (buf : Bytes) (e : Eos) :
    (remaining : Nat) → (offset : Nat) → σ → List α → TLoopExitN κ σ α
  | 0, offset, s, items => .done offset s items 0
  | n + 1, offset, s, items =>
    if offset < buf.length then
      match tTryDecode (inCombinator 855) D s offset buf e with
      | .ret r s' => .ret r s' items (n + 1)
      | .next offset' s' =>
        match tracked (inCombinator 857) (D.finish s') with
        | (.ok x, s'') => tCollectNLoop D buf e n offset' s'' (items ++ [x])
        | (.err k, s'') => .ret (.err k) s'' items (n + 1)
        | (.panic, s'') => .ret .panic s'' items (n + 1)
        | (.capacity, s'') => .ret .capacity s'' items (n + 1)
        | (.diverge, s'') => .ret .diverge s'' items (n + 1)
    else .done offset s items (n + 1)

/-- `src/combinator.rs` 845-884: `impl Decode for CollectN<D, T>`. -/
def tCollectNDecoder (D : TDecoder κ σ α) : TDecoder κ (CollectNState σ α) (List α) where
  decode s buf e :=
    match tCollectNLoop D buf e s.remaining 0 s.inner s.items with
    | .ret r i items n => (r, ⟨i, n, items⟩)
    | .done offset i items n =>
      if n ≠ 0 ∧ e.isReached then (.err (.raised .unexpectedEos (inCombinator 862)), ⟨i, n, items⟩)
      else (.ok offset, ⟨i, n, items⟩)
  finish s :=
    if s.remaining = 0 then (.ok s.items, { s with items := [] })
    else (.err (.raised .incompleteDecoding (inCombinator 868)), s)
  requiring s := if s.remaining = 0 then .finite 0 else D.requiring s.inner
  isIdle s := s.remaining == 0

/-- `src/combinator.rs` 720-751: `impl Decode for Length<D>`. -/
def tLengthDecoder (D : TDecoder κ σ α) : TDecoder κ (LengthState σ) α where
  decode s buf e :=
    let limit := min buf.length s.remaining
    let required := s.remaining - limit
    let go : TRes κ Nat × LengthState σ :=
      TRes.step (tracked (inCombinator 732)
          (D.decode s.inner (buf.take limit) (Eos.withRemainingBytes (.finite required))))
        (fun i => { s with inner := i }) fun size i =>
          if s.remaining < size then (.panic, { s with inner := i })
          else (.ok size, { s with inner := i, remaining := s.remaining - size })
    match e.remainingBytes.toU64 with
    | some remaining =>
      if 2 ^ 64 ≤ remaining + buf.length then (.panic, s)
      else if remaining + buf.length < required then (.err (.raised .unexpectedEos (inCombinator 729)), s)
      else go
    | none => go
  finish s :=
    if s.remaining = 0 then
      TRes.step (tracked (inCombinator 741) (D.finish s.inner)) (fun i => ⟨i, s.expected, s.expected⟩) fun x i =>
        (.ok x, ⟨i, s.expected, s.expected⟩)
    else (.err (.raised .incompleteDecoding (inCombinator 738)), s)
  requiring s := .finite s.remaining
  isIdle s := D.isIdle s.inner

/-- `src/combinator.rs` 1006-1046: `impl Decode for MaxBytes<D>`. -/
def tMaxBytesDecoder (D : TDecoder κ σ α) : TDecoder κ (MaxBytesState σ) α where
  decode s buf e :=
    let go : TRes κ Nat × MaxBytesState σ :=
      TRes.step (tracked (inCombinator 1029) (D.decode s.inner buf e)) (fun i => { s with inner := i }) fun size i =>
        (.ok size, { s with inner := i, consumed := s.consumed + size })
    match e.remainingBytes with
    | .infinite => (.err (.raised .invalidInput (inCombinator 1012)), s)
    | .unknown =>
      if s.max < s.consumed then (.panic, s)
      else if buf.length ≤ s.max - s.consumed then go
      else (.err (.raised .invalidInput (inCombinator 1017)), s)
    | .finite remaining =>
      if s.max < s.consumed then (.panic, s)
      else if 2 ^ 64 ≤ buf.length + remaining then (.panic, s)
      else if buf.length + remaining ≤ s.max - s.consumed then go
      else (.err (.raised .invalidInput (inCombinator 1023)), s)
  finish s :=
    TRes.step (tracked (inCombinator 1036) (D.finish s.inner)) (fun i => { s with inner := i, consumed := 0 }) fun x i =>
      (.ok x, { s with inner := i, consumed := 0 })
  requiring s := D.requiring s.inner
  isIdle s := D.isIdle s.inner

/-- `src/combinator.rs` 1189-1211: `impl Decode for Slice<D>`. -/
def tSliceDecoder (D : TDecoder κ σ α) : TDecoder κ (SliceState σ) α where
  decode s buf e :=
    let limit := min buf.length s.consumable
    match e.back (buf.length - limit) with
    | .ok e' =>
      TRes.step (tracked (inCombinator 1195) (D.decode s.inner (buf.take limit) e')) (fun i => { s with inner := i })
        fun size i =>
          if s.consumable < size then (.panic, { s with inner := i })
          else (.ok size, ⟨i, s.consumable - size⟩)
    | _ => (.panic, s)
  finish s :=
    TRes.step (tracked (inCombinator 1201) (D.finish s.inner)) (fun i => { s with inner := i }) fun x i =>
      (.ok x, { s with inner := i })
  requiring s := D.requiring s.inner
  isIdle s := D.isIdle s.inner

/-- `src/combinator.rs` 1361-1392: `impl Decode for Peekable<D>`. -/
def tPeekableDecoder (D : TDecoder κ σ α) : TDecoder κ (PeekState σ α) α where
  decode s buf e :=
    if s.item.isNone then
      TRes.step (tracked (inCombinator 1366) (D.decode s.inner buf e)) (fun i => { s with inner := i }) fun size i =>
        if D.isIdle i then
          TRes.step (tracked (inCombinator 1368) (D.finish i)) (fun i' => { s with inner := i' }) fun x i' =>
            (.ok size, ⟨i', some x⟩)
        else (.ok size, { s with inner := i })
    else (.ok 0, s)
  finish s :=
    match s.item with
    | some x => (.ok x, { s with item := none })
    | none => (.err (.raised .incompleteDecoding (inCombinator 1377)), s)
  requiring s := if s.item.isSome then .finite 0 else D.requiring s.inner
  isIdle s := s.item.isSome

/-- `src/combinator.rs` 1425-1452: `impl Decode for MaybeEos<D>`. -/
def tMaybeEosDecoder (D : TDecoder κ σ α) : TDecoder κ (MaybeEosState σ) α where
  decode s buf e :=
    let e' := if !s.started && buf.isEmpty && e.isReached then Eos.new false else e
    TRes.step (tracked (inCombinator 1433) (D.decode s.inner buf e')) (fun i => { s with inner := i }) fun size i =>
      (.ok size, ⟨i, if size ≠ 0 then true else s.started⟩)
  finish s :=
    TRes.step (tracked (inCombinator 1442) (D.finish s.inner)) (fun i => ⟨i, false⟩) fun x i => (.ok x, ⟨i, false⟩)
  requiring s := D.requiring s.inner
  isIdle s := D.isIdle s.inner

/-- `src/tuple.rs` 32-61: `impl Decode for TupleDecoder<(D0, D1)>`; the macro is called on line 61. -/
def tPairDecoder {σ0 σ1 α0 α1 : Type} (D0 : TDecoder κ σ0 α0) (D1 : TDecoder κ σ1 α1) :
    TDecoder κ (σ0 × σ1) (α0 × α1) where
  decode s buf e :=
    match tTryDecode ⟨"tuple.rs", 61⟩ D0 s.1 0 buf e with
    | .ret r s0 => (r, (s0, s.2))
    | .next o s0 =>
      match tTryDecode ⟨"tuple.rs", 61⟩ D1 s.2 o buf e with
      | .ret r s1 => (r, (s0, s1))
      | .next o s1 => (.ok o, (s0, s1))
  finish s :=
    TRes.step (tracked ⟨"tuple.rs", 61⟩ (D0.finish s.1)) (fun s0 => (s0, s.2)) fun x0 s0 =>
      TRes.step (tracked ⟨"tuple.rs", 61⟩ (D1.finish s.2)) (fun s1 => (s0, s1)) fun x1 s1 => (.ok (x0, x1), (s0, s1))
  requiring s := (ByteCount.finite 0).addForDecoding (D0.requiring s.1) |>.addForDecoding (D1.requiring s.2)
  isIdle s := D0.isIdle s.1 && D1.isIdle s.2

/-- `src/bytes.rs` 411-465: `Utf8Decoder<D>`. `bad b` stands for the `FromUtf8Error`, which is the cause. -/
def tUtf8Decoder (bad : Bytes → κ) (D : TDecoder κ σ Bytes) : TDecoder κ σ String where
  decode s buf e := tracked ⟨"bytes.rs", 449⟩ (D.decode s buf e)
  finish s :=
    TRes.step (tracked ⟨"bytes.rs", 453⟩ (D.finish s)) id fun b s' =>
      match fromUtf8 b with
      | some str => (.ok str, s')
      | none => tracked ⟨"bytes.rs", 454⟩ (.err ⟨.invalidInput, some (.given (bad b)), some []⟩, s')
  requiring s := D.requiring s
  isIdle s := D.isIdle s

/-! ## Encoders -/

/-- `src/combinator.rs` 139-166: `MapErr` as an encoder. -/
def tMapErrEncoder (E : TEncoder κ σ α) (f : TError κ → TError κ) : TEncoder κ σ α where
  encode s cap e := TRes.mapErr f (E.encode s cap e)
  start s x := TRes.mapErr f (E.start s x)
  requiring s := E.requiring s
  isIdle s := E.isIdle s

/-- `src/combinator.rs` 275-297: `MapFrom<E, T, F>`; tracks nothing. -/
def tMapFromEncoder (E : TEncoder κ σ α) (f : β → α) : TEncoder κ σ β where
  encode s cap e := E.encode s cap e
  start s x := E.start s (f x)
  requiring s := E.requiring s
  isIdle s := E.isIdle s

/-- `src/combinator.rs` 342-366: `TryMapFrom<C, T, E, F>`. -/
def tTryMapFromEncoder (E : TEncoder κ σ α) (f : β → Except (TError κ) α) : TEncoder κ σ β where
  encode s cap e := E.encode s cap e
  start s x :=
    match f x with
    | .ok y => E.start s y
    | .error k => tracked (inCombinator 355) (.err k, s)
  requiring s := E.requiring s
  isIdle s := E.isIdle s

/-- Result of the inner `while` loop of `Repeat::encode` (see `Started`). -/
inductive TStarted (κ σ α : Type) where
  | busy (s : σ) (rest : List α)
  | exhausted (s : σ)
  | failed (r : TRes κ Unit) (s : σ) (rest : List α)

/-- `src/combinator.rs` 416-423. -/
def tStartNext (E : TEncoder κ σ α) (s : σ) : List α → TStarted κ σ α
  | [] => if E.isIdle s then .exhausted s else .busy s []
  | x :: xs =>
    if E.isIdle s then
      match tracked (inCombinator 418) (E.start s x) with
      | (.ok (), s') => tStartNext E s' xs
      | (r, s') => .failed r s' xs
    else .busy s (x :: xs)

/-- A failure of a `Result<()>` call returned from a `Result<usize>` function. -/
def TRes.failAs : TRes κ α → TRes κ β
  | .ok _ => .panic
  | .err k => .err k
  | .panic => .panic
  | .capacity => .capacity
  | .diverge => .diverge

/-- `src/combinator.rs` 415-430: the outer loop of `Repeat::encode`. -/
def tRepeatLoop (E : TEncoder κ σ α) (cap : Nat) (e : Eos) (out : Bytes) (s : σ)
    (items : Option (List α)) : TRes κ Bytes × RepeatState σ α :=
  match tStartNext E s (items.getD []) with
  | .exhausted s' => (.ok out, ⟨s', none⟩)
  | .failed r s' rest => (r.failAs, ⟨s', items.map fun _ => rest⟩)
  | .busy s' rest =>
    if cap < out.length then (.panic, ⟨s', items.map fun _ => rest⟩)
    else
      match tracked (inCombinator 425) (E.encode s' (cap - out.length) e) with
      | (.ok bs, s'') =>
        if bs.length = 0 then (.ok out, ⟨s'', items.map fun _ => rest⟩)
        else tRepeatLoop E cap e (out ++ bs) s'' (items.map fun _ => rest)
      | (.err k, s'') => (.err k, ⟨s'', items.map fun _ => rest⟩)
      | (.panic, s'') => (.panic, ⟨s'', items.map fun _ => rest⟩)
      | (.capacity, s'') => (.capacity, ⟨s'', items.map fun _ => rest⟩)
      | (.diverge, s'') => (.diverge, ⟨s'', items.map fun _ => rest⟩)
termination_by cap + 1 - out.length
decreasing_by simp only [List.length_append]; omega

/-- `src/combinator.rs` 406-450: `impl Encode for Repeat<E, I>`. -/
def tRepeatEncoder (E : TEncoder κ σ α) : TEncoder κ (RepeatState σ α) (List α) where
  encode s cap e := tRepeatLoop E cap e [] s.inner s.items
  start s xs :=
    if s.items.isNone then (.ok (), { s with items := some xs })
    else (.err (.raised .encoderFull (inCombinator 434)), s)
  requiring s := if s.items.isNone then .finite 0 else .unknown
  isIdle s := s.items.isNone

/-- `src/combinator.rs` 530-572: `Optional<E>`. -/
def tOptionalEncoder (E : TEncoder κ σ α) : TEncoder κ σ (Option α) where
  encode s cap e := tracked (inCombinator 555) (E.encode s cap e)
  start s item :=
    match item with
    | some x => tracked (inCombinator 560) (E.start s x)
    | none => (.ok (), s)
  requiring s := E.requiring s
  isIdle s := E.isIdle s

/-- `src/combinator.rs` 752-795: `impl Encode for Length<E>`. -/
def tLengthEncoder (E : TEncoder κ σ α) : TEncoder κ (LengthState σ) α where
  encode s cap e :=
    if cap < s.remaining ∧ e.isReached then (.err (.raised .unexpectedEos (inCombinator 757)), s)
    else
      let limit := if cap < s.remaining then cap else s.remaining
      let e' := if cap < s.remaining then e else Eos.new true
      TRes.step (tracked (inCombinator 765) (E.encode s.inner limit e')) (fun i => { s with inner := i }) fun bs i =>
        if s.remaining < bs.length then (.panic, { s with inner := i })
        else
          let s' : LengthState σ := { s with inner := i, remaining := s.remaining - bs.length }
          if E.isIdle i ∧ s'.remaining ≠ 0 then (.err (.raised .invalidInput (inCombinator 768)), s')
          else (.ok bs, s')
  start s item :=
    if s.remaining = s.expected then
      TRes.step (tracked (inCombinator 785) (E.start s.inner item)) (fun i => ⟨i, s.expected, s.expected⟩) fun _ i =>
        (.ok (), ⟨i, s.expected, s.expected⟩)
    else (.err (.raised .encoderFull (inCombinator 779)), s)
  requiring s := .finite s.remaining
  isIdle s := s.remaining == 0

/-- `src/combinator.rs` 1047-1073: `impl Encode for MaxBytes<E>`. -/
def tMaxBytesEncoder (E : TEncoder κ σ α) : TEncoder κ (MaxBytesState σ) α where
  encode s cap e :=
    TRes.step (tracked (inCombinator 1051) (E.encode s.inner cap e)) (fun i => { s with inner := i }) fun bs i =>
      let consumed := s.consumed + bs.length
      if s.max < consumed then
        (.err (.raised .invalidInput (inCombinator 1053)), { s with inner := i, consumed := consumed })
      else if E.isIdle i then (.ok bs, { s with inner := i, consumed := 0 })
      else (.ok bs, { s with inner := i, consumed := consumed })
  start s item :=
    TRes.step (tracked (inCombinator 1063) (E.start s.inner item)) (fun i => { s with inner := i }) fun _ i =>
      (.ok (), { s with inner := i })
  requiring s := E.requiring s.inner
  isIdle s := E.isIdle s.inner

/-- `src/combinator.rs` 1212-1234: `impl Encode for Slice<E>`. -/
def tSliceEncoder (E : TEncoder κ σ α) : TEncoder κ (SliceState σ) α where
  encode s cap e :=
    let limit := min cap s.consumable
    match e.back (cap - limit) with
    | .ok e' =>
      TRes.step (tracked (inCombinator 1218) (E.encode s.inner limit e')) (fun i => { s with inner := i }) fun bs i =>
        if s.consumable < bs.length then (.panic, { s with inner := i })
        else (.ok bs, ⟨i, s.consumable - bs.length⟩)
    | _ => (.panic, s)
  start s item :=
    TRes.step (tracked (inCombinator 1224) (E.start s.inner item)) (fun i => { s with inner := i }) fun _ i =>
      (.ok (), { s with inner := i })
  requiring s := E.requiring s.inner
  isIdle s := E.isIdle s.inner

/-- `src/combinator.rs` 1272-1299: `impl Encode for Last<E>`. -/
def tLastEncoder (E : TEncoder κ σ α) : TEncoder κ (LastState σ α) Empty where
  encode s cap e :=
    let enc (s : LastState σ α) : TRes κ Bytes × LastState σ α :=
      TRes.step (tracked (inCombinator 1281) (E.encode s.inner cap e)) (fun i => { s with inner := i }) fun bs i =>
        (.ok bs, { s with inner := i })
    if E.isIdle s.inner then
      match s.item with
      | some x =>
        TRes.step (tracked (inCombinator 1278) (E.start s.inner x)) (fun i => ⟨i, none⟩) fun _ i => enc ⟨i, none⟩
      | none => enc s
    else enc s
  start _ item := item.elim
  requiring s := if s.item.isSome then .unknown else E.requiring s.inner
  isIdle s := s.item.isNone && E.isIdle s.inner

/-- `src/tuple.rs` 94-133: `impl Encode for TupleEncoder<(E0, E1)>`; the macro is called on line 133. -/
def tPairEncoder {σ0 σ1 α0 α1 : Type} (E0 : TEncoder κ σ0 α0) (E1 : TEncoder κ σ1 α1) :
    TEncoder κ (σ0 × σ1) (α0 × α1) where
  encode s cap e :=
    match tTryEncode ⟨"tuple.rs", 133⟩ E0 s.1 [] cap e with
    | .ret r s0 => (r, (s0, s.2))
    | .next o s0 =>
      match tTryEncode ⟨"tuple.rs", 133⟩ E1 s.2 o cap e with
      | .ret r s1 => (r, (s0, s1))
      | .next o s1 => (.ok o, (s0, s1))
  start s t :=
    TRes.step (tracked ⟨"tuple.rs", 133⟩ (E0.start s.1 t.1)) (fun s0 => (s0, s.2)) fun _ s0 =>
      TRes.step (tracked ⟨"tuple.rs", 133⟩ (E1.start s.2 t.2)) (fun s1 => (s0, s1)) fun _ s1 => (.ok (), (s0, s1))
  requiring s := (ByteCount.finite 0).addForEncoding (E0.requiring s.1) |>.addForEncoding (E1.requiring s.2)
  isIdle s := E0.isIdle s.1 && E1.isIdle s.2

/-- `src/bytes.rs` 42-85: `impl Encode for BytesEncoder<Vec<u8>>`. -/
def tBytesEncoder : TEncoder κ (BytesEncoderState Bytes) Bytes where
  encode s cap e :=
    match s.bytes with
    | some b =>
      if b.length < s.offset then (.panic, s)
      else
        let size := min cap (b.length - s.offset)
        let out := (b.drop s.offset).take size
        let offset := s.offset + size
        if offset = b.length then (.ok out, ⟨none, offset⟩)
        else if e.isReached then (.err (.raised .unexpectedEos ⟨"bytes.rs", 53⟩), ⟨some b, offset⟩)
        else (.ok out, ⟨some b, offset⟩)
    | none => (.ok [], s)
  start s item :=
    if s.bytes.isNone then (.ok (), ⟨some item, 0⟩)
    else (.err (.raised .encoderFull ⟨"bytes.rs", 67⟩), s)
  requiring s := .finite (s.exact id)
  isIdle s := s.bytes.isNone

/-! ## I/O and whole items -/

/-- Answer of `std::io::Read::read`, with the error itself. -/
inductive TReadRes (κ : Type) where
  | data (bs : Bytes)
  | error (e : IoErr) (c : κ)

/-- A `std::io::Read` value. -/
structure TReader (κ ρ : Type) where
  read : ρ → Nat → TReadRes κ × ρ

/-- `src/io.rs` 30-52: `IoDecodeExt::decode_exact`. -/
def tDecodeExact {ρ : Type} (D : TDecoder κ σ α) (R : TReader κ ρ) (s : σ) (r : ρ) : Option (TRes κ α × σ × ρ) :=
  let size :=
    match D.requiring s with
    | .finite n => min n 1024
    | .infinite => 1024
    | .unknown => 1
  match (if size ≠ 0 then R.read r size else (.data [], r)) with
  | (.error k c, r') => some (.err ((TError.ofIo k c).track ⟨"io.rs", 39⟩), s, r')
  | (.data bs, r') =>
    if 1024 < bs.length then some (.panic, s, r')
    else
      match tracked ⟨"io.rs", 45⟩ (D.decode s bs (Eos.new (size ≠ 0 && bs.isEmpty))) with
      | (.ok consumed, s') =>
        if consumed ≠ bs.length then some (.err (.raised .inconsistentState ⟨"io.rs", 46⟩), s', r')
        else if D.isIdle s' then
          some ((tracked ⟨"io.rs", 48⟩ (D.finish s')).1, (tracked ⟨"io.rs", 48⟩ (D.finish s')).2, r')
        else tDecodeExact D R s' r'
      | (.err k, s') => some (.err k, s', r')
      | (.panic, s') => some (.panic, s', r')
      | (.capacity, s') => some (.capacity, s', r')
      | (.diverge, s') => some (.diverge, s', r')
partial_fixpoint

/-- Answer of `std::io::Write::write`, with the error itself. -/
inductive TWriteRes (κ : Type) where
  | wrote (n : Nat)
  | error (e : IoErr) (c : κ)

/-- A `std::io::Write` value. -/
structure TWriter (κ ω : Type) where
  write : ω → Bytes → TWriteRes κ × ω

/-- std's `Write::write_all` with the conversion of its error (`src/io.rs` 99); `zero` stands for the `WriteZero` error that
std makes. -/
def tWriteAll {ω : Type} (zero : κ) (W : TWriter κ ω) (w : ω) (buf : Bytes) : TRes κ Unit × ω :=
  if buf.isEmpty then (.ok (), w)
  else
    match W.write w buf with
    | (.error k c, w') => (.err (.ofIo k c), w')
    | (.wrote n, w') =>
      if n = 0 then (.err (.ofIo .other zero), w')
      else if buf.length < n then (.panic, w')
      else tWriteAll zero W w' (buf.drop n)
termination_by buf.length
decreasing_by
  cases buf with
  | nil => simp_all
  | cons _ _ => simp only [List.length_drop, List.length_cons]; omega

/-- `src/io.rs` 95-105: `IoEncodeExt::encode_all`. -/
def tEncodeAll {ω : Type} (zero : κ) (E : TEncoder κ σ α) (W : TWriter κ ω) (s : σ) (w : ω) :
    Option (TRes κ Unit × σ × ω) :=
  if E.isIdle s then some (.ok (), s, w)
  else
    match tracked ⟨"io.rs", 98⟩ (E.encode s 1024 (Eos.new false)) with
    | (.ok bs, s') =>
      if 1024 < bs.length then some (.panic, s', w)
      else
        match tracked ⟨"io.rs", 99⟩ (tWriteAll zero W w bs) with
        | (.ok (), w') =>
          if !E.isIdle s' && bs.isEmpty then some (.err (.raised .other ⟨"io.rs", 101⟩), s', w')
          else tEncodeAll zero E W s' w'
        | (.err k, w') => some (.err k, s', w')
        | (.panic, w') => some (.panic, s', w')
        | (.capacity, w') => some (.capacity, s', w')
        | (.diverge, w') => some (.diverge, s', w')
    | (.err k, s') => some (.err k, s', w)
    | (.panic, s') => some (.panic, s', w)
    | (.capacity, s') => some (.capacity, s', w)
    | (.diverge, s') => some (.diverge, s', w)
partial_fixpoint

/-- `impl Write for Vec<u8>`: appends everything. -/
def tVecWriter : TWriter κ Bytes where
  write w buf := (.wrote buf.length, w ++ buf)

/-- `src/encode.rs` 428-447: `EncodeExt::encode_into_bytes`. -/
def tEncodeIntoBytes (zero : κ) (E : TEncoder κ σ α) (s : σ) (item : α) : TRes κ Bytes × σ :=
  TRes.step (tracked ⟨"encode.rs", 429⟩ (E.start s item)) id fun _ s' =>
    match E.requiring s' with
    | .finite size =>
      if 2 ^ 63 ≤ size then (.capacity, s')
      else
        TRes.step (tracked ⟨"encode.rs", 436⟩ (E.encode s' size (Eos.new true))) id fun bs s'' =>
          if E.isIdle s'' then (.ok ((bs ++ List.replicate (size - bs.length) 0).take size), s'')
          else (.err (.raised .inconsistentState ⟨"encode.rs", 437⟩), s'')
    | .unknown =>
      match tEncodeAll zero E tVecWriter s' [] with
      | none => (.diverge, s')
      | some (r, s'', out) => TRes.step (tracked ⟨"encode.rs", 442⟩ (r, s'')) id fun _ t => (.ok out, t)
    | .infinite => (.err (.bare .invalidInput ⟨"encode.rs", 445⟩), s')

/-- `src/combinator.rs` 1111-1136: `impl Encode for PreEncode<E>`. -/
def tPreEncodeEncoder (zero : κ) (E : TEncoder κ σ α) : TEncoder κ (PreEncodeState σ) α where
  encode s cap e :=
    TRes.step (tracked (inCombinator 1115) (tBytesEncoder.encode s.preEncoded cap e)) (fun p => { s with preEncoded := p })
      fun bs p => (.ok bs, { s with preEncoded := p })
  start s item :=
    TRes.step (tracked (inCombinator 1119) (tEncodeIntoBytes zero E s.inner item)) (fun i => { s with inner := i })
      fun buf i =>
        TRes.step (tracked (inCombinator 1120) (tBytesEncoder.start s.preEncoded buf)) (fun p => ⟨i, p⟩) fun _ p =>
          (.ok (), ⟨i, p⟩)
  requiring s := (tBytesEncoder (κ := κ)).requiring s.preEncoded
  isIdle s := (tBytesEncoder (κ := κ)).isIdle s.preEncoded

/-- `src/decode.rs` 447-451: `DecodeExt::decode_from_bytes`. -/
def tDecodeFromBytes (D : TDecoder κ σ α) (s : σ) (buf : Bytes) : TRes κ α × σ :=
  TRes.step (tracked ⟨"decode.rs", 448⟩ (D.decode s buf (Eos.new true))) id fun size s' =>
    if size = buf.length then tracked ⟨"decode.rs", 450⟩ (D.finish s')
    else (.err (.raised .invalidInput ⟨"decode.rs", 449⟩), s')

end Bytecodec
