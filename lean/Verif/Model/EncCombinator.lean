import Verif.Model.Io
import Verif.Model.DecCombinator
/-!
# Encoder combinators

Models the `Encode`/`SizedEncode` half of `src/combinator.rs`.
-/
namespace Bytecodec

variable {σ α β : Type}

/-! ## `MapErr`, `MapFrom`, `TryMapFrom` -/

/-- `src/combinator.rs` 139-166: `MapErr` as an encoder. -/
def mapErrEncoder (E : Encoder σ α) (f : ErrorKind → ErrorKind) : Encoder σ α where
  encode s cap e := ((E.encode s cap e).1.mapErr f, (E.encode s cap e).2)
  start s x := ((E.start s x).1.mapErr f, (E.start s x).2)
  requiring s := E.requiring s
  isIdle s := E.isIdle s

/-- `src/combinator.rs` 167-176. -/
def sizedMapErrEncoder (E : SizedEncoder σ α) (f : ErrorKind → ErrorKind) : SizedEncoder σ α where
  toEncoder := mapErrEncoder E.toEncoder f
  exact s := E.exact s

/-- `src/combinator.rs` 275-297: `MapFrom<E, T, F>`. -/
def mapFromEncoder (E : Encoder σ α) (f : β → α) : Encoder σ β where
  encode s cap e := E.encode s cap e
  start s x := E.start s (f x)
  requiring s := E.requiring s
  isIdle s := E.isIdle s

/-- `src/combinator.rs` 298-306. -/
def sizedMapFromEncoder (E : SizedEncoder σ α) (f : β → α) : SizedEncoder σ β where
  toEncoder := mapFromEncoder E.toEncoder f
  exact s := E.exact s

/-- `src/combinator.rs` 342-366: `TryMapFrom<C, T, E, F>`. -/
def tryMapFromEncoder (E : Encoder σ α) (f : β → Except ErrorKind α) : Encoder σ β where
  encode s cap e := E.encode s cap e
  start s x :=
    match f x with
    | .ok y => E.start s y
    | .error k => (.err k, s)
  requiring s := E.requiring s
  isIdle s := E.isIdle s

/-- `src/combinator.rs` 367-376. -/
def sizedTryMapFromEncoder (E : SizedEncoder σ α) (f : β → Except ErrorKind α) :
    SizedEncoder σ β where
  toEncoder := tryMapFromEncoder E.toEncoder f
  exact s := E.exact s

/-! ## `Repeat` -/

/-- `src/combinator.rs` 382-385: `struct Repeat<E, I>`; the iterator `I` is a finite list. -/
structure RepeatState (σ α : Type) where
  inner : σ
  items : Option (List α)

/-- `src/combinator.rs` 402-404: `new`. -/
def RepeatState.new (inner : σ) : RepeatState σ α := ⟨inner, none⟩

/-- Result of the inner `while` loop of `Repeat::encode`. -/
inductive Started (σ α : Type) where
  /-- the inner encoder is busy; the iterator holds `rest` -/
  | busy (s : σ) (rest : List α)
  /-- the iterator is exhausted -/
  | exhausted (s : σ)
  /-- `start_encoding` failed -/
  | failed (r : Res Unit) (s : σ) (rest : List α)

/-- `src/combinator.rs` 416-423: feed items to the inner encoder while it is idle. -/
def startNext (E : Encoder σ α) (s : σ) : List α → Started σ α
  | [] => if E.isIdle s then .exhausted s else .busy s []
  | x :: xs =>
    if E.isIdle s then
      match E.start s x with
      | (.ok (), s') => startNext E s' xs
      | (r, s') => .failed r s' xs
    else .busy s (x :: xs)

/-- A failure of a `Result<()>` call returned from a `Result<usize>` function. -/
def Res.failAs {α β : Type} : Res α → Res β
  | .ok _ => .panic
  | .err k => .err k
  | .panic => .panic
  | .capacity => .capacity
  | .diverge => .diverge

/-- `src/combinator.rs` 415-430: the outer loop of `Repeat::encode`; every further round has at
least one more byte in the buffer, and slicing panics when the buffer is overrun. -/
def repeatLoop (E : Encoder σ α) (cap : Nat) (e : Eos) (out : Bytes) (s : σ)
    (items : Option (List α)) : Res Bytes × RepeatState σ α :=
  match startNext E s (items.getD []) with
  | .exhausted s' => (.ok out, ⟨s', none⟩)
  | .failed r s' rest => (r.failAs, ⟨s', items.map fun _ => rest⟩)
  | .busy s' rest =>
    if cap < out.length then (.panic, ⟨s', items.map fun _ => rest⟩)
    else
      match E.encode s' (cap - out.length) e with
      | (.ok bs, s'') =>
        if bs.length = 0 then (.ok out, ⟨s'', items.map fun _ => rest⟩)
        else repeatLoop E cap e (out ++ bs) s'' (items.map fun _ => rest)
      | (.err k, s'') => (.err k, ⟨s'', items.map fun _ => rest⟩)
      | (.panic, s'') => (.panic, ⟨s'', items.map fun _ => rest⟩)
      | (.capacity, s'') => (.capacity, ⟨s'', items.map fun _ => rest⟩)
      | (.diverge, s'') => (.diverge, ⟨s'', items.map fun _ => rest⟩)
termination_by cap + 1 - out.length
decreasing_by simp only [List.length_append]; omega

/-- `src/combinator.rs` 406-450: `impl Encode for Repeat<E, I>`.
`encode` 413-431, `start` 433-437, `requiring` 439-445, `isIdle` 447-449. -/
def repeatEncoder (E : Encoder σ α) : Encoder (RepeatState σ α) (List α) where
  encode s cap e := repeatLoop E cap e [] s.inner s.items
  start s xs := if s.items.isNone then (.ok (), { s with items := some xs }) else (.err .encoderFull, s)
  requiring s := if s.items.isNone then .finite 0 else .unknown
  isIdle s := s.items.isNone

/-! ## `Optional` -/

/-- `src/combinator.rs` 530-572: `Optional<E>`. -/
def optionalEncoder (E : Encoder σ α) : Encoder σ (Option α) where
  encode s cap e := E.encode s cap e
  start s item :=
    match item with
    | some x => E.start s x
    | none => (.ok (), s)
  requiring s := E.requiring s
  isIdle s := E.isIdle s

/-- `src/combinator.rs` 573-577. -/
def sizedOptionalEncoder (E : SizedEncoder σ α) : SizedEncoder σ (Option α) where
  toEncoder := optionalEncoder E.toEncoder
  exact s := E.exact s

/-! ## `Length` -/

/-- `src/combinator.rs` 752-800: `impl Encode/SizedEncode for Length<E>`.
`encode` 755-776 (the subtraction on line 766 panics on underflow), `start` 778-786,
`requiring` 788-790, `isIdle` 792-794, `exact` 796-800. -/
def lengthEncoder (E : Encoder σ α) : SizedEncoder (LengthState σ) α where
  encode s cap e :=
    if cap < s.remaining ∧ e.isReached then (.err .unexpectedEos, s)
    else
      let limit := if cap < s.remaining then cap else s.remaining
      let e' := if cap < s.remaining then e else Eos.new true
      Res.step (E.encode s.inner limit e') (fun i => { s with inner := i }) fun bs i =>
        if s.remaining < bs.length then (.panic, { s with inner := i })
        else
          let s' : LengthState σ := { s with inner := i, remaining := s.remaining - bs.length }
          if E.isIdle i ∧ s'.remaining ≠ 0 then (.err .invalidInput, s')
          else (.ok bs, s')
  start s item :=
    if s.remaining = s.expected then
      Res.step (E.start s.inner item) (fun i => ⟨i, s.expected, s.expected⟩) fun _ i =>
        (.ok (), ⟨i, s.expected, s.expected⟩)
    else (.err .encoderFull, s)
  requiring s := .finite s.remaining
  isIdle s := s.remaining == 0
  exact s := s.remaining

/-! ## `MaxBytes` -/

/-- `src/combinator.rs` 1047-1073: `impl Encode for MaxBytes<E>`. `encode` 1050-1060.
Simplification: the `u64` counter does not overflow (`maxBytesEncoderChecked`, C61). -/
def maxBytesEncoder (E : Encoder σ α) : Encoder (MaxBytesState σ) α where
  encode s cap e :=
    Res.step (E.encode s.inner cap e) (fun i => { s with inner := i }) fun bs i =>
      let consumed := s.consumed + bs.length
      if s.max < consumed then (.err .invalidInput, { s with inner := i, consumed := consumed })
      else if E.isIdle i then (.ok bs, { s with inner := i, consumed := 0 })
      else (.ok bs, { s with inner := i, consumed := consumed })
  start s item :=
    Res.step (E.start s.inner item) (fun i => { s with inner := i }) fun _ i =>
      (.ok (), { s with inner := i })
  requiring s := E.requiring s.inner
  isIdle s := E.isIdle s.inner

/-- `src/combinator.rs` 1074-1078. -/
def sizedMaxBytesEncoder (E : SizedEncoder σ α) : SizedEncoder (MaxBytesState σ) α where
  toEncoder := maxBytesEncoder E.toEncoder
  exact s := E.exact s.inner

/-! ## `PreEncode` -/

/-- `src/combinator.rs` 1084-1087: `struct PreEncode<E>`. -/
structure PreEncodeState (σ : Type) where
  inner : σ
  preEncoded : BytesEncoderState Bytes

/-- `src/combinator.rs` 1104-1109: `new`. -/
def PreEncodeState.new (inner : σ) : PreEncodeState σ := ⟨inner, .new⟩

/-- `src/combinator.rs` 1111-1136: `impl Encode/SizedEncode for PreEncode<E>`. `start` 1118-1122. -/
def preEncodeEncoder (E : Encoder σ α) : SizedEncoder (PreEncodeState σ) α where
  encode s cap e :=
    Res.step ((bytesEncoder id).encode s.preEncoded cap e) (fun p => { s with preEncoded := p })
      fun bs p => (.ok bs, { s with preEncoded := p })
  start s item :=
    Res.step (encodeIntoBytes E s.inner item) (fun i => { s with inner := i }) fun buf i =>
      Res.step ((bytesEncoder id).start s.preEncoded buf) (fun p => ⟨i, p⟩) fun _ p => (.ok (), ⟨i, p⟩)
  requiring s := (bytesEncoder id).requiring s.preEncoded
  isIdle s := (bytesEncoder id).isIdle s.preEncoded
  exact s := (bytesEncoder id).exact s.preEncoded

/-! ## `Slice` -/

/-- `src/combinator.rs` 1212-1234: `impl Encode for Slice<E>`. `encode` 1215-1221. -/
def sliceEncoder (E : Encoder σ α) : Encoder (SliceState σ) α where
  encode s cap e :=
    let limit := min cap s.consumable
    match e.back (cap - limit) with
    | .ok e' =>
      Res.step (E.encode s.inner limit e') (fun i => { s with inner := i }) fun bs i =>
        if s.consumable < bs.length then (.panic, { s with inner := i })
        else (.ok bs, ⟨i, s.consumable - bs.length⟩)
    | _ => (.panic, s)
  start s item :=
    Res.step (E.start s.inner item) (fun i => { s with inner := i }) fun _ i =>
      (.ok (), { s with inner := i })
  requiring s := E.requiring s.inner
  isIdle s := E.isIdle s.inner

/-- `src/combinator.rs` 1235-1239. -/
def sizedSliceEncoder (E : SizedEncoder σ α) : SizedEncoder (SliceState σ) α where
  toEncoder := sliceEncoder E.toEncoder
  exact s := E.exact s.inner

/-! ## `Last` -/

/-- `src/combinator.rs` 1245-1248: `struct Last<E>`. -/
structure LastState (σ α : Type) where
  inner : σ
  item : Option α

/-- `src/combinator.rs` 1265-1270: `new`. -/
def LastState.new (inner : σ) (item : α) : LastState σ α := ⟨inner, some item⟩

/-- `src/combinator.rs` 1272-1299: `impl Encode for Last<E>`; the item type `Never`
(`src/marker.rs`) has no values, so `start_encoding` cannot be called. -/
def lastEncoder (E : Encoder σ α) : Encoder (LastState σ α) Empty where
  encode s cap e :=
    let enc (s : LastState σ α) : Res Bytes × LastState σ α :=
      Res.step (E.encode s.inner cap e) (fun i => { s with inner := i }) fun bs i =>
        (.ok bs, { s with inner := i })
    if E.isIdle s.inner then
      match s.item with
      | some x =>
        Res.step (E.start s.inner x) (fun i => ⟨i, none⟩) fun _ i => enc ⟨i, none⟩
      | none => enc s
    else enc s
  start _ item := item.elim
  requiring s := if s.item.isSome then .unknown else E.requiring s.inner
  isIdle s := s.item.isNone && E.isIdle s.inner

/-- `src/combinator.rs` 1300-1304: `impl SizedEncode for Last<E>`. -/
def sizedLastEncoder (E : SizedEncoder σ α) : SizedEncoder (LastState σ α) Empty where
  toEncoder := lastEncoder E.toEncoder
  exact s := E.exact s.inner

end Bytecodec
