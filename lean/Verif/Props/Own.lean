import Verif.Lemmas.EosLast
import Verif.Lemmas.Own
import Verif.Lemmas.Greedy
import Verif.Lemmas.Kinds
import Verif.Lemmas.Full
import Verif.Lemmas.Productive
import Verif.Lemmas.ReuseMany
import Verif.Lemmas.ReuseEnc
import Verif.Lemmas.SafeEnc
import Verif.Props.Chunking
import Verif.Props.Exact
/-!
# C72: codecs of the user's own inside those of the library

The traits of the crate are meant to be implemented by its users. Each theorem says: if the user's
codecs keep a promise, then everything assembled from them and the library keeps it, too. `own` says
which codecs of the user's own, in which states, are used as parts.
-/
namespace Bytecodec.Props

open Spec

variable {σ α : Type}

/-! ## Decoders -/

/-- C72: no call panics, runs forever or reports more bytes than it was given. -/
theorem C72_safe {own : OwnDecoder} (hown : ∀ σ α (D : Decoder σ α) s, own σ α D s → SafeFrom D s)
    {D : Decoder σ α} {s : σ} (h : AssembledWith own (fun _ => True) D s) : SafeFrom D s :=
  parts_safe hown h

/-- C72: an idle decoder is left alone by `decode` (as in C06, not for monolithic decoders). -/
theorem C72_idle {own : OwnDecoder} (hown : ∀ σ α (D : Decoder σ α) s, own σ α D s → IdleStable D s)
    {D : Decoder σ α} {s : σ} (h : AssembledWith own (fun sh => sh ≠ .monolithic) D s) : IdleStable D s :=
  parts_idle (by simp) hown h

/-- C72: at the end of the stream `decode` completes the item or fails (as in C09). -/
theorem C72_eos {own : OwnDecoder} (hown : ∀ σ α (D : Decoder σ α) s, own σ α D s → EosStrict D s)
    {D : Decoder σ α} {s : σ}
    (h : AssembledWith own (fun sh => sh ≠ .length ∧ sh ≠ .slice ∧ sh ≠ .maybeEos) D s) : EosStrict D s :=
  parts_eos (by simp) (by simp) (by simp) hown h

/-- C72: at the latest, a `decode` call at the end of the stream for which no bytes are left completes the item
or fails (as in C09). -/
theorem C72_at_last {own : OwnDecoder} (hown : ∀ σ α (D : Decoder σ α) s, own σ α D s → EosStrictAtLast D s)
    {D : Decoder σ α} {s : σ} (h : AssembledWith own (fun sh => sh ≠ .slice ∧ sh ≠ .maybeEos) D s) :
    EosStrictAtLast D s :=
  parts_last (by simp) (by simp) hown h

/-- C72: an item can only be taken from an idle decoder. -/
theorem C72_guarded {own : OwnDecoder}
    (hown : ∀ σ α (D : Decoder σ α) s, own σ α D s → SafeFrom D s ∧ FinishGuarded D s)
    {D : Decoder σ α} {s : σ} (h : AssembledWith own (fun _ => True) D s) : FinishGuarded D s :=
  parts_guard hown h

/-- C72: `requiring_bytes` never asks for more than the item takes (as in C52, without `collect`). -/
theorem C72_lower_bound {own : OwnDecoder}
    (hown : ∀ σ α (D : Decoder σ α) s, own σ α D s → ∀ t, Reach D s t → LowerBound D t)
    {D : Decoder σ α} {s₀ : σ} (h : AssembledWith own (fun sh => sh ≠ .collect) D s₀) :
    ∀ s, Reach D s₀ s → LowerBound D s :=
  lower_parts hown h

/-- C72: an idle decoder asks for nothing (as in C52, without `length`). -/
theorem C72_quiet {own : OwnDecoder}
    (hown : ∀ σ α (D : Decoder σ α) s, own σ α D s →
      ∀ t, Reach D s t → D.isIdle t = true → D.requiring t = .finite 0)
    {D : Decoder σ α} {s₀ : σ} (h : AssembledWith own (fun sh => sh ≠ .length) D s₀) :
    ∀ s, Reach D s₀ s → D.isIdle s = true → D.requiring s = .finite 0 :=
  quiet_parts hown h

/-- C72: no bytes are left over while the item is incomplete (as in C64). -/
theorem C72_greedy {own : OwnDecoder}
    (hown : ∀ σ α (D : Decoder σ α) s, own σ α D s → SafeFrom D s ∧ Greedy D s ∧ EosStrict D s)
    {D : Decoder σ α} {s : σ} (h : FramedWith own D s) : Greedy D s :=
  (framedParts_greedy hown h).2

/-- C72: decoders are as new after each item (as in C55). -/
theorem C72_reuse {own : OwnDecoder} (hown : ∀ σ α (D : Decoder σ α) s, own σ α D s → AsNew D s)
    {D : Decoder σ α} {s₀ : σ} (h : ReusableWith own D s₀) : AsNew D s₀ :=
  fun _ _ _ hs hf => (parts_renews hown h).same hs hf

/-- C72: errors are of the kinds of C57, if those of the own parts are. -/
theorem C72_kinds {own : (σ α : Type) → Decoder σ α → Prop} {len : Bool} {K : ErrorKind → Prop}
    (hown : ∀ σ α (D : Decoder σ α), own σ α D →
      (∀ s b e k s', D.decode s b e = (.err k, s') → DecodeKind len K e k) ∧
      (∀ s k s', D.finish s = (.err k, s') → FinishKind len K (D.isIdle s) k))
    {D : Decoder σ α} (h : RaisingWith own len K D) :
    (∀ s b e k s', D.decode s b e = (.err k, s') → DecodeKind len K e k) ∧
    (∀ s k s', D.finish s = (.err k, s') → FinishKind len K (D.isIdle s) k) :=
  let k := parts_kinded (fun σ α D h => ⟨(hown σ α D h).1, (hown σ α D h).2⟩) h
  ⟨k.decode, k.finish⟩

/-! ## Decoders that read byte by byte -/

/-- C72: a decoder that reads one byte after the other keeps the promises above. (That chunking does not
matter, C07 and C08, holds for everything assembled with such decoders: `Streamable.own`; that
`decode_exact` reads no byte too many, C42: `Exactable.own`.) -/
theorem C72_bytewise {p : Bool} {D : Decoder σ α} {I : σ → Prop} (h : Bytewise p D I) {s : σ} (hI : I s) :
    SafeFrom D s ∧ IdleStable D s ∧ EosStrict D s ∧ FinishGuarded D s ∧ Greedy D s :=
  ⟨h.safe hI, h.idleStable hI, h.eosStrict hI, h.finishGuarded hI, h.greedy hI⟩

/-- C72: and if in addition it asks for the bytes it needs then this is a lower bound. -/
theorem C72_asks {w : Bool} {D : Decoder σ α} {I : σ → Prop} (h : Bytewise true D I) (ha : Asks w D I)
    {s : σ} (hI : I s) : ∀ t, Reach D s t →
      LowerBound D t ∧ (D.isIdle t = true → D.requiring t = .finite 0) :=
  fun _ ht => ⟨asks_lower h ha (h.reach hI ht), ha.done (h.reach hI ht)⟩

/-- C72: every state machine reads byte by byte, whatever its states, transitions and results are, and is as
new after each item. If it always asks for one more byte and is not complete from the start then
this is a valid demand. -/
theorem C72_machine {init : σ} {step : σ → UInt8 → Except ErrorKind σ} {done : σ → Bool}
    {value : σ → Except ErrorKind α} {need : σ → ByteCount} :
    Bytewise true (machine init step done value need) (fun _ => True) ∧
    AsNew (machine init step done value need) init ∧
    (done init = false → Asks true (machine init step done value fun _ => .finite 1) (fun _ => True)) := by
  refine ⟨bytewise_machine, ?_, machine_asks⟩
  intro s x s' _ hf
  simp only [machine] at hf
  split at hf
  · split at hf
    · cases hf; exact same_refl _ _
    · cases hf
  · cases hf

/-- C72, an example: a line ends with its line feed, and nothing behind it is touched, however the
stream is cut. -/
theorem C72_line {b rest : Bytes} (h : (10 : UInt8) ∉ b) {e : Eos} {chunks : List (Bytes × Eos)}
    (hc : Schedule chunks (b ++ 10 :: rest) e) :
    feed lineDecoder ([], false) chunks = some (b.length + 1, b, ([], false)) := by
  refine C07_chunking_partial (.own (p := true) true bytewise_machine trivial) (feed_one.2 ⟨(b, true), ?_⟩) hc
  have hd : lineDecoder.decode ([], false) (b ++ 10 :: rest) e = (.ok (b.length + 1), (b, true)) := by
    have := line_go (e := e) b [] 0 rest h
    simpa [lineDecoder, machine] using this
  refine ⟨?_, rfl⟩
  show tryDecode lineDecoder ([], false) 0 (b ++ 10 :: rest) e = _
  rw [tryDecode_busy rfl, hd]
  rfl

example : Schedule [([104], Eos.new false), ([105, 10, 7], Eos.new true)] ([104, 105] ++ 10 :: [7]) (Eos.new true) :=
  .cons [104] _ (.inl rfl) (.last _ _)

example : feed lineDecoder ([], false) [([104], Eos.new false), ([105, 10, 7], Eos.new true)] =
    some (3, [104, 105], ([], false)) := by decide +kernel

/-- A decoder with parts of the user's own: a header line, then three items, each of a variable-length
number of bytes behind a variable-length number. -/
private def ownDecoder := tupleDecoder2 lineDecoder (collectNDecoder
  (andThenDecoder varintDecoder (lengthDecoder remainingBytesDecoder)
    (fun n => LengthState.new RemainingState.new (n % 2 ^ 64))))

private def ownStart : (Bytes × Bool) × CollectNState ((Nat × Nat × Bool) × Option (LengthState RemainingState)) Bytes :=
  (([], false), .new ((0, 0, false), none) 3)

/-- The parts. -/
private inductive OwnParts : OwnDecoder
  | line : OwnParts _ _ lineDecoder ([], false)
  | number : OwnParts _ _ varintDecoder (0, 0, false)

private theorem ownParts_bytewise : ∀ σ α (D : Decoder σ α) s, OwnParts σ α D s →
    Bytewise true D (fun _ => True) ∧ AsNew D s := by
  intro σ α D s h
  cases h
  · exact ⟨bytewise_machine, C72_machine.2.1⟩
  · exact ⟨bytewise_machine, C72_machine.2.1⟩

/-- It keeps the promises of the decoders of the library. -/
example : SafeFrom ownDecoder ownStart ∧ IdleStable ownDecoder ownStart ∧ FinishGuarded ownDecoder ownStart := by
  have h : ∀ {ok : Shape → Prop}, ok .pair → ok .collectN → ok .andThen → ok .length → ok .remaining →
      AssembledWith OwnParts ok ownDecoder ownStart := fun h1 h2 h3 h4 h5 =>
    .pair h1 (.own .line) (.collectN 3 h2 (.andThen _ h3 (.own .number) fun n =>
      .length _ h4 (Nat.mod_lt _ (by decide)) (.remaining h5)))
  have hb := fun σ α (D : Decoder σ α) s h => C72_bytewise (ownParts_bytewise σ α D s h).1 (s := s) trivial
  exact ⟨C72_safe (fun _ _ _ _ h => (hb _ _ _ _ h).1) (h trivial trivial trivial trivial trivial),
    C72_idle (fun _ _ _ _ h => (hb _ _ _ _ h).2.1) (h (by decide) (by decide) (by decide) (by decide) (by decide)),
    C72_guarded (fun _ _ _ _ h => ⟨(hb _ _ _ _ h).1, (hb _ _ _ _ h).2.2.2.1⟩)
      (h trivial trivial trivial trivial trivial)⟩

/-- No bytes are left over. -/
example : Greedy ownDecoder ownStart :=
  C72_greedy (own := OwnParts)
    (fun _ _ _ _ h => let hb := C72_bytewise (ownParts_bytewise _ _ _ _ h).1 trivial
      ⟨hb.1, hb.2.2.2.2, hb.2.2.1⟩)
    (.pair (.plain (.own .line)) (.collectN 3 (.andThen _ (.plain (.own .number)) fun n =>
      .frame _ (Nat.mod_lt _ (by decide)) (.remaining (by decide)))))

/-- Its parts can be used again and again. -/
example : AsNew (tupleDecoder2 lineDecoder (andThenDecoder varintDecoder (lengthDecoder remainingBytesDecoder)
      (fun n => LengthState.new RemainingState.new (n % 2 ^ 64)))) (([], false), ((0, 0, false), none)) :=
  C72_reuse (own := OwnParts) (fun _ _ _ _ h => (ownParts_bytewise _ _ _ _ h).2)
    (.pair (.own .line) (.andThen _ _ (.own .number)))

/-- It does not matter how the stream is cut. -/
example : Streamable (fun _ => True) true false ownDecoder ownStart :=
  .pair (.own _ bytewise_machine trivial) (.collectN (q := false) _ 3 (.andThen _ (.own _ bytewise_machine trivial) fun n =>
      .length true _ (Nat.mod_lt _ (by decide)) (.remaining true)))

example : (feed ownDecoder ownStart [([104, 105], Eos.new false), ([10, 1, 7, 0], Eos.new false),
    ([130], Eos.new false), ([0, 8, 9, 77], Eos.new true)]).map (fun r => (r.1, r.2.1)) =
    some (10, ([104, 105], [[7], [], [8, 9]])) := by decide +kernel

/-- `decode_exact` reads a frame behind a variable-length number to its last byte and no further. -/
example : Exactable true true (andThenDecoder varintDecoder (lengthDecoder remainingBytesDecoder)
      (fun n => LengthState.new RemainingState.new n)) ((0, 0, false), none) :=
  .andThen _ (.own true true (I := fun _ => True) bytewise_machine (machine_asks rfl) trivial fun _ => rfl) fun x =>
    .length false _ x (by simp) (.remaining true)

/-- And `requiring_bytes` is right. -/
example : ∀ s, Reach varintDecoder (0, 0, false) s → LowerBound varintDecoder s :=
  fun s hs => (C72_asks (w := true) (I := fun _ => True) bytewise_machine (machine_asks rfl) trivial s hs).1

/-- The kinds of the errors. -/
example : RaisingWith (fun _ _ _ => True) false (fun k => k = .other) (maxBytesDecoder varintDecoder) :=
  .maxBytes (.own trivial)

/-! ## Encoders -/

/-- C72: items are written completely, in order and under any buffer schedule (as in C54). -/
theorem C72_emits {own : OwnEncoding}
    (hown : ∀ strict σ α (E : Encoder σ α) s dom enc, own strict σ α E s dom enc → Emits strict E s dom enc)
    {strict : Bool} {E : Encoder σ α} {s₀ : σ} {dom enc} (h : WritesWith own strict E s₀ dom enc) :
    Emits strict E s₀ dom enc := by
  obtain ⟨P, hf⟩ := parts_writes hown h
  exact fresh_emits hf

/-- C72: and the sizes are exact (as in C54). -/
theorem C72_emitsSized {own : OwnEncoding} {ownSized : OwnSizedEncoding}
    (hown : ∀ strict σ α (E : Encoder σ α) s dom enc, own strict σ α E s dom enc → Emits strict E s dom enc)
    (hsized : ∀ strict σ α (E : SizedEncoder σ α) s dom enc, ownSized strict σ α E s dom enc →
      EmitsSized strict E s dom enc)
    {strict : Bool} {E : SizedEncoder σ α} {s₀ : σ} {dom enc}
    (h : SizedWritesWith own ownSized strict E s₀ dom enc) : EmitsSized strict E s₀ dom enc := by
  obtain ⟨P, hf, hx⟩ := parts_sizedWrites hown hsized h
  exact fresh_emitsSized hf hx

/-- C72: no call panics or writes more than the buffer has room for, and, without `pre_encode`, every call
returns. -/
theorem C72_encoder_safe {own : OwnEncoder} {pre : Bool}
    (hown : ∀ σ α (E : Encoder σ α) s, own σ α E s → SafeEncFrom (!pre) E s)
    {E : Encoder σ α} {s : σ} (h : AssembledEncWith own pre E s) : SafeEncFrom (!pre) E s := by
  obtain ⟨I, h1, h2⟩ := parts_encSafe hown h
  exact encSafe_from h1 h2

/-- C72: encoders are as new whenever all is written (as in C56). -/
theorem C72_encoder_reuse {own : OwnEncoder} (hown : ∀ σ α (E : Encoder σ α) s, own σ α E s → AsNewEnc E s)
    {E : Encoder σ α} {s₀ : σ} (h : ReusableEncWith own E s₀) : AsNewEnc E s₀ := by
  obtain ⟨R, hR⟩ := parts_renewsE hown h
  refine ⟨hR.idle0, fun s hs hi => ?_, hR.busy⟩
  have hr := hR.fresh s hs hi
  exact ⟨hR.bisim.idle hr, hR.bisim.req hr, fun calls => hR.bisim.observe calls hr⟩

/-- C72: `EncoderFull` means that the encoder is busy (as in C58). -/
theorem C72_full {own : OwnEncoder} {errs : Bool}
    (hown : ∀ σ α (E : Encoder σ α) s, own σ α E s → FullMeansBusy errs E s)
    {E : Encoder σ α} {s₀ : σ} (h : AcceptingWith own errs E s₀) : FullMeansBusy errs E s₀ := by
  obtain ⟨I, hI, h0⟩ := parts_neverFull hown h
  intro s hs
  have := hI.used h0 hs
  exact ⟨fun hi x => (hI.start x this).1 hi, fun cap e => (hI.encode cap e this).1 rfl⟩

/-- C72: an encoder of the user's own that meets the contract. -/
theorem C72_queue (enc : α → Except ErrorKind Bytes) :
    EmitsSized true (queueEncoder enc) [] (fun _ => True) enc :=
  fresh_emitsSized ⟨codes_queue enc, rfl, rfl⟩ (exact_queue enc)

/-- Variable-length numbers: seven bits in each byte, of at most ten bytes. -/
private def varint : Nat → Nat → Except ErrorKind Bytes
  | 0, _ => .error .invalidInput
  | fuel + 1, n => if n < 128 then .ok [n.toUInt8]
      else (varint fuel (n / 128)).map fun b => (n % 128 + 128).toUInt8 :: b

private theorem varint_kind : ∀ fuel n, varint fuel n ≠ .error .encoderFull := by
  intro fuel
  induction fuel with
  | zero => intro n h; cases h
  | succ fuel ih =>
    intro n h
    simp only [varint] at h
    split at h
    · cases h
    · cases hv : varint fuel (n / 128) with
      | ok b => rw [hv] at h; cases h
      | error k => rw [hv] at h; cases h; exact ih _ hv

private inductive OwnNumber : OwnEncoding
  | varint (strict : Bool) : OwnNumber strict _ _ (queueEncoder (varint 10)).toEncoder [] (fun _ => True) (varint 10)

/-- A string behind a variable-length number, of at most a thousand bytes. -/
example : ∃ dom enc, Emits true (maxBytesEncoder (mapFromEncoder (tupleEncoder2 (queueEncoder (varint 10)).toEncoder
      utf8Encoder.toEncoder) (fun x : String => ((utf8Bytes x).length, x)))) (.new ([], .new) 1000) dom enc ∧
      enc "hi" = .ok [2, 104, 105] ∧ dom "hi" :=
  ⟨_, _, C72_emits (own := OwnNumber)
    (fun strict _ _ _ _ _ _ h => by
      cases h
      refine fresh_emits ⟨(codes_queue (varint 10)).weaken (fun _ h => ⟨h, rfl⟩) fun _ => rfl, rfl, rfl⟩)
    (.maxBytes 1000 (.mapFrom _ (.pair (.own (.varint true)) (.utf8 true)))), rfl, by decide +kernel⟩

private inductive OwnQueue : OwnEncoder
  | queue {α : Type} (enc : α → Except ErrorKind Bytes) : (∀ x, enc x ≠ .error .encoderFull) →
      OwnQueue _ _ (queueEncoder enc).toEncoder []

private theorem queue_asNew (enc : α → Except ErrorKind Bytes) : AsNewEnc (queueEncoder enc).toEncoder [] where
  idle := rfl
  asNew := by
    intro s _ hi
    have : s = [] := by simpa [queueEncoder] using hi
    subst this
    exact ⟨rfl, rfl, fun _ => rfl⟩
  busy := by
    intro s x s' _ hi hs
    have hi : s.isEmpty = false := hi
    simp only [queueEncoder, hi, Bool.false_eq_true, if_false] at hs
    cases hs

/-- It can be repeated, and the result can be used again and again. -/
example : AsNewEnc (repeatEncoder (tupleEncoder2 (queueEncoder (varint 10)).toEncoder u16beEncoder.toEncoder))
    (.new ([], .new)) :=
  C72_encoder_reuse (own := fun _ _ E s => AsNewEnc E s) (fun _ _ _ _ h => h)
    (.repeat (.pair (.own (queue_asNew _)) (.number _)))

/-- No panic and no overrun. -/
example : SafeEncFrom true (lengthEncoder (queueEncoder (varint 10)).toEncoder).toEncoder (.new [] 3) := by
  refine C72_encoder_safe (own := OwnQueue) (pre := false) ?_ (.length 3 (by decide)
    (.own (.queue _ fun x => ?_)))
  · intro σ α E s h
    cases h
    next enc _ =>
    intro s _
    constructor
    · intro cap e _
      simp only [queueEncoder]
      split
      · exact ⟨by simp, fun _ => .ok, fun bs h => by cases h; assumption⟩
      · split
        · exact ⟨by simp, fun _ => .inr ⟨_, rfl⟩, fun bs h => by cases h⟩
        · exact ⟨by simp, fun _ => .ok, fun bs h => by cases h; simp [List.length_take]; omega⟩
    · intro x
      simp only [queueEncoder]
      split
      · split
        · exact ⟨by simp, fun _ => .ok⟩
        · exact ⟨by simp, fun _ => .inr ⟨_, rfl⟩⟩
      · exact ⟨by simp, fun _ => .inr ⟨_, rfl⟩⟩
  · exact varint_kind 10 x

/-! ## Encoders that may break every promise -/

/-- C43: whatever the encoder does, `encode_all` returns `Ok` only if it is idle in the end. -/
theorem C43_complete {ω : Type} {E : Encoder σ α} {W : Writer ω} {s s' : σ} {w w' : ω}
    (h : encodeAll E W s w = some (.ok (), s', w')) : E.isIdle s' = true :=
  (encodeAll_ran s w _ h .new rfl).2

/-- C43: an encoder that is busy and does not get on is given up. -/
theorem C43_stalled {ω : Type} {E : Encoder σ α} {s s' : σ} (hs : E.isIdle s = false)
    (he : E.encode s 1024 (Eos.new false) = (.ok [], s')) (hs' : E.isIdle s' = false) (W : Writer ω) (w : ω) :
    encodeAll E W s w = some (.err .other, s', w) := by
  rw [encodeAll, if_neg (by simp [hs]), he]
  simp [writeAll, hs']

/-- A slice without an allowance. -/
example : ∃ s', (sliceEncoder u8Encoder.toEncoder).isIdle ⟨⟨some [7], 0⟩, 0⟩ = false ∧
    (sliceEncoder u8Encoder.toEncoder).encode ⟨⟨some [7], 0⟩, 0⟩ 1024 (Eos.new false) = (.ok [], s') ∧
    (sliceEncoder u8Encoder.toEncoder).isIdle s' = false := ⟨_, rfl, rfl, rfl⟩

/-- C34: whatever the encoder does, `encode_into_bytes` returns bytes only if it is idle in the end. -/
theorem C34_complete {E : Encoder σ α} {s s' : σ} {x : α} {b : Bytes}
    (h : encodeIntoBytes E s x = (.ok b, s')) : E.isIdle s' = true :=
  (encodeIntoBytes_ran .new h).2

/-- C34: an encoder that says its item has no end is refused. -/
theorem C34_infinite {E : Encoder σ α} {s s' : σ} {x : α} (hx : E.start s x = (.ok (), s'))
    (hr : E.requiring s' = .infinite) : encodeIntoBytes E s x = (.err .invalidInput, s') := by
  simp [encodeIntoBytes, Res.step, hx, hr]

example : ∃ s, paddingEncoder.start none 7 = (.ok (), s) ∧ paddingEncoder.requiring s = .infinite := ⟨_, rfl, rfl⟩

end Bytecodec.Props
