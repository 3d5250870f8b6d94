import Verif.Lemmas.ReuseEnc
import Verif.Lemmas.ReuseMany
import Verif.Lemmas.ReuseCollect
import Verif.Lemmas.Productive
import Verif.Props.Sequences
/-!
# C55, C56: one item after the other
-/
namespace Bytecodec.Props

open Spec

variable {σ α : Type}

/-! ## C55: decoders are as new after each item -/

/-- C55: once an item has been taken, the decoder cannot be told apart from a new one, by any sequence of
calls, whatever bytes the item came from and however they were cut. -/
theorem C55_asNew_partial {D : Decoder σ α} {s₀ s s' : σ} {x : α} (h : Reusable D s₀) (hs : Fed D s₀ s)
    (hf : D.finish s = (.ok x, s')) : Same D s' s₀ :=
  h.renews.same hs hf

/-- C55: a `bytes` decoder and a `collectn` decoder are as new once the buffer, or the number of items, for
the next round has been set. -/
theorem C55_rearmed :
    (∀ {s s' : BytesDecoderState} {x : Bytes}, bytesDecoder.finish s = (.ok x, s') →
      ∀ b, Same bytesDecoder (s'.setBytes b) (.new b)) ∧
    (∀ {σ α : Type} {D : Decoder σ α} {s₀ : σ} {n : Nat} {s s' : CollectNState σ α} {xs : List α},
      Reusable D s₀ → Fed (collectNDecoder D) (.new s₀ n) s → (collectNDecoder D).finish s = (.ok xs, s') →
      ∀ m, Same (collectNDecoder D) (s'.setRemainingItems m) (.new s₀ m)) :=
  ⟨fun _ _ => same_refl _ _, fun h hs hf m => collectN_renews h.renews hs hf m⟩

/-- C55: a `collect` decoder is as new once its items have been taken, provided that the call which
announced the end of the stream brought at least one byte. (Otherwise see `C23_leaks_fails`.) -/
theorem C55_collect_partial {D : Decoder σ α} {s₀ : σ} {s s' : CollectState σ α} {xs : List α} (h : Reusable D s₀)
    (hs : FedWith EndsWithBytes (collectDecoder D) ⟨s₀, [], false⟩ s)
    (hf : (collectDecoder D).finish s = (.ok xs, s')) : Same (collectDecoder D) s' ⟨s₀, [], false⟩ :=
  collect_renews h.renews hs hf

/-- C55: a frame of `n` bytes which holds a sequence of items of the usual kind (none of them empty, none of
them content with less than its bytes at the end of the stream) is as new once the items have been taken,
however the bytes were cut; nothing leaks from one frame to the next. -/
theorem C55_frame {D : Decoder σ α} {s₀ : σ} {n : Nat} {s s' : LengthState (CollectState σ α)} {xs : List α}
    (h : Reusable D s₀) (ha : Assembled (fun sh => sh ≠ .length ∧ sh ≠ .slice ∧ sh ≠ .maybeEos) D s₀)
    (hp : Productive D s₀) (hn : n < 2 ^ 64)
    (hs : FedWith (fun b e => EosSane e b.length) (lengthDecoder (collectDecoder D)) (.new ⟨s₀, [], false⟩ n) s)
    (hf : (lengthDecoder (collectDecoder D)).finish s = (.ok xs, s')) :
    Same (lengthDecoder (collectDecoder D)) s' (.new ⟨s₀, [], false⟩ n) :=
  length_collect_renews h.renews (assembled_safe ha) hp (assembled_eos (by simp) (by simp) (by simp) ha) hn hs hf

/-- 16-bit numbers up to the end of the stream: 01 first, then 02 and the end. -/
example : FedWith EndsWithBytes (collectDecoder u16beDecoder) ⟨fixInit 2, [], false⟩ ⟨⟨[1, 2], 0⟩, [0x102], true⟩ ∧
    (collectDecoder u16beDecoder).finish ⟨⟨[1, 2], 0⟩, [0x102], true⟩ = (.ok [0x102], ⟨⟨[1, 2], 0⟩, [], false⟩) := by
  refine ⟨.decode (b := [2]) (e := Eos.new true) (n := 1) (s := ⟨⟨[1, 0], 1⟩, [], false⟩)
    (.decode (b := [1]) (e := Eos.new false) (n := 1) .new (by intro h; cases h) (by intro h; cases h) ?_)
    (by intro _ h; cases h) (by intro h; cases h) ?_, rfl⟩
  · simp only [collectDecoder]; unfold collectLoop; rfl
  · simp only [collectDecoder]; unfold collectLoop
    simp only [tryDecode]
    unfold collectLoop; rfl

/-- A frame of four bytes with 16-bit numbers meets the hypotheses of `C55_frame`. -/
example : Reusable u16beDecoder (fixInit 2) ∧
    Assembled (fun sh => sh ≠ .length ∧ sh ≠ .slice ∧ sh ≠ .maybeEos) u16beDecoder (fixInit 2) ∧
    Productive u16beDecoder (fixInit 2) :=
  ⟨.number _ 2, .number _ 2 (by simp), productive_number _ (by decide)⟩

/-- C55: a `slice` decoder from which an item has been taken is as new, except for what is left of its allowance;
however often the allowance was set in between. -/
theorem C55_slice {D : Decoder σ α} {s₀ : σ} {s s' : SliceState σ} {x : α} (h : Reusable D s₀)
    (hs : FedSlice D s₀ s) (hf : (sliceDecoder D).finish s = (.ok x, s')) :
    Same (sliceDecoder D) s' ((SliceState.new s₀).setConsumableBytes s.consumable) :=
  slice_renews h.renews hs hf

/-- A 16-bit number in two slices, the second one with an allowance of three bytes, of which two are left. -/
example : FedSlice u16beDecoder (fixInit 2) ⟨⟨[1, 2], 2⟩, 2⟩ ∧
    (sliceDecoder u16beDecoder).finish ⟨⟨[1, 2], 2⟩, 2⟩ = (.ok 0x102, ⟨⟨[1, 2], 0⟩, 2⟩) :=
  ⟨.decode (b := [2, 9]) (e := Eos.new false) (n := 1)
    (.allow 3 (.decode (b := [1, 2]) (e := Eos.new false) (n := 1) (s' := ⟨⟨[1, 0], 1⟩, 0⟩)
      (.allow 1 .new) (by decide) rfl)) (by decide) rfl, rfl⟩

/-- A length-prefixed string and a checked byte. -/
example : Reusable (tupleDecoder2 (andThenDecoder u8Decoder (lengthDecoder (utf8Decoder remainingBytesDecoder))
      (fun n => .new .new n.toNat)) (maxBytesDecoder (tryMapDecoder u8Decoder fun b =>
      if b = 0 then .error .invalidInput else .ok b)))
    ((fixInit 1, none), .new (fixInit 1) 1) :=
  .pair (.andThen _ _ (.number _ 1)) (.maxBytes 1 (.tryMap _ (.number _ 1)))

/-- Not only in its initial state: the first item leaves other bytes behind than a new decoder holds. -/
example : Fed u16beDecoder (fixInit 2) ⟨[1, 2], 2⟩ ∧ u16beDecoder.finish ⟨[1, 2], 2⟩ = (.ok 0x102, ⟨[1, 2], 0⟩) ∧
    (⟨[1, 2], 0⟩ : CopyableState) ≠ fixInit 2 :=
  ⟨.decode (b := [1, 2, 3]) (e := Eos.new false) (n := 2) .new (by decide) (by decide), by decide, by decide⟩

/-- C55 (the code deviates): a monolithic decoder that holds an item goes on swallowing bytes, which then
are taken for the beginning of the next item. (That is why `Fed` does not decode while holding an item.) -/
theorem C55_holding_fails :
    let parse : MonolithicParser Bytes := fun a b => (.ok (a ++ b), a.length + b.length)
    let D := monolithicDecoder parse
    ∃ s1 s2 s3, D.decode .new [1] (Eos.new true) = (.ok 1, s1) ∧ D.isIdle s1 = true ∧
      D.decode s1 [2] (Eos.new false) = (.ok 1, s2) ∧ D.finish s2 = (.ok [1], s3) ∧
      ((D.decode s3 [3] (Eos.new true)).1 = .ok 1 ∧
        (D.finish (D.decode s3 [3] (Eos.new true)).2).1 = .ok [2, 3]) :=
  ⟨⟨some [1], []⟩, ⟨some [1], [2]⟩, ⟨none, [2]⟩, rfl, rfl, rfl, rfl, rfl, rfl⟩

/-- C23 (the code deviates): the beginning of an item that `collect` dropped at the end of a stream (see
`C23_truncated_fails`) is put in front of the next stream: 01, then the end; then 02, 03 as a second
stream is read as the number 0x0102 and a truncated item. -/
theorem C23_leaks_fails :
    let D := collectDecoder u16beDecoder
    ∃ s1 s2 s3 s4, D.decode ⟨fixInit 2, [], false⟩ [1] (Eos.new false) = (.ok 1, s1) ∧
      D.decode s1 [] (Eos.new true) = (.ok 0, s2) ∧ D.finish s2 = (.ok [], s3) ∧
      D.decode s3 [2] (Eos.new true) = (.ok 1, s4) ∧ (D.finish s4).1 = .ok [0x102] := by
  refine ⟨⟨⟨[1, 0], 1⟩, [], false⟩, ⟨⟨[1, 0], 1⟩, [], true⟩, ⟨⟨[1, 0], 1⟩, [], false⟩,
    ⟨⟨[1, 2], 0⟩, [0x102], true⟩, ?_, ?_, rfl, ?_, rfl⟩
  · simp only [collectDecoder]; unfold collectLoop; rfl
  · simp only [collectDecoder]; unfold collectLoop; rfl
  · simp only [collectDecoder]; unfold collectLoop
    simp only [tryDecode]
    unfold collectLoop; rfl

/-! ## C56: encoders are as new after each item -/

/-- C56: an encoder that has been used without errors and is idle cannot be told apart from a new one, by
any sequence of calls. -/
theorem C56_asNew {E : Encoder σ α} {s₀ s : σ} (h : ReusableEnc E s₀) (hs : Ran E s₀ s)
    (hi : E.isIdle s = true) : SameE E s s₀ := by
  obtain ⟨R, hR⟩ := h.renews
  have hr := hR.fresh s hs hi
  exact ⟨hR.bisim.idle hr, hR.bisim.req hr, fun calls => hR.bisim.observe calls hr⟩

/-- C56: it cannot be made idle by another item either: `start_encoding` on a busy encoder fails, or has
no effect on the busyness. -/
theorem C56_busy {E : Encoder σ α} {s₀ s s' : σ} {x : α} (h : ReusableEnc E s₀) (hs : Ran E s₀ s)
    (hi : E.isIdle s = false) (hx : E.start s x = (.ok (), s')) : E.isIdle s' = false := by
  obtain ⟨R, hR⟩ := h.renews
  exact hR.busy s x s' hs hi hx

/-- Many short strings, computed ahead and limited. -/
example : ReusableEnc (maxBytesEncoder (preEncodeEncoder (repeatEncoder (tupleEncoder2 utf8Encoder.toEncoder
      (optionalEncoder u16beEncoder.toEncoder)))).toEncoder) (.new (.new (.new (.new, .new))) 100) :=
  .maxBytes 100 (.preEncode (.repeat (.pair .utf8 (.optional (.number _)))))

/-- One byte at a time. -/
example : Ran u16beEncoder.toEncoder .new ⟨none, 2⟩ ∧ u16beEncoder.isIdle ⟨none, 2⟩ = true ∧
    u16beEncoder.start .new 7 = (.ok (), ⟨some [0, 7], 0⟩) :=
  ⟨.encode (cap := 1) (e := Eos.new false) (bs := [7]) (s := ⟨some [0, 7], 1⟩)
    (.encode (cap := 1) (e := Eos.new false) (bs := [0]) (s := ⟨some [0, 7], 0⟩)
      (.start (x := 7) .new rfl) rfl) rfl, rfl, rfl⟩

end Bytecodec.Props
