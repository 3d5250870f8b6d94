import Verif.Lemmas.Adjust
import Verif.Lemmas.AdjustEnc
import Verif.Lemmas.Productive
/-!
# Properties: setters and `inner_mut` at any moment
-/
namespace Bytecodec.Props

open Spec

variable {σ α : Type}

/-! ## C67: decoders -/

/-- C67: whatever setters and inner decoders the caller used between the calls, no later call panics or diverges
and no `decode` reports more bytes than its buffer holds. -/
theorem C67_safe {D : Decoder σ α} {A : σ → σ → Prop} {s t : σ} (h : Adjustable (fun _ => True) D A s)
    (ht : Handled D A s t) : SafeFrom D t :=
  at_safe (used_at h ht)

/-- C67: `finish_decoding` refuses while the decoder is not idle, also after adjustments. -/
theorem C67_rejected {D : Decoder σ α} {A : σ → σ → Prop} {s t : σ} (h : Adjustable (fun _ => True) D A s)
    (ht : Handled D A s t) : FinishGuarded D t :=
  at_guard (used_at h ht)

/-- C67: no item can be taken while the decoder says that bytes are missing, also after adjustments (a frame whose
length is changed before its first byte is held to the new length). -/
theorem C67_bytes_missing {D : Decoder σ α} {A : σ → σ → Prop} {s t : σ} (h : Adjustable (fun _ => True) D A s)
    (ht : Handled D A s t) (hm : (∃ n, D.requiring t = .finite (n + 1)) ∨ D.requiring t = .infinite) :
    ∃ k, (D.finish t).1 = .err k := by
  refine (C67_safe h ht t .refl).2.resolve_left fun ⟨x, hx⟩ => at_demand (used_at h ht) t .refl ?_ x hx
  rcases hm with ⟨n, hn⟩ | hi
  · rw [hn]; exact Nat.succ_ne_zero n
  · rw [hi]; trivial

/-- C67: an idle decoder stays idle and takes nothing, also after adjustments (without monolithic decoders, see
`C06_monolithic_fails`). -/
theorem C67_idle_partial {D : Decoder σ α} {A : σ → σ → Prop} {s t : σ}
    (h : Adjustable (fun sh => sh ≠ .monolithic) D A s) (ht : Handled D A s t) : IdleStable D t :=
  at_idle (by simp) (used_at h ht)

/-- C67: at the end of the stream an incomplete item is an error, also after adjustments (without `length`, `slice`
and `maybe_eos`, as in C09). -/
theorem C67_eos_partial {D : Decoder σ α} {A : σ → σ → Prop} {s t : σ}
    (h : Adjustable (fun sh => sh ≠ .length ∧ sh ≠ .slice ∧ sh ≠ .maybeEos) D A s) (ht : Handled D A s t) :
    EosStrict D t :=
  at_eos (by simp) (by simp) (by simp) (used_at h ht)

/-- A frame of five bytes: the caller feeds the inner decoder one byte directly, then shortens the frame to one byte.
The decoder then asks for one byte. -/
example :
    let D := lengthDecoder u16beDecoder
    ∃ A t, Adjustable (fun _ => True) D A (.new (fixInit 2) 5) ∧ Handled D A (.new (fixInit 2) 5) t ∧
      D.requiring t = .finite 1 ∧ (D.decode t [2] (Eos.new false)).1 = .ok 1 :=
  ⟨_, _, .length 5 trivial (by decide) (.number _ 2 trivial),
    .step (.step .refl (.adjust (.inr ⟨_, .decode [1] (Eos.new false) EosSane.newFalse, rfl⟩)))
      (.adjust (.inl ⟨1, by decide, rfl⟩)), by decide, by decide⟩

/-- Hypotheses of `C67_idle_partial` and `C67_eos_partial`: an omitted number in a pair is switched on halfway. -/
example :
    let D := tupleDecoder2 (omittableDecoder u8Decoder) u16beDecoder
    ∃ A t, Adjustable (fun sh => sh ≠ .monolithic) D A (⟨fixInit 1, true⟩, fixInit 2) ∧
      Handled D A (⟨fixInit 1, true⟩, fixInit 2) t ∧
      Adjustable (fun sh => sh ≠ .length ∧ sh ≠ .slice ∧ sh ≠ .maybeEos) D A (⟨fixInit 1, true⟩, fixInit 2) ∧
      D.isIdle (⟨fixInit 1, true⟩, fixInit 2) = false ∧ D.requiring t = .finite 2 :=
  ⟨_, ⟨⟨fixInit 1, false⟩, ⟨[1, 0], 1⟩⟩,
    .pair (by decide) (.omittable true (by decide) (.number _ 1 (by decide))) (.number _ 2 (by decide)),
    .step (.step .refl (.decode [1] (Eos.new false) EosSane.newFalse))
      (.adjust (.inl ⟨.adjust (.inl ⟨false, rfl⟩), rfl⟩)),
    .pair (by decide) (.omittable true (by decide) (.number _ 1 (by decide))) (.number _ 2 (by decide)),
    by decide, by decide⟩

/-- C67 (the code deviates): `collect` over frames works as long as frames are not empty; setting the length of the
inner frame to zero through `inner_mut` makes the next `decode` run forever. -/
theorem C67_collect_inner_mut_hang (b : UInt8) (bs : Bytes) :
    let D := lengthDecoder remainingBytesDecoder
    let s : CollectState (LengthState RemainingState) Bytes := ⟨.new .new 2, [], false⟩
    ((collectDecoder D).decode { s with inner := (s.inner.setExpectedBytes 0).2 } (b :: bs) (Eos.new false)).1 =
      .diverge := by
  intro D s
  have h : ∀ off i items r, collectLoop D (b :: bs) (Eos.new false) off i items = some r →
      off = 0 ∧ i = ⟨.new, 0, 0⟩ → False := by
    apply collectLoop.partial_correctness D (b :: bs) (Eos.new false)
    rintro loop ih off i items r h ⟨rfl, rfl⟩
    rw [if_pos (by simp)] at h
    have hd : tryDecode D ⟨.new, 0, 0⟩ 0 (b :: bs) (Eos.new false) = .next 0 ⟨⟨[], true⟩, 0, 0⟩ := rfl
    have hf : D.finish ⟨⟨[], true⟩, 0, 0⟩ = (.ok [], ⟨.new, 0, 0⟩) := rfl
    simp only [hd, hf] at h
    exact ih _ _ _ _ h ⟨rfl, rfl⟩
  show ((collectDecoder D).decode ⟨⟨.new, 0, 0⟩, [], false⟩ (b :: bs) (Eos.new false)).1 = .diverge
  simp only [collectDecoder]
  cases hl : collectLoop D (b :: bs) (Eos.new false) 0 ⟨.new, 0, 0⟩ [] with
  | none => rfl
  | some r => exact (h _ _ _ _ hl ⟨rfl, rfl⟩).elim

/-! ## C67: encoders -/

/-- C67: for encoders without `pre_encode`, whatever setters and inner encoders the caller used between the calls:
every later call returns `Ok` or `Err`, and no `encode` reports more bytes than its buffer has. -/
theorem C67_safe_encoder {E : Encoder σ α} {A : σ → σ → Prop} {s t : σ} (h : AdjustableEnc false E A s)
    (ht : HandledEnc E A s t) : SafeEncFrom true E t :=
  usedEnc_safe h ht

/-- C67: also with `pre_encode` no call panics and none overruns its buffer. -/
theorem C67_no_panic_encoder {E : Encoder σ α} {A : σ → σ → Prop} {s t : σ} (h : AdjustableEnc true E A s)
    (ht : HandledEnc E A s t) : SafeEncFrom false E t :=
  usedEnc_safe h ht

/-- The inner encoder of a frame is started directly, then the declared length is lowered below the number of bytes
the item has: the frame reports an error rather than writing too much. -/
example :
    let E := (lengthEncoder u16beEncoder.toEncoder).toEncoder
    ∃ A t, AdjustableEnc false E A (.new .new 2) ∧ HandledEnc E A (.new .new 2) t ∧
      (E.encode t 10 (Eos.new false)).1 = .err .unexpectedEos :=
  ⟨_, _, .length 2 (by decide) (.number _),
    .step (.step .refl (.adjust (.inr ⟨_, .start 7, rfl⟩))) (.adjust (.inl ⟨1, by decide, rfl⟩)), by decide +kernel⟩

end Bytecodec.Props
