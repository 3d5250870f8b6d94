import Verif.Lemmas.Requiring
/-!
# Properties of `requiring_bytes` (C52)
-/
namespace Bytecodec.Props
open Spec

variable {σ α : Type}

/-- C52 for every decoder assembled without `collect`, in every state a caller can reach: if
`requiring_bytes` says `Finite(k)` then no successful decoding from here consumes fewer than `k`
bytes, and if it says `Infinite` then the item is completed only by a call at the end of the stream.
Missing: `collect` (`C52_collect_fails`; `C52_collect_eos` is what remains). -/
theorem C52_lower_bound_partial {D : Decoder σ α} {s₀ s : σ}
    (h : Assembled (fun sh => sh ≠ .collect) D s₀) (hr : Reach D s₀ s)
    {n : Nat} {q : Bool} {t : σ} {x : α} {t' : σ} (hc : Calls D s n q t) (hf : D.finish t = (.ok x, t')) :
    (∀ k, D.requiring s = .finite k → k ≤ n) ∧ (D.requiring s = .infinite → q = true) :=
  lower_assembled h s hr n q t x t' hc hf

/-- A length-prefixed frame: one byte is asked for, then as many as the prefix says. -/
private def frame := andThenDecoder (fixDecoder (fun b => (b.headD 0).toNat))
  (lengthDecoder remainingBytesDecoder) (fun n => LengthState.new RemainingState.new (n % 256))

example : Assembled (fun sh => sh ≠ .collect) frame (fixInit 1, none) :=
  .andThen _ (by decide) (.number _ 1 (by decide)) fun x =>
    .length _ (by decide) (by omega) (.remaining (by decide))

example : frame.requiring (fixInit 1, none) = .finite 1 ∧
    frame.requiring (frame.decode (fixInit 1, none) [3, 7] (Eos.new false)).2 = .finite 2 ∧
    (frame.finish (frame.decode (fixInit 1, none) [3, 7, 8, 9] (Eos.new false)).2).1 = .ok [7, 8, 9] := by
  decide +kernel

/-- `collect` reports what its item decoder asks for, but it also completes without any further item:
the end of an empty stream is a successfully decoded empty list. -/
theorem C52_collect_fails : ∃ (t t' : CollectState CopyableState UInt8),
    (collectDecoder (fixDecoder (fun b => b.headD 0))).requiring ⟨fixInit 1, [], false⟩ = .finite 1 ∧
    Calls (collectDecoder (fixDecoder (fun b => b.headD 0))) ⟨fixInit 1, [], false⟩ 0 true t ∧
    (collectDecoder (fixDecoder (fun b => b.headD 0))).finish t = (.ok [], t') := by
  refine ⟨⟨fixInit 1, [], true⟩, ⟨fixInit 1, [], false⟩, rfl, ?_, rfl⟩
  refine Calls.cons (n := 0) (m := 0) (q := false) [] (Eos.new true) ?_ (.nil _)
  simp only [collectDecoder]
  rw [collectLoop]
  rfl

/-- What holds of `collect` (over any item decoder, in any state): unless it is idle, it completes
only by a call at the end of the stream. -/
theorem C52_collect_eos {D : Decoder σ α} {s : CollectState σ α} (hs : (collectDecoder D).isIdle s = false)
    {n : Nat} {q : Bool} {t : CollectState σ α} {xs : List α} {t' : CollectState σ α}
    (hc : Calls (collectDecoder D) s n q t) (hf : (collectDecoder D).finish t = (.ok xs, t')) :
    q = true := by
  have ht : t.eos = true := by
    simp only [collectDecoder] at hf
    split at hf
    · assumption
    · cases hf
  rcases hc.flag (fun s => s.eos = true) (by
    intro s b e n t hd ht
    simp only [collectDecoder] at hd
    split at hd
    · next h => exact .inl h
    · split at hd
      · cases hd
      · cases hd; exact .inl ht
      · cases hd
        simp only at ht
        split at ht
        · next h => exact .inr h
        · exact .inl ht) ht with h | h
  · simp only [collectDecoder] at hs
    rw [hs] at h
    cases h
  · exact h

/-- The hypotheses are met, e.g., by the run in `C52_collect_fails`. -/
example : (collectDecoder (fixDecoder (fun b => b.headD 0))).isIdle ⟨fixInit 1, [], false⟩ = false ∧
    ∃ n t xs t', Calls (collectDecoder (fixDecoder (fun b => b.headD 0))) ⟨fixInit 1, [], false⟩ n true t ∧
      (collectDecoder (fixDecoder (fun b => b.headD 0))).finish t = (.ok xs, t') := by
  obtain ⟨t, t', _, h2, h3⟩ := C52_collect_fails
  exact ⟨rfl, 0, t, [], t', h2, h3⟩

/-- C52, last clause: an idle decoder asks for nothing, in every state a caller can reach.
Missing: `length` (`C52_length_fails`). -/
theorem C52_idle_partial {D : Decoder σ α} {s₀ s : σ} (h : Assembled (fun sh => sh ≠ .length) D s₀)
    (hr : Reach D s₀ s) (hi : D.isIdle s = true) : D.requiring s = .finite 0 :=
  quiet_assembled h s hr hi

example : Assembled (fun sh => sh ≠ .length)
    (tupleDecoder2 (collectNDecoder (fixDecoder (fun b => b.headD 0))) (mapDecoder bytesDecoder List.length))
    (.new (fixInit 1) 2, .new [0, 0]) ∧
    (let D := tupleDecoder2 (collectNDecoder (fixDecoder (fun b => b.headD 0))) (mapDecoder bytesDecoder List.length)
     let t := (D.decode (.new (fixInit 1) 2, .new [0, 0]) [1, 2, 3, 4] (Eos.new false)).2
     D.isIdle t = true ∧ D.requiring t = .finite 0) :=
  ⟨.pair (by decide) (.collectN _ (by decide) (.number _ _ (by decide)))
    (.map _ (by decide) (.bytes _ (by decide))), by decide +kernel⟩

/-- `length(2)` over a one-byte number: after the number is complete the decoder is idle, but asks for
the byte that is still missing. -/
theorem C52_length_fails :
    let D := lengthDecoder (fixDecoder (fun b => b.headD 0))
    let t := (D.decode (.new (fixInit 1) 2) [7, 8] (Eos.new false)).2
    D.isIdle t = true ∧ D.requiring t = .finite 1 := by
  decide +kernel

/-- For `length` itself the report is exact, over any inner decoder and in any state: whatever
completes the item consumes exactly the number of bytes that was asked for. -/
theorem C52_length_exact {D : Decoder σ α} {s t t' : LengthState σ} {n : Nat} {q : Bool} {x : α}
    (hc : Calls (lengthDecoder D) s n q t) (hf : (lengthDecoder D).finish t = (.ok x, t')) :
    (lengthDecoder D).requiring s = .finite n := by
  have key : ∀ {s t n q}, Calls (lengthDecoder D) s n q t → s.remaining = n + t.remaining := by
    intro s t n q hc
    induction hc with
    | nil s => omega
    | cons b e hd _ ih =>
      obtain ⟨_, i, _, hn, rfl⟩ := length_ok.1 hd
      simp only at ih
      omega
  have h1 := key hc
  have h2 := (length_fin.1 hf).1
  simp only [lengthDecoder]
  rw [h1, h2]
  rfl

example : let D := lengthDecoder remainingBytesDecoder
    D.requiring (.new .new 3) = .finite 3 ∧
    (D.finish (D.decode (.new .new 3) [1, 2, 3, 4] (Eos.new false)).2).1 = .ok [1, 2, 3] := by decide +kernel

end Bytecodec.Props
