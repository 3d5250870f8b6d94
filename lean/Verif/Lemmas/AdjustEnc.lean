import Verif.Lemmas.SafeEnc
import Verif.Spec.AdjustEnc
/-!
# Adjusted encoders stay safe
-/
namespace Bytecodec

open Spec

variable {σ α β : Type}

/-- An invariant kept by calls stays kept when adjustments are added that keep it. -/
theorem EncSafe.touch {full : Bool} {E : Encoder σ α} {A : σ → σ → Prop} {I : σ → Prop} (h : EncSafe full E I)
    (ha : ∀ {t u}, I t → A t u → I u) {t u : σ} (ht : I t) (hu : TouchEnc E A t u) : I u := by
  cases hu with
  | encode cap e he => exact (h.encode ht he).2.2
  | start x => exact (h.start ht).2
  | adjust h => exact ha ht h

theorem adjustableEnc_safe {pre : Bool} {E : Encoder σ α} {A : σ → σ → Prop} {s : σ} (h : AdjustableEnc pre E A s) :
    ∃ I, EncSafe (!pre) E I ∧ I s ∧ ∀ {t u}, I t → A t u → I u := by
  induction h with
  | bytes asRef => exact ⟨_, encSafe_bytes _ asRef, by simp [BytesEncoderState.new], fun _ h => h.elim⟩
  | number f => exact ⟨_, encSafe_number _ f, by simp [BytesEncoderState.new], fun _ h => h.elim⟩
  | utf8 => exact ⟨_, encSafe_utf8 _, by simp [BytesEncoderState.new], fun _ h => h.elim⟩
  | null => exact ⟨_, encSafe_null _, trivial, fun _ h => h.elim⟩
  | padding => exact ⟨_, encSafe_padding _, trivial, fun _ h => h.elim⟩
  | monolithic ser hs =>
    exact ⟨_, encSafe_monolithic _ ser hs, by simp [MonoEncState.new, BytesEncoderState.new], fun _ h => h.elim⟩
  | mapErr f _ ih =>
    obtain ⟨I, h, h0, ha⟩ := ih
    exact ⟨_, encSafe_mapErr f h, h0, h.touch ha⟩
  | mapFrom f _ ih =>
    obtain ⟨I, h, h0, ha⟩ := ih
    exact ⟨_, encSafe_mapFrom f h, h0, h.touch ha⟩
  | tryMapFrom f _ ih =>
    obtain ⟨I, h, h0, ha⟩ := ih
    exact ⟨_, encSafe_tryMapFrom f h, h0, h.touch ha⟩
  | repeated _ ih =>
    obtain ⟨I, h, h0, ha⟩ := ih
    refine ⟨_, encSafe_repeated h, h0, ?_⟩
    rintro t u ht ⟨i, hi, rfl⟩
    exact h.touch ha ht hi
  | optional _ ih =>
    obtain ⟨I, h, h0, ha⟩ := ih
    exact ⟨_, encSafe_optional h, h0, h.touch ha⟩
  | length n hn _ ih =>
    obtain ⟨I, h, h0, ha⟩ := ih
    refine ⟨_, encSafe_length h, ⟨h0, hn, hn⟩, ?_⟩
    rintro t u ⟨h1, h2, h3⟩ (⟨m, hm, rfl⟩ | ⟨i, hi, rfl⟩)
    · simp only [LengthState.setExpectedBytes]
      split
      · exact ⟨h1, hm, hm⟩
      · exact ⟨h1, h2, h3⟩
    · exact ⟨h.touch ha h1 hi, h2, h3⟩
  | maxBytes n _ ih =>
    obtain ⟨I, h, h0, ha⟩ := ih
    refine ⟨_, encSafe_maxBytes h, h0, ?_⟩
    rintro t u ht (⟨m, rfl⟩ | ⟨i, hi, rfl⟩)
    · simp only [MaxBytesState.setMaxBytes]
      split <;> exact ht
    · exact h.touch ha ht hi
  | preEncode hpre _ ih =>
    obtain ⟨I, h, h0, ha⟩ := ih
    subst hpre
    refine ⟨_, encSafe_preEncode h, ⟨h0, by simp [PreEncodeState.new, BytesEncoderState.new]⟩, ?_⟩
    rintro t u ⟨ht, hp⟩ ⟨i, hi, rfl⟩
    exact ⟨h.touch ha ht hi, hp⟩
  | slice n _ ih =>
    obtain ⟨I, h, h0, ha⟩ := ih
    refine ⟨_, encSafe_slice h, h0, ?_⟩
    rintro t u ht (⟨m, rfl⟩ | ⟨i, hi, rfl⟩)
    · exact ht
    · exact h.touch ha ht hi
  | last x _ ih =>
    obtain ⟨I, h, h0, ha⟩ := ih
    refine ⟨_, encSafe_last h, h0, ?_⟩
    rintro t u ht ⟨i, hi, rfl⟩
    exact h.touch ha ht hi
  | pair _ _ ih0 ih1 =>
    obtain ⟨I0, h0, a0, b0⟩ := ih0
    obtain ⟨I1, h1, a1, b1⟩ := ih1
    refine ⟨_, encSafe_pair h0 h1, ⟨a0, a1⟩, ?_⟩
    rintro ⟨t0, t1⟩ ⟨u0, u1⟩ ⟨ht0, ht1⟩ (⟨hu, hq⟩ | ⟨hq, hu⟩)
    · cases hq
      exact ⟨h0.touch b0 ht0 hu, ht1⟩
    · cases hq
      exact ⟨ht0, h1.touch b1 ht1 hu⟩

theorem usedEnc_safe {pre : Bool} {E : Encoder σ α} {A : σ → σ → Prop} {s t : σ} (h : AdjustableEnc pre E A s)
    (ht : HandledEnc E A s t) : SafeEncFrom (!pre) E t := by
  obtain ⟨I, h, h0, ha⟩ := adjustableEnc_safe h
  refine encSafe_from h ?_
  induction ht with
  | refl => exact h0
  | step _ h2 ih => exact h.touch ha ih h2

end Bytecodec
