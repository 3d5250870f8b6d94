import Verif.Lemmas.Progress
import Verif.Model.Fixnum
import Verif.Model.Bytes
/-!
# C71: progress reports are true, and collected items are all the items
-/
namespace Bytecodec.Props

open Spec

variable {σ α : Type}

/-! ## Bytes -/

/-- C71 (`length`, decoding): whatever calls were made, also failed ones, `expected_bytes` is the length last
set, and `remaining_bytes` that length minus the bytes consumed of the current frame. -/
theorem C71_length {D : Decoder σ α} {s : LengthState σ} {n c : Nat} (h : LengthRun D s n c) :
    s.expectedBytes = n ∧ s.remainingBytes = n - c ∧ c ≤ n := by
  have := lengthRun_inv h
  refine ⟨this.1, ?_, by omega⟩
  simp only [LengthState.remainingBytes]
  omega

/-- C71 (`length`, encoding): the same with the bytes emitted. -/
theorem C71_length_encoder {E : Encoder σ α} {s : LengthState σ} {n c : Nat} (h : LengthEncRun E s n c) :
    s.expectedBytes = n ∧ s.remainingBytes = n - c ∧ c ≤ n := by
  have := lengthEncRun_inv h
  refine ⟨this.1, ?_, by omega⟩
  simp only [LengthState.remainingBytes]
  omega

/-- C71 (`max_bytes`, decoding): `max_bytes` is the maximum last set, and `consumed_bytes` the number of bytes
consumed since the last `finish_decoding`. -/
theorem C71_max_bytes {D : Decoder σ α} {s : MaxBytesState σ} {n c : Nat} (h : MaxRun D s n c) :
    s.maxBytes = n ∧ s.consumedBytes = c := maxRun_inv h

/-- C71 (`max_bytes`, encoding): `consumed_bytes` is the number of bytes emitted of the current item, and never
more than `max_bytes`. -/
theorem C71_max_bytes_encoder {E : Encoder σ α} {s : MaxBytesState σ} {n c : Nat} (h : MaxEncRun E s n c) :
    s.maxBytes = n ∧ s.consumedBytes = c ∧ c ≤ n := maxEncRun_inv h

/-! ## Items -/

/-- C71 (`collect`): no item the inner decoder has delivered is lost, repeated or reordered, also not by calls
that fail: a successful `finish_decoding` returns exactly the items delivered since the last one. -/
theorem C71_collect {D : Decoder σ α} {s s' : CollectState (σ × List α) α} {j : Nat} {xs : List α}
    (h : CollectRun D s j) (hf : (collectDecoder (noting D)).finish s = (.ok xs, s')) :
    xs = s.inner.2.drop j := by
  have := collectRun_inv h
  simp only [collectDecoder] at hf
  split at hf
  · cases hf; exact this.2
  · cases hf

/-- C71 (`collectn`): the same, and `remaining_items` is the number of items last asked for minus those the
inner decoder has delivered since. -/
theorem C71_collectn {D : Decoder σ α} {s : CollectNState (σ × List α) α} {n i j : Nat}
    (h : CollectNRun D s n i j) :
    s.remainingItems = n - (s.inner.2.length - i) ∧ s.inner.2.length - i ≤ n ∧
    ∀ xs s', (collectNDecoder (noting D)).finish s = (.ok xs, s') → xs = s.inner.2.drop j := by
  have := collectNRun_inv h
  refine ⟨?_, by omega, ?_⟩
  · simp only [CollectNState.remainingItems]
    omega
  · intro xs s' hf
    simp only [collectNDecoder] at hf
    split at hf
    · cases hf; exact this.2.1
    · cases hf

/-- The record changes nothing: `noting D` gives the answers of `D`. -/
theorem C71_noting (D : Decoder σ α) (s : σ) (l : List α) :
    (∀ b e, ((noting D).decode (s, l) b e).1 = (D.decode s b e).1 ∧
      ((noting D).decode (s, l) b e).2.1 = (D.decode s b e).2) ∧
    ((noting D).finish (s, l)).1 = (D.finish s).1 ∧ ((noting D).finish (s, l)).2.1 = (D.finish s).2 ∧
    (noting D).requiring (s, l) = D.requiring s ∧ (noting D).isIdle (s, l) = D.isIdle s := by
  refine ⟨fun b e => ⟨rfl, rfl⟩, ?_, ?_, rfl, rfl⟩
  · simp only [noting]
    cases h : (D.finish s).1 <;> rfl
  · simp only [noting]
    cases h : (D.finish s).1 <;> rfl

/-! ## Examples -/

/-- A frame of five bytes, three of them consumed. -/
example : ∃ s, LengthRun (utf8Decoder remainingBytesDecoder) s 5 3 :=
  ⟨_, .decoded (k := 3) [97, 98, 99] (Eos.new false) (LengthRun.new RemainingState.new 5) rfl⟩

/-- The same frame being written. -/
example : ∃ s, LengthEncRun utf8Encoder.toEncoder s 5 3 :=
  ⟨_, .encoded (cap := 3) (e := Eos.new false) (out := [104, 101, 108])
    (.start "hello" (LengthEncRun.new BytesEncoderState.new 5)) (by rfl)⟩

/-- One of at most three bytes. -/
example : ∃ s, MaxRun u16beDecoder s 3 1 :=
  ⟨_, .decoded (k := 1) [1] (Eos.new false) (MaxRun.new (CopyableState.new [0, 0]) 3) rfl⟩

example : ∃ s c, MaxEncRun utf8Encoder.toEncoder s 7 c ∧ c = 3 :=
  ⟨_, _, .encoded (E := utf8Encoder.toEncoder) (cap := 3) (e := Eos.new false) (out := [104, 101, 108])
    (.start "hello" (MaxEncRun.new BytesEncoderState.new 7)) rfl, by decide +kernel⟩

/-- Three more items were asked for after the first two; one of them has arrived. -/
example : ∃ s, CollectNRun u8Decoder s 3 2 0 ∧ s.inner.2 = [7, 8, 9] ∧ s.remainingItems = 2 :=
  ⟨_, .decode [9] (Eos.new false) (.set 3 (.decode [7, 8] (Eos.new false) (CollectNRun.new (CopyableState.new [0]) 2))),
    by decide +kernel, by decide +kernel⟩

/-- Two items were collected before the end of the stream. -/
example : ∃ s s', CollectRun u8Decoder s 0 ∧
    (collectDecoder (noting u8Decoder)).finish s = (.ok [7, 8], s') := by
  have h : collectLoop (noting u8Decoder) [7, 8] (Eos.new true) 0 (CopyableState.new [0], []) [] =
      some (.done 2 (⟨[8], 0⟩, [7, 8]) [7, 8]) := by
    rw [collectLoop]
    show collectLoop (noting u8Decoder) [7, 8] (Eos.new true) 1 (⟨[7], 0⟩, [7]) [7] = _
    rw [collectLoop]
    show collectLoop (noting u8Decoder) [7, 8] (Eos.new true) 2 (⟨[8], 0⟩, [7, 8]) [7, 8] = _
    rw [collectLoop]
    rfl
  refine ⟨_, ⟨(⟨[8], 0⟩, [7, 8]), [], false⟩, .decode [7, 8] (Eos.new true) (.new (CopyableState.new [0])), ?_⟩
  simp only [collectDecoder, h]
  rfl

end Bytecodec.Props
