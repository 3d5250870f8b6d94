import Verif.Lemmas.Safe
/-!
# Decoders whose items take at least one byte
-/
namespace Bytecodec

open Spec

variable {σ α : Type}

theorem copyable_decode {s : CopyableState} (b : Bytes) (e : Eos) (h : s.offset ≤ s.bytes.length) :
    ∃ B : Bytes, B.length = s.bytes.length ∧
      copyableBytesDecoder.decode s b e =
        (if s.offset + min b.length (s.bytes.length - s.offset) ≠ s.bytes.length ∧ e.isReached then
          .err .unexpectedEos else .ok (min b.length (s.bytes.length - s.offset)),
          ⟨B, s.offset + min b.length (s.bytes.length - s.offset)⟩) := by
  have hl := splice_length (buf := s.bytes) (off := s.offset)
    (src := b.take (min b.length (s.bytes.length - s.offset))) (by simp; omega)
  refine ⟨_, hl, ?_⟩
  simp only [copyableBytesDecoder]
  rw [if_neg (by omega), hl]
  split <;> rfl

theorem productive_number (f : Bytes → α) {k : Nat} (hk : 0 < k) :
    Productive (fixDecoder f) (fixInit k) := by
  have inv : ∀ s, ReachItem (fixDecoder f) (fixInit k) s → s.bytes.length = k ∧ s.offset < k := by
    intro s hs
    induction hs with
    | refl => exact ⟨by simp [fixInit], hk⟩
    | @decode s b e _ _ _ hok ih =>
      obtain ⟨h1, h2⟩ := ih
      obtain ⟨B, hB, hd⟩ := copyable_decode b e (s := s) (by omega)
      simp only [fixDecoder, hd] at hok ⊢
      by_cases hc : s.offset + min b.length (s.bytes.length - s.offset) = s.bytes.length
      · simp [hc, hB, Res.isOk, copyableBytesDecoder] at hok
      · simp only [hB, h1, true_and]; omega
    | @item s b e _ _ _ hok ih =>
      obtain ⟨h1, h2⟩ := ih
      obtain ⟨B, hB, hd⟩ := copyable_decode b e (s := s) (by omega)
      simp only [fixDecoder, hd] at hok ⊢
      simp only [copyableBytesDecoder, hB, Bool.and_eq_true, beq_iff_eq] at hok ⊢
      simp only [hok.2, if_true, Res.step]
      exact ⟨hB.trans h1, hk⟩
    | finish _ hi ih =>
      simp [fixDecoder, copyableBytesDecoder] at hi
      omega
  intro s hs
  obtain ⟨h1, h2⟩ := inv s hs
  constructor
  · intro hi
    simp [fixDecoder, copyableBytesDecoder] at hi
    omega
  · intro b e hb _ _ h0 _
    have : 0 < b.length := List.length_pos_iff.2 hb
    obtain ⟨B, hB, hd⟩ := copyable_decode b e (s := s) (by omega)
    simp only [fixDecoder, hd] at h0
    split at h0
    · cases h0
    · simp only [Res.ok.injEq] at h0
      omega

end Bytecodec
