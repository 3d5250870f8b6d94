import Verif.Spec.Memory
import Verif.Lemmas.Tally
import Verif.Lemmas.Interchange
/-!
# Lemmas: the memory of `RemainingBytesDecoder`
-/
namespace Bytecodec
open Spec

theorem sim_mem : Sim remainingMemDecoder remainingBytesDecoder (fun s t => s.buf = t.buf ∧ s.eos = t.eos) where
  idle := by rintro s t ⟨_, h⟩; exact h
  req := by rintro s t ⟨_, h⟩; simp only [remainingMemDecoder, remainingBytesDecoder, h]
  decode := by
    rintro ⟨sb, se, sc⟩ ⟨tb, te⟩ ⟨h1, h2⟩ b e
    simp only at h1 h2
    subst h1 h2
    obtain ⟨c⟩ := e
    cases se with
    | true => exact ⟨rfl, rfl, rfl⟩
    | false =>
      cases c with
      | finite r =>
        by_cases h1 : 2 ^ 64 ≤ b.length + r
        · simp [remainingMemDecoder, remainingBytesDecoder, Eos.remainingBytes, ByteCount.toU64, h1, Meet]
        · by_cases h2 : 2 ^ 63 ≤ sb.length + (b.length + r)
          · simp [remainingMemDecoder, remainingBytesDecoder, Eos.remainingBytes, ByteCount.toU64, h1, h2, Meet]
          · simp [remainingMemDecoder, remainingBytesDecoder, Eos.remainingBytes, ByteCount.toU64, h1, h2, Meet]
      | infinite => exact ⟨rfl, rfl, rfl⟩
      | unknown => exact ⟨rfl, rfl, rfl⟩
  finish := by
    rintro ⟨sb, se, sc⟩ ⟨tb, te⟩ ⟨h1, h2⟩
    simp only at h1 h2
    subst h1 h2
    simp only [remainingMemDecoder, remainingBytesDecoder]
    split <;> exact ⟨rfl, rfl, rfl⟩

/-- What a `decode` call does to the memory. -/
theorem mem_decode (s : RemainingMem) (b : Bytes) (e : Eos) :
    (s.eos = true ∧ remainingMemDecoder.decode s b e = (.ok 0, s)) ∨
    (s.eos = false ∧ (∃ r, e.remaining = .finite r ∧ 2 ^ 64 ≤ b.length + r) ∧
      remainingMemDecoder.decode s b e = (.panic, s)) ∨
    (s.eos = false ∧ (∃ r, e.remaining = .finite r ∧ 2 ^ 63 ≤ s.buf.length + (b.length + r)) ∧
      remainingMemDecoder.decode s b e = (.capacity, s)) ∨
    (s.eos = false ∧ (∃ r, e.remaining = .finite r ∧ remainingMemDecoder.decode s b e =
      (.ok b.length, ⟨s.buf ++ b, e.isReached,
        growAmortized (growExact s.cap s.buf.length (b.length + r)) s.buf.length b.length⟩))) ∨
    (s.eos = false ∧ (∀ r, e.remaining ≠ .finite r) ∧ remainingMemDecoder.decode s b e =
      (.ok b.length, ⟨s.buf ++ b, e.isReached, growAmortized s.cap s.buf.length b.length⟩)) := by
  obtain ⟨sb, se, sc⟩ := s
  obtain ⟨c⟩ := e
  cases se with
  | true => exact .inl ⟨rfl, rfl⟩
  | false =>
    right
    cases c with
    | finite r =>
      simp only [remainingMemDecoder, Eos.remainingBytes, ByteCount.toU64, if_neg (Bool.false_ne_true)]
      by_cases h1 : 2 ^ 64 ≤ b.length + r
      · exact .inl ⟨trivial, ⟨r, rfl, h1⟩, by rw [if_pos h1]⟩
      · right
        by_cases h2 : 2 ^ 63 ≤ sb.length + (b.length + r)
        · exact .inl ⟨trivial, ⟨r, rfl, h2⟩, by rw [if_neg h1, if_pos h2]⟩
        · exact .inr (.inl ⟨trivial, r, rfl, by rw [if_neg h1, if_neg h2]⟩)
    | infinite => exact .inr (.inr (.inr ⟨rfl, by simp, rfl⟩))
    | unknown => exact .inr (.inr (.inr ⟨rfl, by simp, rfl⟩))

theorem growExact_le (cap len add m : Nat) (h1 : cap ≤ m) (h2 : len + add ≤ m) : growExact cap len add ≤ m := by
  simp only [growExact]; split <;> omega

theorem growAmortized_le (cap len add m : Nat) (h1 : cap ≤ max 8 (2 * m)) (h2 : len + add ≤ m) :
    growAmortized cap len add ≤ max 8 (2 * m) := by
  simp only [growAmortized]; split <;> omega

/-- The capacity after a call is bounded by what has been received and is announced. -/
theorem mem_cap {s s' : RemainingMem} {b : Bytes} {e : Eos} {r : Res Nat} {M : Nat}
    (hd : remainingMemDecoder.decode s b e = (r, s')) (hM : s.buf.length + b.length + announced e ≤ M)
    (hc : s.cap ≤ max 8 (2 * M)) : s'.cap ≤ max 8 (2 * M) := by
  rcases mem_decode s b e with ⟨_, h⟩ | ⟨_, _, h⟩ | ⟨_, _, h⟩ | ⟨_, k, hk, h⟩ | ⟨_, _, h⟩ <;> rw [h] at hd <;> cases hd
  · exact hc
  · exact hc
  · exact hc
  · simp only [announced, hk] at hM
    exact growAmortized_le _ _ _ _ (growExact_le _ _ _ _ hc (by omega)) (by omega)
  · exact growAmortized_le _ _ _ _ hc (by omega)

theorem offered_length {P : Nat → Bytes → Eos → Prop} {s : RemainingMem} {c : Nat}
    (h : Offered P remainingMemDecoder .new s c) : s.buf.length = c := by
  induction h with
  | new => rfl
  | @decoded s s' c n b e _ _ hd ih =>
    rcases mem_decode s b e with ⟨_, h⟩ | ⟨_, _, h⟩ | ⟨_, _, h⟩ | ⟨_, k, hk, h⟩ | ⟨_, _, h⟩ <;> rw [h] at hd <;> cases hd
    · exact ih
    · simp [ih]
    · simp [ih]
  | @failed s s' c b e r _ _ hd hn ih =>
    rcases mem_decode s b e with ⟨_, h⟩ | ⟨_, _, h⟩ | ⟨_, _, h⟩ | ⟨_, k, hk, h⟩ | ⟨_, _, h⟩ <;> rw [h] at hd <;> cases hd
    · exact ih
    · exact ih
    · exact ih
    · exact (hn _ rfl).elim
    · exact (hn _ rfl).elim
  | item _ hf =>
    simp only [remainingMemDecoder] at hf
    split at hf <;> cases hf
    rfl
  | refused _ hf hn ih =>
    simp only [remainingMemDecoder] at hf
    split at hf <;> cases hf
    · exact (hn _ rfl).elim
    · exact ih

theorem mem_finish (s : RemainingMem) :
    (s.eos = true ∧ remainingMemDecoder.finish s = (.ok s.buf, .new)) ∨
    (s.eos = false ∧ remainingMemDecoder.finish s = (.err .incompleteDecoding, s)) := by
  obtain ⟨b, e, c⟩ := s
  cases e
  · exact .inr ⟨rfl, rfl⟩
  · exact .inl ⟨rfl, rfl⟩

end Bytecodec
