import Verif.Lemmas.Idle
/-!
# Lemmas for C09: a truncated item is noticed at the latest when there are no more bytes
-/
namespace Bytecodec

open Spec

variable {σ α : Type}

theorem Spec.EosStrict.atLast {D : Decoder σ α} {s₀ : σ} (h : EosStrict D s₀) : EosStrictAtLast D s₀ :=
  fun s hs n s' hd => h s hs [] n s' (by decide) hd

theorem tryDecode_last {D : Decoder σ α} {s₀ s : σ} {off : Nat} (h : EosStrictAtLast D s₀) (hr : Reach D s₀ s)
    {n : Nat} {s' : σ} : tryDecode D s off [] (Eos.new true) ≠ .ret (.ok n) s' := by
  intro ht
  unfold tryDecode at ht
  split at ht
  · cases ht
  · split at ht
    · cases ht
    · split at ht
      · next hd =>
        rw [List.drop_nil] at hd
        have := h s hr _ _ hd
        simp [this] at ht
      all_goals cases ht

theorem last_mapErr {D : Decoder σ α} {s₀ : σ} (f : ErrorKind → ErrorKind) (h : EosStrictAtLast D s₀) :
    EosStrictAtLast (mapErrDecoder D f) s₀ := by
  intro s hs n s' hd
  simp only [mapErrDecoder, Prod.mk.injEq] at hd
  exact h s (reach_mapErr hs) n s' (Prod.ext (mapErr_ok hd.1) hd.2)

theorem last_omit {D : Decoder σ α} {s₀ : OmitState σ} (h : EosStrictAtLast D s₀.inner) :
    EosStrictAtLast (omittableDecoder D) s₀ := by
  intro s hs n s' hd
  simp only [omittableDecoder] at hd ⊢
  split at hd
  · next h => cases hd; simp [h]
  · obtain ⟨a, t, h1, h2⟩ := step_ok hd
    cases h2
    simp [h _ (reach_omit hs).1 n t h1]

theorem last_maxBytes {D : Decoder σ α} {s₀ : MaxBytesState σ} (h : EosStrictAtLast D s₀.inner) :
    EosStrictAtLast (maxBytesDecoder D) s₀ := by
  intro s hs m s' hd
  simp only [maxBytesDecoder] at hd ⊢
  (repeat' split at hd) <;> first
    | cases hd; done
    | (obtain ⟨a, t, h1, h2⟩ := step_ok hd
       cases h2
       exact h _ (reach_maxBytes hs).1 _ t h1)

theorem last_length {D : Decoder σ α} {s₀ : LengthState σ} (hr : s₀.remaining < 2 ^ 64) (hx : s₀.expected < 2 ^ 64)
    (h : EosStrictAtLast D s₀.inner) : EosStrictAtLast (lengthDecoder D) s₀ := by
  intro s hs m s' hd
  have hreach := (reach_length hr hx hs).1
  have h0 : (Eos.new true).remainingBytes.toU64 = some 0 := rfl
  simp only [lengthDecoder, h0, List.length_nil, Nat.zero_min, Nat.sub_zero, List.take_nil] at hd ⊢
  split at hd
  · cases hd
  · split at hd
    · cases hd
    · have hz : s.remaining = 0 := by omega
      obtain ⟨a, t, h1, h2⟩ := step_ok hd
      rw [hz] at h1
      split at h2
      · cases h2
      · cases h2; exact h _ hreach _ t h1

theorem last_peekable {D : Decoder σ α} {s₀ : PeekState σ α} (h : EosStrictAtLast D s₀.inner) :
    EosStrictAtLast (peekableDecoder D) s₀ := by
  intro s hs m s' hd
  simp only [peekableDecoder] at hd ⊢
  split at hd
  · obtain ⟨a, t, h1, h2⟩ := step_ok hd
    split at h2
    · obtain ⟨_, _, _, h3⟩ := step_ok h2
      cases h3; rfl
    · next hni => exact absurd (h _ (reach_peekable hs) _ t h1) hni
  · next hni => cases hd; cases hm : s.item <;> simp_all

theorem last_pair {σ0 α0 σ1 α1 : Type} {D0 : Decoder σ0 α0} {D1 : Decoder σ1 α1} {s0 : σ0} {s1 : σ1}
    (h0 : EosStrictAtLast D0 s0) (h1 : EosStrictAtLast D1 s1) : EosStrictAtLast (tupleDecoder2 D0 D1) (s0, s1) := by
  intro s hs n s' h
  have hr := reach_pair hs
  simp only [tupleDecoder2] at h ⊢
  split at h
  · next r t ht => cases h; exact absurd ht (tryDecode_last h0 hr.1)
  · next o t ht =>
    split at h
    · next r u hu => cases h; exact absurd hu (tryDecode_last h1 hr.2)
    · next o' u hu =>
      cases h
      simp only [tryDecode_next_idle ht, tryDecode_next_idle hu, Bool.and_self]

theorem last_andThen {σ0 α0 σ1 α1 : Type} {D0 : Decoder σ0 α0} {D1 : Decoder σ1 α1} {s0 : σ0}
    {f : α0 → σ1} (h0 : EosStrictAtLast D0 s0) (h1 : ∀ x, EosStrictAtLast D1 (f x)) :
    EosStrictAtLast (andThenDecoder D0 D1 f) (s0, none) := by
  intro s hs n s' h
  have hr := reach_andThen hs
  simp only [andThenDecoder] at h ⊢
  split at h
  · next t ht =>
    obtain ⟨x, hx⟩ := hr.2 t ht
    split at h
    · next r u hu => cases h; exact absurd hu (tryDecode_last (h1 x) hx)
    · next o' u hu => cases h; exact tryDecode_next_idle hu
  · split at h
    · next r u hu => cases h; exact absurd hu (tryDecode_last h0 hr.1)
    · obtain ⟨x, t, _, h2⟩ := step_ok h
      split at h2
      · next r u hu => cases h2; exact absurd hu (tryDecode_last (h1 x) .refl)
      · next o' u hu => cases h2; exact tryDecode_next_idle hu

theorem last_collect {D : Decoder σ α} {s₀ : CollectState σ α} : EosStrictAtLast (collectDecoder D) s₀ := by
  intro s hs n s' hd
  simp only [collectDecoder, newTrue_reached, if_true] at hd ⊢
  split at hd
  · next h => cases hd; exact h
  · rw [collectLoop] at hd
    simp only [List.length_nil, Nat.lt_irrefl, if_false] at hd
    cases hd; rfl

theorem last_collectN {D : Decoder σ α} {s₀ : CollectNState σ α} : EosStrictAtLast (collectNDecoder D) s₀ := by
  intro s hs n s' hd
  have hl : collectNLoop D [] (Eos.new true) s.remaining 0 s.inner s.items = .done 0 s.inner s.items s.remaining := by
    cases s.remaining <;> simp [collectNLoop]
  simp only [collectNDecoder, newTrue_reached, hl] at hd ⊢
  split at hd
  · cases hd
  · next h => cases hd; simpa using h

theorem last_captured {ε : Type} {F : ε → Decoder σ α} {x : ε} {s₀ : σ} (h : EosStrictAtLast (F x) s₀) :
    EosStrictAtLast (capturedDecoder F) (x, s₀) := by
  intro t ht n t' hd
  obtain ⟨s, rfl, hs⟩ := reach_captured ht
  obtain ⟨hd, rfl⟩ := captured_decode.1 hd
  exact h s hs n t'.2 hd

theorem parts_last {own : OwnDecoder} {ok : Shape → Prop} (hs : ¬ ok .slice) (hm : ¬ ok .maybeEos)
    {D : Decoder σ α} {s : σ} (hP : ∀ σ α (D : Decoder σ α) s, own σ α D s → EosStrictAtLast D s)
    (h : AssembledWith own ok D s) : EosStrictAtLast D s := by
  induction h with
  | own h => exact hP _ _ _ _ h
  | copyable b _ => exact eos_copyable.atLast
  | bytes b _ => exact eos_bytes.atLast
  | remaining => exact eos_remaining.atLast
  | null => intro s _ n s' h; rfl
  | padding b _ => exact eos_padding.atLast
  | number f k _ => intro s hs; exact eos_copyable.atLast s (reach_fix hs)
  | utf8 _ _ ih => intro s hs; exact ih s (reach_utf8 hs)
  | monolithic p ho hp => exact (eos_monolithic p).atLast
  | map f _ _ ih => intro s hs; exact ih s (reach_map hs)
  | tryMap f _ _ ih => intro s hs; exact ih s (reach_tryMap hs)
  | mapErr f _ _ ih => exact last_mapErr f ih
  | omittable d _ _ ih => exact last_omit ih
  | length n h hn _ ih => exact last_length hn hn ih
  | maxBytes n _ _ ih => exact last_maxBytes ih
  | slice n h _ ih => exact absurd h hs
  | peekable _ _ ih => exact last_peekable ih
  | maybeEos h _ ih => exact absurd h hm
  | collect _ hp _ ih => exact last_collect
  | collectN n _ _ ih => exact last_collectN
  | pair _ _ _ ih0 ih1 => exact last_pair ih0 ih1
  | andThen f _ _ _ ih0 ih1 => exact last_andThen ih0 ih1
  | captured F x _ ih => exact last_captured ih

end Bytecodec
