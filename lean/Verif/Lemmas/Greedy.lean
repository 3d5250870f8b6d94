import Verif.Lemmas.Idle
import Verif.Spec.Greedy
/-!
# Decoders that take everything they are given until the item is complete
-/
set_option linter.unusedSimpArgs false

namespace Bytecodec

open Spec

variable {σ α β : Type}

theorem greedy_copyable (b : Bytes) : Greedy copyableBytesDecoder (.new b) := by
  intro s hs b e n s' he hd hi
  simp only [copyableBytesDecoder] at hd hi
  split at hd
  · cases hd
  · next hle =>
    have hl := splice_length (buf := s.bytes) (off := s.offset)
      (src := b.take (min b.length (s.bytes.length - s.offset))) (by simp; omega)
    split at hd
    · cases hd
    · cases hd
      simp only [hl, beq_eq_false_iff_ne, ne_eq] at hi
      omega

theorem greedy_bytes (b : Bytes) : Greedy bytesDecoder (.new b) := by
  intro s hs b e n s' he hd hi
  simp only [bytesDecoder] at hd hi
  split at hd
  · cases hd
  · next c hc =>
    split at hd
    · cases hd
    · have hl := splice_length (buf := c) (off := s.offset)
        (src := b.take (min b.length (c.length - s.offset))) (by simp; omega)
      split at hd
      · cases hd
      · cases hd
        simp only [BytesDecoderState.exact, hl, beq_eq_false_iff_ne, ne_eq] at hi
        omega

theorem greedy_remaining : Greedy remainingBytesDecoder .new := by
  intro s hs b e n s' he hd hi
  simp only [remainingBytesDecoder] at hd hi
  (repeat' split at hd) <;> cases hd
  · simp_all
  · rfl
  · rfl

theorem greedy_padding (b : Option UInt8) : Greedy paddingDecoder (.new b) := by
  intro s hs b e n s' he hd hi
  simp only [paddingDecoder] at hd hi
  (repeat' split at hd) <;> cases hd
  · simp_all
  · rfl
  · rfl

theorem greedy_monolithic (p : MonolithicParser α) : Greedy (monolithicDecoder p) .new := by
  intro s hs b e n s' he hd hi
  simp only [monolithicDecoder] at hd hi
  (repeat' split at hd) <;> cases hd
  · simp at hi
  · rfl

theorem greedy_mapErr {D : Decoder σ α} {s₀ : σ} (f : ErrorKind → ErrorKind) (h : Greedy D s₀) :
    Greedy (mapErrDecoder D f) s₀ := by
  intro s hs b e n s' he hd hi
  simp only [mapErrDecoder, Prod.mk.injEq] at hd
  exact h s (reach_mapErr hs) b e n s' he (Prod.ext (mapErr_ok hd.1) hd.2) hi

theorem greedy_omit {D : Decoder σ α} {s₀ : σ} (d : Bool) (h : Greedy D s₀) :
    Greedy (omittableDecoder D) ⟨s₀, d⟩ := by
  intro s hs b e n s' he hd hi
  simp only [omittableDecoder] at hd hi
  split at hd
  · cases hd; simp_all
  · obtain ⟨a, t, h1, h2⟩ := step_ok hd
    cases h2
    simp only [Bool.or_eq_false_iff] at hi
    exact h _ (reach_omit hs).1 b e _ t he h1 hi.2

theorem greedy_length {D : Decoder σ α} {s₀ : σ} {k : Nat} (hk : k < 2 ^ 64) (h : Greedy D s₀)
    (hx : EosStrict D s₀) : Greedy (lengthDecoder D) (.new s₀ k) := by
  intro s hs b e n s' he hd hi
  have hr := reach_length (s₀ := .new s₀ k) hk hk hs
  have go : ∀ {t : LengthState σ},
      Res.step (D.decode s.inner (b.take (min b.length s.remaining))
          (Eos.withRemainingBytes (.finite (s.remaining - min b.length s.remaining))))
        (fun i => { s with inner := i }) (fun size i =>
          if s.remaining < size then (.panic, { s with inner := i })
          else (.ok size, { s with inner := i, remaining := s.remaining - size })) = (Res.ok n, t) →
      D.isIdle t.inner = false → n = b.length := by
    intro t hg hi
    obtain ⟨a, u, h1, h2⟩ := step_ok hg
    split at h2
    · cases h2
    · cases h2
      by_cases hle : b.length ≤ s.remaining
      · have := h _ hr.1 _ _ _ _ (by
          intro m hm; simp [Eos.withRemainingBytes] at hm; have := hr.2.1; simp; omega) h1 hi
        simp at this
        omega
      · have he' : (Eos.withRemainingBytes (.finite (s.remaining - min b.length s.remaining)))
            = Eos.new true := by
          rw [Nat.min_eq_right (by omega), Nat.sub_self]; rfl
        rw [he'] at h1
        have := hx _ hr.1 _ _ _ (by have := hr.2.1; simp; omega) h1
        simp_all
  simp only [lengthDecoder] at hd hi
  (repeat' split at hd) <;> first
    | cases hd; done
    | exact go hd hi

theorem greedy_maxBytes {D : Decoder σ α} {s₀ : σ} {k : Nat} (h : Greedy D s₀) :
    Greedy (maxBytesDecoder D) (.new s₀ k) := by
  intro s hs b e m s' he hd hi
  simp only [maxBytesDecoder] at hd hi
  (repeat' split at hd) <;> first
    | cases hd; done
    | (obtain ⟨a, t, h1, h2⟩ := step_ok hd
       cases h2
       exact h _ (reach_maxBytes hs).1 b _ _ t he h1 hi)

theorem greedy_slice {D : Decoder σ α} {s₀ : σ} {k : Nat} (h : Greedy D s₀) :
    GreedyUnlessSuspended (sliceDecoder D) ⟨s₀, k⟩ := by
  intro s hs b e m s' he hd hi
  simp only [sliceDecoder] at hd hi
  split at hd
  · next e' hb =>
    obtain ⟨a, t, h1, h2⟩ := step_ok hd
    split at h2
    · cases h2
    · cases h2
      have := h _ (reach_slice hs) _ _ _ t (by
        refine back_sane (k := b.length - min b.length s.consumable) hb (he.mono ?_)
        simp; omega) h1 hi
      simp only [List.length_take] at this
      simp only [SliceState.isSuspended, beq_iff_eq]
      omega
  · cases hd

theorem greedy_peekable {D : Decoder σ α} {s₀ : σ} (h : Greedy D s₀) :
    Greedy (peekableDecoder D) ⟨s₀, none⟩ := by
  intro s hs b e m s' he hd hi
  simp only [peekableDecoder] at hd hi
  split at hd
  · obtain ⟨a, t, h1, h2⟩ := step_ok hd
    split at h2
    · obtain ⟨_, _, _, h3⟩ := step_ok h2
      cases h3; simp at hi
    · next hni =>
      cases h2
      exact h _ (reach_peekable hs) b e _ t he h1 (by simpa using hni)
  · next hni => cases hd; cases hm : s.item <;> simp_all

theorem greedy_maybeEos {D : Decoder σ α} {s₀ : σ} (h : Greedy D s₀) :
    Greedy (maybeEosDecoder D) (.new s₀) := by
  intro s hs b e m s' he hd hi
  simp only [maybeEosDecoder] at hd hi
  obtain ⟨a, t, h1, h2⟩ := step_ok hd
  cases h2
  refine h _ (reach_maybeEos hs) b _ _ t ?_ h1 hi
  split
  · exact EosSane.newFalse
  · exact he

theorem tryDecode_greedy {D : Decoder σ α} {s₀ s : σ} {off : Nat} {buf : Bytes} {e : Eos}
    (h : Greedy D s₀) (hr : Reach D s₀ s) (he : EosSane e buf.length) {n : Nat} {s' : σ}
    (ht : tryDecode D s off buf e = .ret (.ok n) s') : n = buf.length ∧ D.isIdle s' = false := by
  unfold tryDecode at ht
  split at ht
  · cases ht
  · split at ht
    · cases ht
    · split at ht
      · next hd =>
        split at ht
        · cases ht
        · next hi =>
          cases ht
          have hi' : D.isIdle s' = false := by simpa using hi
          have := h s hr _ _ _ _ he.drop hd hi'
          simp only [List.length_drop] at this
          exact ⟨by omega, hi'⟩
      all_goals cases ht

theorem greedy_pair {σ0 α0 σ1 α1 : Type} {D0 : Decoder σ0 α0} {D1 : Decoder σ1 α1} {s0 : σ0} {s1 : σ1}
    (h0 : Greedy D0 s0) (h1 : Greedy D1 s1) : Greedy (tupleDecoder2 D0 D1) (s0, s1) := by
  intro s hs b e n s' he hd hi
  have hr := reach_pair hs
  simp only [tupleDecoder2] at hd hi
  split at hd
  · next r t ht => cases hd; exact (tryDecode_greedy h0 hr.1 he ht).1
  · next o t ht =>
    split at hd
    · next r u hu => cases hd; exact (tryDecode_greedy h1 hr.2 he hu).1
    · next o' u hu =>
      cases hd
      simp [tryDecode_next_idle ht, tryDecode_next_idle hu] at hi

theorem greedy_andThen {σ0 α0 σ1 α1 : Type} {D0 : Decoder σ0 α0} {D1 : Decoder σ1 α1} {s0 : σ0}
    {f : α0 → σ1} (h0 : Greedy D0 s0) (h1 : ∀ x, Greedy D1 (f x)) :
    Greedy (andThenDecoder D0 D1 f) (s0, none) := by
  intro s hs b e n s' he hd hi
  have hr := reach_andThen hs
  simp only [andThenDecoder] at hd hi
  split at hd
  · next t ht =>
    obtain ⟨x, hx⟩ := hr.2 t ht
    split at hd
    · next r u hu => cases hd; exact (tryDecode_greedy (h1 x) hx he hu).1
    · next o' u hu => cases hd; simp [tryDecode_next_idle hu] at hi
  · split at hd
    · next r u hu => cases hd; exact (tryDecode_greedy h0 hr.1 he hu).1
    · obtain ⟨x, t, _, h2⟩ := step_ok hd
      split at h2
      · next r u hu => cases h2; exact (tryDecode_greedy (h1 x) .refl he hu).1
      · next o' u hu => cases h2; simp [tryDecode_next_idle hu] at hi

theorem collectLoop_greedy {D : Decoder σ α} {s₀ : σ} {buf : Bytes} {e : Eos} (h : Greedy D s₀)
    (he : EosSane e buf.length) : ∀ off s items x, collectLoop D buf e off s items = some x →
      ReachItem D s₀ s → ∀ n t i, x = .ret (.ok n) t i → n = buf.length := by
  apply collectLoop.partial_correctness D buf e
    (motive := fun _ s _ x => ReachItem D s₀ s → ∀ n t i, x = .ret (.ok n) t i → n = buf.length)
  intro loop ih off s items x heq hr n t i
  have ht := tryDecode_reachItem (off := off) hr he
  split at heq
  · split at heq
    · next hret => cases heq; rintro ⟨⟩; exact (tryDecode_greedy h hr.reach he hret).1
    · next o s' hnext =>
      have hf := ht.1 _ _ hnext
      split at heq <;> rename_i hfin <;> rw [hfin] at hf
      · exact ih _ _ _ _ heq hf n t i
      all_goals (cases heq; rintro ⟨⟩)
  · cases heq; rintro ⟨⟩

theorem greedy_collect {D : Decoder σ α} {s₀ : σ} (hp : Productive D s₀) (hs₀ : SafeFrom D s₀)
    (h : Greedy D s₀) : Greedy (collectDecoder D) ⟨s₀, [], false⟩ := by
  intro s hs b e n s' he hd hi
  have hr := reach_collect hs
  obtain ⟨x, hx, hx'⟩ := collectLoop_safe hs₀ hp he _ 0 s.inner s.items (Nat.le_refl _) hr (by omega)
  simp only [collectDecoder, hx] at hd hi
  split at hd
  · cases hd; simp_all
  · cases x with
    | done o i items => simp only at hx'; cases hd; exact hx'
    | ret r i items => cases hd; exact collectLoop_greedy h he _ _ _ _ hx hr _ _ _ rfl

theorem collectNLoop_greedy {D : Decoder σ α} {s₀ : σ} {buf : Bytes} {e : Eos} (hs₀ : SafeFrom D s₀)
    (h : Greedy D s₀) (he : EosSane e buf.length) : ∀ n off s items, ReachItem D s₀ s →
      off ≤ buf.length →
      (∀ m t i k, collectNLoop D buf e n off s items = .ret (.ok m) t i k → m = buf.length) ∧
      (∀ m t i k, collectNLoop D buf e n off s items = .done m t i k → k ≠ 0 → m = buf.length) := by
  intro n
  induction n with
  | zero =>
    intro off s items hr ho
    refine ⟨by simp [collectNLoop], ?_⟩
    intro m t i k heq hk
    simp only [collectNLoop] at heq
    cases heq
    exact absurd rfl hk
  | succ n ih =>
    intro off s items hr ho
    have hri := tryDecode_reachItem (off := off) hr he
    have ht := tryDecode_safe hs₀ hr.reach he ho
    simp only [collectNLoop]
    split
    · split
      · next hret =>
        refine ⟨?_, by simp⟩
        rintro m t i k ⟨⟩
        exact (tryDecode_greedy h hr.reach he hret).1
      · next o s' hnext =>
        have hf := hri.1 _ _ hnext
        have ho' := ht.1 _ _ hnext
        split <;> rename_i hfin <;> rw [hfin] at hf
        · exact ih _ _ _ hf ho'.2
        all_goals exact ⟨by simp, by simp⟩
    · refine ⟨by simp, ?_⟩
      rintro m t i k ⟨⟩ _
      omega

theorem greedy_collectN {D : Decoder σ α} {s₀ : σ} {k : Nat} (hs₀ : SafeFrom D s₀) (h : Greedy D s₀) :
    Greedy (collectNDecoder D) (.new s₀ k) := by
  intro s hs b e n s' he hd hi
  have hr := reach_collectN hs
  have hg := collectNLoop_greedy hs₀ h he s.remaining 0 s.inner s.items hr (by omega)
  simp only [collectNDecoder] at hd hi
  split at hd
  · next hl => cases hd; exact hg.1 _ _ _ _ hl
  · next hl =>
    split at hd
    · cases hd
    · cases hd
      exact hg.2 _ _ _ _ hl (by simpa using hi)

theorem greedy_captured {ε : Type} {F : ε → Decoder σ α} {x : ε} {s : σ} (h : Greedy (F x) s) :
    Greedy (capturedDecoder F) (x, s) := by
  intro t ht b e n s' he hd hi
  obtain ⟨s, rfl, hs⟩ := reach_captured ht
  obtain ⟨hd, rfl⟩ := captured_decode.1 hd
  exact h s hs b e n s'.2 he hd hi

theorem parts_greedy {own : OwnDecoder} {ok : Shape → Prop} (hl : ¬ ok .length) (hs : ¬ ok .slice)
    {D : Decoder σ α} {s : σ} (hP : ∀ σ α (D : Decoder σ α) s, own σ α D s → SafeFrom D s ∧ Greedy D s)
    (h : AssembledWith own ok D s) : Greedy D s := by
  induction h with
  | own h => exact (hP _ _ _ _ h).2
  | copyable b _ => exact greedy_copyable b
  | bytes b _ => exact greedy_bytes b
  | remaining => exact greedy_remaining
  | null => intro s _ b e n s' _ _ h; cases h
  | padding b _ => exact greedy_padding b
  | number f k _ => intro s hs; exact greedy_copyable _ s (reach_fix hs)
  | utf8 _ _ ih => intro s hs; exact ih s (reach_utf8 hs)
  | monolithic p ho hp => exact greedy_monolithic p
  | map f _ _ ih => intro s hs; exact ih s (reach_map hs)
  | tryMap f _ _ ih => intro s hs; exact ih s (reach_tryMap hs)
  | mapErr f _ _ ih => exact greedy_mapErr f ih
  | omittable d _ _ ih => exact greedy_omit d ih
  | length n h hn _ ih => exact absurd h hl
  | maxBytes n _ _ ih => exact greedy_maxBytes ih
  | slice n h _ ih => exact absurd h hs
  | peekable _ _ ih => exact greedy_peekable ih
  | maybeEos h _ ih => exact greedy_maybeEos ih
  | collect _ hp h ih => exact greedy_collect hp (parts_safe (fun _ _ _ _ h => (hP _ _ _ _ h).1) h) ih
  | collectN n _ h ih => exact greedy_collectN (parts_safe (fun _ _ _ _ h => (hP _ _ _ _ h).1) h) ih
  | pair _ _ _ ih0 ih1 => exact greedy_pair ih0 ih1
  | andThen f _ _ _ ih0 ih1 => exact greedy_andThen ih0 ih1
  | captured F x _ ih => exact greedy_captured ih

theorem assembled_greedy {ok : Shape → Prop} (hl : ¬ ok .length) (hs : ¬ ok .slice)
    {D : Decoder σ α} {s : σ} (h : Assembled ok D s) : Greedy D s :=
  parts_greedy hl hs (fun _ _ _ _ h => h.elim) h

theorem framedParts_greedy {own : OwnDecoder}
    (hP : ∀ σ α (D : Decoder σ α) s, own σ α D s → SafeFrom D s ∧ Greedy D s ∧ EosStrict D s)
    {D : Decoder σ α} {s : σ} (h : FramedWith own D s) : SafeFrom D s ∧ Greedy D s := by
  have h1 := fun σ α (D : Decoder σ α) s h => (hP σ α D s h).1
  have h2 := fun σ α (D : Decoder σ α) s h => And.intro (hP σ α D s h).1 (hP σ α D s h).2.1
  have h3 := fun σ α (D : Decoder σ α) s h => (hP σ α D s h).2.2
  induction h with
  | plain h => exact ⟨parts_safe h1 h, parts_greedy (by simp) (by simp) h2 h⟩
  | frame n hn h =>
    exact ⟨safe_length hn (parts_safe h1 h), greedy_length hn (parts_greedy (by simp) (by simp) h2 h)
      (parts_eos (by simp) (by simp) (by simp) h3 h)⟩
  | utf8 _ ih => exact ⟨safe_utf8 ih.1, fun s hs => ih.2 s (reach_utf8 hs)⟩
  | map f _ ih => exact ⟨safe_map f ih.1, fun s hs => ih.2 s (reach_map hs)⟩
  | tryMap f _ ih => exact ⟨safe_tryMap f ih.1, fun s hs => ih.2 s (reach_tryMap hs)⟩
  | mapErr f _ ih => exact ⟨safe_mapErr f ih.1, greedy_mapErr f ih.2⟩
  | omittable d _ ih => exact ⟨safe_omit ih.1, greedy_omit d ih.2⟩
  | maxBytes n _ ih => exact ⟨safe_maxBytes ih.1, greedy_maxBytes ih.2⟩
  | peekable _ ih => exact ⟨safe_peekable ih.1, greedy_peekable ih.2⟩
  | maybeEos _ ih => exact ⟨safe_maybeEos ih.1, greedy_maybeEos ih.2⟩
  | collect hp _ ih => exact ⟨safe_collect hp ih.1, greedy_collect hp ih.1 ih.2⟩
  | collectN n _ ih => exact ⟨safe_collectN ih.1, greedy_collectN ih.1 ih.2⟩
  | pair _ _ ih0 ih1 => exact ⟨safe_pair ih0.1 ih1.1, greedy_pair ih0.2 ih1.2⟩
  | andThen f _ _ ih0 ih1 =>
    exact ⟨safe_andThen ih0.1 fun x => (ih1 x).1, greedy_andThen ih0.2 fun x => (ih1 x).2⟩
  | captured F x _ ih => exact ⟨safe_captured ih.1, greedy_captured ih.2⟩

theorem framed_greedy {D : Decoder σ α} {s : σ} (h : Framed D s) : SafeFrom D s ∧ Greedy D s :=
  framedParts_greedy (fun _ _ _ _ h => h.elim) h

end Bytecodec
