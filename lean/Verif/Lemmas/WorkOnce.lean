import Verif.Lemmas.Work
/-!
# Combinators without a loop call the inner codec at most once
-/
namespace Bytecodec

open Spec

variable {σ α β ρ ω τ κ : Type}

theorem tryDecode_calls (D : Decoder σ α) (s : σ × DecCalls) (off : Nat) (buf : Bytes) (e : Eos) :
    (∀ o t, tryDecode (countedDecoder D) s off buf e = .next o t →
      t.2.decodes ≤ s.2.decodes + 1 ∧ t.2.finishes = s.2.finishes) ∧
    (∀ r t, tryDecode (countedDecoder D) s off buf e = .ret r t →
      t.2.decodes ≤ s.2.decodes + 1 ∧ t.2.finishes = s.2.finishes) := by
  obtain ⟨s, c⟩ := s
  rw [tryDecode_counted]
  constructor
  · intro o t h
    split at h
    · cases h; simp only; split <;> simp
    · cases h
  · intro o t h
    split at h
    · cases h
    · cases h; simp only; split <;> simp

theorem once_map (D : Decoder σ α) (f : α → β) : AtMostOnce (mapDecoder (countedDecoder D) f) (·.2) := by
  constructor
  · intro s b e
    simp [mapDecoder, countedDecoder]
  · intro s
    simp only [mapDecoder, countedDecoder]
    cases (D.finish s.1).1 <;> simp [Res.step]

theorem once_tryMap (D : Decoder σ α) (f : α → Except ErrorKind β) :
    AtMostOnce (tryMapDecoder (countedDecoder D) f) (·.2) := by
  constructor
  · intro s b e
    simp [tryMapDecoder, countedDecoder]
  · intro s
    simp only [tryMapDecoder, countedDecoder]
    cases (D.finish s.1).1 <;> simp only [Res.step] <;> (try split) <;> simp

theorem once_mapErr (D : Decoder σ α) (f : ErrorKind → ErrorKind) :
    AtMostOnce (mapErrDecoder (countedDecoder D) f) (·.2) := by
  constructor
  · intro s b e
    simp [mapErrDecoder, countedDecoder]
  · intro s
    simp [mapErrDecoder, countedDecoder]

theorem once_omit (D : Decoder σ α) : AtMostOnce (omittableDecoder (countedDecoder D)) (·.inner.2) := by
  constructor
  · intro s b e
    simp only [omittableDecoder]
    split
    · simp
    · simp only [countedDecoder]
      cases (D.decode s.inner.1 b e).1 <;> simp [Res.step]
  · intro s
    simp only [omittableDecoder]
    split
    · simp
    · simp only [countedDecoder]
      cases (D.finish s.inner.1).1 <;> simp [Res.step]

theorem once_length (D : Decoder σ α) : AtMostOnce (lengthDecoder (countedDecoder D)) (·.inner.2) := by
  constructor
  · intro s b e
    have go : ∀ (x : Res Nat × LengthState (σ × DecCalls)),
        x = (Res.step ((countedDecoder D).decode s.inner (b.take (min b.length s.remaining))
          (Eos.withRemainingBytes (.finite (s.remaining - min b.length s.remaining))))
          (fun i => ({ s with inner := i } : LengthState (σ × DecCalls))) fun size i =>
            if s.remaining < size then (.panic, { s with inner := i })
            else (.ok size, { s with inner := i, remaining := s.remaining - size })) →
        x.2.inner.2.decodes ≤ s.inner.2.decodes + 1 ∧ x.2.inner.2.finishes ≤ s.inner.2.finishes + 1 := by
      rintro x rfl
      simp only [countedDecoder]
      cases (D.decode s.inner.1 (b.take (min b.length s.remaining))
        (Eos.withRemainingBytes (.finite (s.remaining - min b.length s.remaining)))).1 <;> simp only [Res.step] <;>
        (try split) <;> simp
    simp only [lengthDecoder]
    split
    · split
      · simp
      · split
        · simp
        · exact go _ rfl
    · exact go _ rfl
  · intro s
    simp only [lengthDecoder]
    split
    · simp only [countedDecoder]
      cases (D.finish s.inner.1).1 <;> simp [Res.step]
    · simp

theorem once_maxBytes (D : Decoder σ α) : AtMostOnce (maxBytesDecoder (countedDecoder D)) (·.inner.2) := by
  constructor
  · intro s b e
    have go : ∀ (x : Res Nat × MaxBytesState (σ × DecCalls)),
        x = (Res.step ((countedDecoder D).decode s.inner b e)
          (fun i => ({ s with inner := i } : MaxBytesState (σ × DecCalls))) fun size i =>
            (.ok size, { s with inner := i, consumed := s.consumed + size })) →
        x.2.inner.2.decodes ≤ s.inner.2.decodes + 1 ∧ x.2.inner.2.finishes ≤ s.inner.2.finishes + 1 := by
      rintro x rfl
      simp only [countedDecoder]
      cases (D.decode s.inner.1 b e).1 <;> simp [Res.step]
    simp only [maxBytesDecoder]
    split
    · simp
    · split
      · simp
      · split
        · exact go _ rfl
        · simp
    · split
      · simp
      · split
        · simp
        · split
          · exact go _ rfl
          · simp
  · intro s
    simp only [maxBytesDecoder, countedDecoder]
    cases (D.finish s.inner.1).1 <;> simp [Res.step]

theorem once_slice (D : Decoder σ α) : AtMostOnce (sliceDecoder (countedDecoder D)) (·.inner.2) := by
  constructor
  · intro s b e
    simp only [sliceDecoder]
    split
    · next e' _ =>
      simp only [countedDecoder]
      cases (D.decode s.inner.1 (b.take (min b.length s.consumable)) e').1 <;> simp only [Res.step] <;>
        (try split) <;> simp
    · simp
  · intro s
    simp only [sliceDecoder, countedDecoder]
    cases (D.finish s.inner.1).1 <;> simp [Res.step]

theorem once_peekable (D : Decoder σ α) : AtMostOnce (peekableDecoder (countedDecoder D)) (·.inner.2) := by
  constructor
  · intro s b e
    have hd : (countedDecoder D).decode s.inner b e =
      ((D.decode s.inner.1 b e).1, (D.decode s.inner.1 b e).2, ⟨s.inner.2.decodes + 1, s.inner.2.finishes⟩) := rfl
    simp only [peekableDecoder, hd]
    split
    · rcases D.decode s.inner.1 b e with ⟨r, t⟩
      cases r with
      | ok n =>
        simp only [Res.step]
        have hf : (countedDecoder D).finish (t, ⟨s.inner.2.decodes + 1, s.inner.2.finishes⟩) =
          ((D.finish t).1, (D.finish t).2, ⟨s.inner.2.decodes + 1, s.inner.2.finishes + 1⟩) := rfl
        split
        · rw [hf]
          cases (D.finish t).1 <;> simp
        · simp
      | _ => simp [Res.step]
    · simp
  · intro s
    simp only [peekableDecoder]
    split <;> simp

theorem once_maybeEos (D : Decoder σ α) : AtMostOnce (maybeEosDecoder (countedDecoder D)) (·.inner.2) := by
  constructor
  · intro s b e
    simp only [maybeEosDecoder, countedDecoder]
    generalize (if (!s.started && b.isEmpty && e.isReached) = true then Eos.new false else e) = e'
    cases (D.decode s.inner.1 b e').1 <;> simp [Res.step]
  · intro s
    simp only [maybeEosDecoder, countedDecoder]
    cases (D.finish s.inner.1).1 <;> simp [Res.step]

theorem once_andThen_first {σ0 α0 σ1 α1 : Type} (D0 : Decoder σ0 α0) (D1 : Decoder σ1 α1) (f : α0 → σ1) :
    AtMostOnce (andThenDecoder (countedDecoder D0) D1 f) (·.1.2) := by
  constructor
  · rintro ⟨s0, o⟩ b e
    cases o with
    | some s1 =>
      simp only [andThenDecoder]
      split <;> simp
    | none =>
      simp only [andThenDecoder]
      have h := tryDecode_calls D0 s0 0 b e
      rcases hs : tryDecode (countedDecoder D0) s0 0 b e with ⟨o, t⟩ | ⟨r, t⟩
      · have := h.1 _ _ hs
        simp only [countedDecoder]
        cases (D0.finish t.1).1 <;> simp only [Res.step] <;> (try split) <;> (try simp only) <;> omega
      · have := h.2 _ _ hs
        simp only
        omega
  · rintro ⟨s0, o⟩
    cases o <;> simp [andThenDecoder]

/-- The second decoder of `and_then`, once it exists, is called at most once; a new one is called at most
once in the call that creates it. -/
theorem once_andThen_second {σ0 α0 σ1 α1 : Type} (D0 : Decoder σ0 α0) (D1 : Decoder σ1 α1) (f : α0 → σ1)
    (s : σ0 × Option (σ1 × DecCalls)) (b : Bytes) (e : Eos) (t : σ1 × DecCalls)
    (h : ((andThenDecoder D0 (countedDecoder D1) fun x => (f x, ⟨0, 0⟩)).decode s b e).2.2 = some t) :
    t.2.decodes ≤ (s.2.elim 0 (·.2.decodes)) + 1 ∧ t.2.finishes = s.2.elim 0 (·.2.finishes) := by
  obtain ⟨s0, o⟩ := s
  cases o with
  | some s1 =>
    simp only [andThenDecoder] at h
    have hc := tryDecode_calls D1 s1 0 b e
    split at h
    · next hs => cases h; exact hc.2 _ _ hs
    · next hs => cases h; exact hc.1 _ _ hs
  | none =>
    simp only [andThenDecoder] at h
    split at h
    · cases h
    · next o t0 _ =>
      rcases hf : D0.finish t0 with ⟨r, t1⟩
      rw [hf] at h
      cases r with
      | ok x =>
        simp only [Res.step] at h
        have hc := tryDecode_calls D1 (f x, ⟨0, 0⟩) o b e
        split at h
        · next hs => cases h; exact hc.2 _ _ hs
        · next hs => cases h; exact hc.1 _ _ hs
      | _ => cases h

theorem once_tuple2 {σ0 α0 σ1 α1 : Type} (D0 : Decoder σ0 α0) (D1 : Decoder σ1 α1) :
    AtMostOnce (tupleDecoder2 (countedDecoder D0) (countedDecoder D1)) (fun s => s.1.2) ∧
    AtMostOnce (tupleDecoder2 (countedDecoder D0) (countedDecoder D1)) (fun s => s.2.2) := by
  have hd : ∀ s b e, ((tupleDecoder2 (countedDecoder D0) (countedDecoder D1)).decode s b e).2.1.2.decodes ≤ s.1.2.decodes + 1 ∧ ((tupleDecoder2 (countedDecoder D0) (countedDecoder D1)).decode s b e).2.1.2.finishes ≤ s.1.2.finishes + 1 ∧
      ((tupleDecoder2 (countedDecoder D0) (countedDecoder D1)).decode s b e).2.2.2.decodes ≤ s.2.2.decodes + 1 ∧ ((tupleDecoder2 (countedDecoder D0) (countedDecoder D1)).decode s b e).2.2.2.finishes ≤ s.2.2.finishes + 1 := by
    intro s b e
    simp only [tupleDecoder2]
    have h0 := tryDecode_calls D0 s.1 0 b e
    rcases hs0 : tryDecode (countedDecoder D0) s.1 0 b e with ⟨o0, t0⟩ | ⟨r, t0⟩
    rotate_left
    · have := h0.2 _ _ hs0
      simp only
      omega
    replace h0 := h0.1 _ _ hs0
    simp only
    have h1 := tryDecode_calls D1 s.2 o0 b e
    rcases hs1 : tryDecode (countedDecoder D1) s.2 o0 b e with ⟨o1, t1⟩ | ⟨r, t1⟩
    rotate_left
    · have := h1.2 _ _ hs1
      simp only
      omega
    replace h1 := h1.1 _ _ hs1
    simp only
    omega
  have hf : ∀ s, ((tupleDecoder2 (countedDecoder D0) (countedDecoder D1)).finish s).2.1.2.decodes ≤ s.1.2.decodes ∧ ((tupleDecoder2 (countedDecoder D0) (countedDecoder D1)).finish s).2.1.2.finishes ≤ s.1.2.finishes + 1 ∧
      ((tupleDecoder2 (countedDecoder D0) (countedDecoder D1)).finish s).2.2.2.decodes ≤ s.2.2.decodes ∧ ((tupleDecoder2 (countedDecoder D0) (countedDecoder D1)).finish s).2.2.2.finishes ≤ s.2.2.finishes + 1 := by
    intro s
    simp only [tupleDecoder2, countedDecoder]
    rcases D0.finish s.1.1 with ⟨r0, t0⟩
    rcases r0 with x0 | _ | _ | _ | _
    rotate_left
    · simp only [Res.step]; omega
    · simp only [Res.step]; omega
    · simp only [Res.step]; omega
    · simp only [Res.step]; omega
    simp only [Res.step]
    rcases D1.finish s.2.1 with ⟨r1, t1⟩
    rcases r1 with x1 | _ | _ | _ | _
    rotate_left
    · simp only; omega
    · simp only; omega
    · simp only; omega
    · simp only; omega
    simp only
    omega
  simp only [AtMostOnce]
  refine ⟨⟨?_, ?_⟩, ⟨?_, ?_⟩⟩ <;>
    first
    | (intro s b e; have := hd s b e; omega)
    | (intro s; have := hf s; omega)

theorem once_tuple3 {σ0 α0 σ1 α1 σ2 α2 : Type} (D0 : Decoder σ0 α0) (D1 : Decoder σ1 α1) (D2 : Decoder σ2 α2) :
    AtMostOnce (tupleDecoder3 (countedDecoder D0) (countedDecoder D1) (countedDecoder D2)) (fun s => s.1.2) ∧
    AtMostOnce (tupleDecoder3 (countedDecoder D0) (countedDecoder D1) (countedDecoder D2)) (fun s => s.2.1.2) ∧
    AtMostOnce (tupleDecoder3 (countedDecoder D0) (countedDecoder D1) (countedDecoder D2)) (fun s => s.2.2.2) := by
  have hd : ∀ s b e, ((tupleDecoder3 (countedDecoder D0) (countedDecoder D1) (countedDecoder D2)).decode s b e).2.1.2.decodes ≤ s.1.2.decodes + 1 ∧ ((tupleDecoder3 (countedDecoder D0) (countedDecoder D1) (countedDecoder D2)).decode s b e).2.1.2.finishes ≤ s.1.2.finishes + 1 ∧
      ((tupleDecoder3 (countedDecoder D0) (countedDecoder D1) (countedDecoder D2)).decode s b e).2.2.1.2.decodes ≤ s.2.1.2.decodes + 1 ∧ ((tupleDecoder3 (countedDecoder D0) (countedDecoder D1) (countedDecoder D2)).decode s b e).2.2.1.2.finishes ≤ s.2.1.2.finishes + 1 ∧
      ((tupleDecoder3 (countedDecoder D0) (countedDecoder D1) (countedDecoder D2)).decode s b e).2.2.2.2.decodes ≤ s.2.2.2.decodes + 1 ∧ ((tupleDecoder3 (countedDecoder D0) (countedDecoder D1) (countedDecoder D2)).decode s b e).2.2.2.2.finishes ≤ s.2.2.2.finishes + 1 := by
    intro s b e
    simp only [tupleDecoder3]
    have h0 := tryDecode_calls D0 s.1 0 b e
    rcases hs0 : tryDecode (countedDecoder D0) s.1 0 b e with ⟨o0, t0⟩ | ⟨r, t0⟩
    rotate_left
    · have := h0.2 _ _ hs0
      simp only
      omega
    replace h0 := h0.1 _ _ hs0
    simp only
    have h1 := tryDecode_calls D1 s.2.1 o0 b e
    rcases hs1 : tryDecode (countedDecoder D1) s.2.1 o0 b e with ⟨o1, t1⟩ | ⟨r, t1⟩
    rotate_left
    · have := h1.2 _ _ hs1
      simp only
      omega
    replace h1 := h1.1 _ _ hs1
    simp only
    have h2 := tryDecode_calls D2 s.2.2 o1 b e
    rcases hs2 : tryDecode (countedDecoder D2) s.2.2 o1 b e with ⟨o2, t2⟩ | ⟨r, t2⟩
    rotate_left
    · have := h2.2 _ _ hs2
      simp only
      omega
    replace h2 := h2.1 _ _ hs2
    simp only
    omega
  have hf : ∀ s, ((tupleDecoder3 (countedDecoder D0) (countedDecoder D1) (countedDecoder D2)).finish s).2.1.2.decodes ≤ s.1.2.decodes ∧ ((tupleDecoder3 (countedDecoder D0) (countedDecoder D1) (countedDecoder D2)).finish s).2.1.2.finishes ≤ s.1.2.finishes + 1 ∧
      ((tupleDecoder3 (countedDecoder D0) (countedDecoder D1) (countedDecoder D2)).finish s).2.2.1.2.decodes ≤ s.2.1.2.decodes ∧ ((tupleDecoder3 (countedDecoder D0) (countedDecoder D1) (countedDecoder D2)).finish s).2.2.1.2.finishes ≤ s.2.1.2.finishes + 1 ∧
      ((tupleDecoder3 (countedDecoder D0) (countedDecoder D1) (countedDecoder D2)).finish s).2.2.2.2.decodes ≤ s.2.2.2.decodes ∧ ((tupleDecoder3 (countedDecoder D0) (countedDecoder D1) (countedDecoder D2)).finish s).2.2.2.2.finishes ≤ s.2.2.2.finishes + 1 := by
    intro s
    simp only [tupleDecoder3, countedDecoder]
    rcases D0.finish s.1.1 with ⟨r0, t0⟩
    rcases r0 with x0 | _ | _ | _ | _
    rotate_left
    · simp only [Res.step]; omega
    · simp only [Res.step]; omega
    · simp only [Res.step]; omega
    · simp only [Res.step]; omega
    simp only [Res.step]
    rcases D1.finish s.2.1.1 with ⟨r1, t1⟩
    rcases r1 with x1 | _ | _ | _ | _
    rotate_left
    · simp only; omega
    · simp only; omega
    · simp only; omega
    · simp only; omega
    simp only
    rcases D2.finish s.2.2.1 with ⟨r2, t2⟩
    rcases r2 with x2 | _ | _ | _ | _
    rotate_left
    · simp only; omega
    · simp only; omega
    · simp only; omega
    · simp only; omega
    simp only
    omega
  simp only [AtMostOnce]
  refine ⟨⟨?_, ?_⟩, ⟨?_, ?_⟩, ⟨?_, ?_⟩⟩ <;>
    first
    | (intro s b e; have := hd s b e; omega)
    | (intro s; have := hf s; omega)

theorem once_tuple4 {σ0 α0 σ1 α1 σ2 α2 σ3 α3 : Type} (D0 : Decoder σ0 α0) (D1 : Decoder σ1 α1) (D2 : Decoder σ2 α2) (D3 : Decoder σ3 α3) :
    AtMostOnce (tupleDecoder4 (countedDecoder D0) (countedDecoder D1) (countedDecoder D2) (countedDecoder D3)) (fun s => s.1.2) ∧
    AtMostOnce (tupleDecoder4 (countedDecoder D0) (countedDecoder D1) (countedDecoder D2) (countedDecoder D3)) (fun s => s.2.1.2) ∧
    AtMostOnce (tupleDecoder4 (countedDecoder D0) (countedDecoder D1) (countedDecoder D2) (countedDecoder D3)) (fun s => s.2.2.1.2) ∧
    AtMostOnce (tupleDecoder4 (countedDecoder D0) (countedDecoder D1) (countedDecoder D2) (countedDecoder D3)) (fun s => s.2.2.2.2) := by
  have hd : ∀ s b e, ((tupleDecoder4 (countedDecoder D0) (countedDecoder D1) (countedDecoder D2) (countedDecoder D3)).decode s b e).2.1.2.decodes ≤ s.1.2.decodes + 1 ∧ ((tupleDecoder4 (countedDecoder D0) (countedDecoder D1) (countedDecoder D2) (countedDecoder D3)).decode s b e).2.1.2.finishes ≤ s.1.2.finishes + 1 ∧
      ((tupleDecoder4 (countedDecoder D0) (countedDecoder D1) (countedDecoder D2) (countedDecoder D3)).decode s b e).2.2.1.2.decodes ≤ s.2.1.2.decodes + 1 ∧ ((tupleDecoder4 (countedDecoder D0) (countedDecoder D1) (countedDecoder D2) (countedDecoder D3)).decode s b e).2.2.1.2.finishes ≤ s.2.1.2.finishes + 1 ∧
      ((tupleDecoder4 (countedDecoder D0) (countedDecoder D1) (countedDecoder D2) (countedDecoder D3)).decode s b e).2.2.2.1.2.decodes ≤ s.2.2.1.2.decodes + 1 ∧ ((tupleDecoder4 (countedDecoder D0) (countedDecoder D1) (countedDecoder D2) (countedDecoder D3)).decode s b e).2.2.2.1.2.finishes ≤ s.2.2.1.2.finishes + 1 ∧
      ((tupleDecoder4 (countedDecoder D0) (countedDecoder D1) (countedDecoder D2) (countedDecoder D3)).decode s b e).2.2.2.2.2.decodes ≤ s.2.2.2.2.decodes + 1 ∧ ((tupleDecoder4 (countedDecoder D0) (countedDecoder D1) (countedDecoder D2) (countedDecoder D3)).decode s b e).2.2.2.2.2.finishes ≤ s.2.2.2.2.finishes + 1 := by
    intro s b e
    simp only [tupleDecoder4]
    have h0 := tryDecode_calls D0 s.1 0 b e
    rcases hs0 : tryDecode (countedDecoder D0) s.1 0 b e with ⟨o0, t0⟩ | ⟨r, t0⟩
    rotate_left
    · have := h0.2 _ _ hs0
      simp only
      omega
    replace h0 := h0.1 _ _ hs0
    simp only
    have h1 := tryDecode_calls D1 s.2.1 o0 b e
    rcases hs1 : tryDecode (countedDecoder D1) s.2.1 o0 b e with ⟨o1, t1⟩ | ⟨r, t1⟩
    rotate_left
    · have := h1.2 _ _ hs1
      simp only
      omega
    replace h1 := h1.1 _ _ hs1
    simp only
    have h2 := tryDecode_calls D2 s.2.2.1 o1 b e
    rcases hs2 : tryDecode (countedDecoder D2) s.2.2.1 o1 b e with ⟨o2, t2⟩ | ⟨r, t2⟩
    rotate_left
    · have := h2.2 _ _ hs2
      simp only
      omega
    replace h2 := h2.1 _ _ hs2
    simp only
    have h3 := tryDecode_calls D3 s.2.2.2 o2 b e
    rcases hs3 : tryDecode (countedDecoder D3) s.2.2.2 o2 b e with ⟨o3, t3⟩ | ⟨r, t3⟩
    rotate_left
    · have := h3.2 _ _ hs3
      simp only
      omega
    replace h3 := h3.1 _ _ hs3
    simp only
    omega
  have hf : ∀ s, ((tupleDecoder4 (countedDecoder D0) (countedDecoder D1) (countedDecoder D2) (countedDecoder D3)).finish s).2.1.2.decodes ≤ s.1.2.decodes ∧ ((tupleDecoder4 (countedDecoder D0) (countedDecoder D1) (countedDecoder D2) (countedDecoder D3)).finish s).2.1.2.finishes ≤ s.1.2.finishes + 1 ∧
      ((tupleDecoder4 (countedDecoder D0) (countedDecoder D1) (countedDecoder D2) (countedDecoder D3)).finish s).2.2.1.2.decodes ≤ s.2.1.2.decodes ∧ ((tupleDecoder4 (countedDecoder D0) (countedDecoder D1) (countedDecoder D2) (countedDecoder D3)).finish s).2.2.1.2.finishes ≤ s.2.1.2.finishes + 1 ∧
      ((tupleDecoder4 (countedDecoder D0) (countedDecoder D1) (countedDecoder D2) (countedDecoder D3)).finish s).2.2.2.1.2.decodes ≤ s.2.2.1.2.decodes ∧ ((tupleDecoder4 (countedDecoder D0) (countedDecoder D1) (countedDecoder D2) (countedDecoder D3)).finish s).2.2.2.1.2.finishes ≤ s.2.2.1.2.finishes + 1 ∧
      ((tupleDecoder4 (countedDecoder D0) (countedDecoder D1) (countedDecoder D2) (countedDecoder D3)).finish s).2.2.2.2.2.decodes ≤ s.2.2.2.2.decodes ∧ ((tupleDecoder4 (countedDecoder D0) (countedDecoder D1) (countedDecoder D2) (countedDecoder D3)).finish s).2.2.2.2.2.finishes ≤ s.2.2.2.2.finishes + 1 := by
    intro s
    simp only [tupleDecoder4, countedDecoder]
    rcases D0.finish s.1.1 with ⟨r0, t0⟩
    rcases r0 with x0 | _ | _ | _ | _
    rotate_left
    · simp only [Res.step]; omega
    · simp only [Res.step]; omega
    · simp only [Res.step]; omega
    · simp only [Res.step]; omega
    simp only [Res.step]
    rcases D1.finish s.2.1.1 with ⟨r1, t1⟩
    rcases r1 with x1 | _ | _ | _ | _
    rotate_left
    · simp only; omega
    · simp only; omega
    · simp only; omega
    · simp only; omega
    simp only
    rcases D2.finish s.2.2.1.1 with ⟨r2, t2⟩
    rcases r2 with x2 | _ | _ | _ | _
    rotate_left
    · simp only; omega
    · simp only; omega
    · simp only; omega
    · simp only; omega
    simp only
    rcases D3.finish s.2.2.2.1 with ⟨r3, t3⟩
    rcases r3 with x3 | _ | _ | _ | _
    rotate_left
    · simp only; omega
    · simp only; omega
    · simp only; omega
    · simp only; omega
    simp only
    omega
  simp only [AtMostOnce]
  refine ⟨⟨?_, ?_⟩, ⟨?_, ?_⟩, ⟨?_, ?_⟩, ⟨?_, ?_⟩⟩ <;>
    first
    | (intro s b e; have := hd s b e; omega)
    | (intro s; have := hf s; omega)

theorem once_tuple5 {σ0 α0 σ1 α1 σ2 α2 σ3 α3 σ4 α4 : Type} (D0 : Decoder σ0 α0) (D1 : Decoder σ1 α1) (D2 : Decoder σ2 α2) (D3 : Decoder σ3 α3) (D4 : Decoder σ4 α4) :
    AtMostOnce (tupleDecoder5 (countedDecoder D0) (countedDecoder D1) (countedDecoder D2) (countedDecoder D3) (countedDecoder D4)) (fun s => s.1.2) ∧
    AtMostOnce (tupleDecoder5 (countedDecoder D0) (countedDecoder D1) (countedDecoder D2) (countedDecoder D3) (countedDecoder D4)) (fun s => s.2.1.2) ∧
    AtMostOnce (tupleDecoder5 (countedDecoder D0) (countedDecoder D1) (countedDecoder D2) (countedDecoder D3) (countedDecoder D4)) (fun s => s.2.2.1.2) ∧
    AtMostOnce (tupleDecoder5 (countedDecoder D0) (countedDecoder D1) (countedDecoder D2) (countedDecoder D3) (countedDecoder D4)) (fun s => s.2.2.2.1.2) ∧
    AtMostOnce (tupleDecoder5 (countedDecoder D0) (countedDecoder D1) (countedDecoder D2) (countedDecoder D3) (countedDecoder D4)) (fun s => s.2.2.2.2.2) := by
  have hd : ∀ s b e, ((tupleDecoder5 (countedDecoder D0) (countedDecoder D1) (countedDecoder D2) (countedDecoder D3) (countedDecoder D4)).decode s b e).2.1.2.decodes ≤ s.1.2.decodes + 1 ∧ ((tupleDecoder5 (countedDecoder D0) (countedDecoder D1) (countedDecoder D2) (countedDecoder D3) (countedDecoder D4)).decode s b e).2.1.2.finishes ≤ s.1.2.finishes + 1 ∧
      ((tupleDecoder5 (countedDecoder D0) (countedDecoder D1) (countedDecoder D2) (countedDecoder D3) (countedDecoder D4)).decode s b e).2.2.1.2.decodes ≤ s.2.1.2.decodes + 1 ∧ ((tupleDecoder5 (countedDecoder D0) (countedDecoder D1) (countedDecoder D2) (countedDecoder D3) (countedDecoder D4)).decode s b e).2.2.1.2.finishes ≤ s.2.1.2.finishes + 1 ∧
      ((tupleDecoder5 (countedDecoder D0) (countedDecoder D1) (countedDecoder D2) (countedDecoder D3) (countedDecoder D4)).decode s b e).2.2.2.1.2.decodes ≤ s.2.2.1.2.decodes + 1 ∧ ((tupleDecoder5 (countedDecoder D0) (countedDecoder D1) (countedDecoder D2) (countedDecoder D3) (countedDecoder D4)).decode s b e).2.2.2.1.2.finishes ≤ s.2.2.1.2.finishes + 1 ∧
      ((tupleDecoder5 (countedDecoder D0) (countedDecoder D1) (countedDecoder D2) (countedDecoder D3) (countedDecoder D4)).decode s b e).2.2.2.2.1.2.decodes ≤ s.2.2.2.1.2.decodes + 1 ∧ ((tupleDecoder5 (countedDecoder D0) (countedDecoder D1) (countedDecoder D2) (countedDecoder D3) (countedDecoder D4)).decode s b e).2.2.2.2.1.2.finishes ≤ s.2.2.2.1.2.finishes + 1 ∧
      ((tupleDecoder5 (countedDecoder D0) (countedDecoder D1) (countedDecoder D2) (countedDecoder D3) (countedDecoder D4)).decode s b e).2.2.2.2.2.2.decodes ≤ s.2.2.2.2.2.decodes + 1 ∧ ((tupleDecoder5 (countedDecoder D0) (countedDecoder D1) (countedDecoder D2) (countedDecoder D3) (countedDecoder D4)).decode s b e).2.2.2.2.2.2.finishes ≤ s.2.2.2.2.2.finishes + 1 := by
    intro s b e
    simp only [tupleDecoder5]
    have h0 := tryDecode_calls D0 s.1 0 b e
    rcases hs0 : tryDecode (countedDecoder D0) s.1 0 b e with ⟨o0, t0⟩ | ⟨r, t0⟩
    rotate_left
    · have := h0.2 _ _ hs0
      simp only
      omega
    replace h0 := h0.1 _ _ hs0
    simp only
    have h1 := tryDecode_calls D1 s.2.1 o0 b e
    rcases hs1 : tryDecode (countedDecoder D1) s.2.1 o0 b e with ⟨o1, t1⟩ | ⟨r, t1⟩
    rotate_left
    · have := h1.2 _ _ hs1
      simp only
      omega
    replace h1 := h1.1 _ _ hs1
    simp only
    have h2 := tryDecode_calls D2 s.2.2.1 o1 b e
    rcases hs2 : tryDecode (countedDecoder D2) s.2.2.1 o1 b e with ⟨o2, t2⟩ | ⟨r, t2⟩
    rotate_left
    · have := h2.2 _ _ hs2
      simp only
      omega
    replace h2 := h2.1 _ _ hs2
    simp only
    have h3 := tryDecode_calls D3 s.2.2.2.1 o2 b e
    rcases hs3 : tryDecode (countedDecoder D3) s.2.2.2.1 o2 b e with ⟨o3, t3⟩ | ⟨r, t3⟩
    rotate_left
    · have := h3.2 _ _ hs3
      simp only
      omega
    replace h3 := h3.1 _ _ hs3
    simp only
    have h4 := tryDecode_calls D4 s.2.2.2.2 o3 b e
    rcases hs4 : tryDecode (countedDecoder D4) s.2.2.2.2 o3 b e with ⟨o4, t4⟩ | ⟨r, t4⟩
    rotate_left
    · have := h4.2 _ _ hs4
      simp only
      omega
    replace h4 := h4.1 _ _ hs4
    simp only
    omega
  have hf : ∀ s, ((tupleDecoder5 (countedDecoder D0) (countedDecoder D1) (countedDecoder D2) (countedDecoder D3) (countedDecoder D4)).finish s).2.1.2.decodes ≤ s.1.2.decodes ∧ ((tupleDecoder5 (countedDecoder D0) (countedDecoder D1) (countedDecoder D2) (countedDecoder D3) (countedDecoder D4)).finish s).2.1.2.finishes ≤ s.1.2.finishes + 1 ∧
      ((tupleDecoder5 (countedDecoder D0) (countedDecoder D1) (countedDecoder D2) (countedDecoder D3) (countedDecoder D4)).finish s).2.2.1.2.decodes ≤ s.2.1.2.decodes ∧ ((tupleDecoder5 (countedDecoder D0) (countedDecoder D1) (countedDecoder D2) (countedDecoder D3) (countedDecoder D4)).finish s).2.2.1.2.finishes ≤ s.2.1.2.finishes + 1 ∧
      ((tupleDecoder5 (countedDecoder D0) (countedDecoder D1) (countedDecoder D2) (countedDecoder D3) (countedDecoder D4)).finish s).2.2.2.1.2.decodes ≤ s.2.2.1.2.decodes ∧ ((tupleDecoder5 (countedDecoder D0) (countedDecoder D1) (countedDecoder D2) (countedDecoder D3) (countedDecoder D4)).finish s).2.2.2.1.2.finishes ≤ s.2.2.1.2.finishes + 1 ∧
      ((tupleDecoder5 (countedDecoder D0) (countedDecoder D1) (countedDecoder D2) (countedDecoder D3) (countedDecoder D4)).finish s).2.2.2.2.1.2.decodes ≤ s.2.2.2.1.2.decodes ∧ ((tupleDecoder5 (countedDecoder D0) (countedDecoder D1) (countedDecoder D2) (countedDecoder D3) (countedDecoder D4)).finish s).2.2.2.2.1.2.finishes ≤ s.2.2.2.1.2.finishes + 1 ∧
      ((tupleDecoder5 (countedDecoder D0) (countedDecoder D1) (countedDecoder D2) (countedDecoder D3) (countedDecoder D4)).finish s).2.2.2.2.2.2.decodes ≤ s.2.2.2.2.2.decodes ∧ ((tupleDecoder5 (countedDecoder D0) (countedDecoder D1) (countedDecoder D2) (countedDecoder D3) (countedDecoder D4)).finish s).2.2.2.2.2.2.finishes ≤ s.2.2.2.2.2.finishes + 1 := by
    intro s
    simp only [tupleDecoder5, countedDecoder]
    rcases D0.finish s.1.1 with ⟨r0, t0⟩
    rcases r0 with x0 | _ | _ | _ | _
    rotate_left
    · simp only [Res.step]; omega
    · simp only [Res.step]; omega
    · simp only [Res.step]; omega
    · simp only [Res.step]; omega
    simp only [Res.step]
    rcases D1.finish s.2.1.1 with ⟨r1, t1⟩
    rcases r1 with x1 | _ | _ | _ | _
    rotate_left
    · simp only; omega
    · simp only; omega
    · simp only; omega
    · simp only; omega
    simp only
    rcases D2.finish s.2.2.1.1 with ⟨r2, t2⟩
    rcases r2 with x2 | _ | _ | _ | _
    rotate_left
    · simp only; omega
    · simp only; omega
    · simp only; omega
    · simp only; omega
    simp only
    rcases D3.finish s.2.2.2.1.1 with ⟨r3, t3⟩
    rcases r3 with x3 | _ | _ | _ | _
    rotate_left
    · simp only; omega
    · simp only; omega
    · simp only; omega
    · simp only; omega
    simp only
    rcases D4.finish s.2.2.2.2.1 with ⟨r4, t4⟩
    rcases r4 with x4 | _ | _ | _ | _
    rotate_left
    · simp only; omega
    · simp only; omega
    · simp only; omega
    · simp only; omega
    simp only
    omega
  simp only [AtMostOnce]
  refine ⟨⟨?_, ?_⟩, ⟨?_, ?_⟩, ⟨?_, ?_⟩, ⟨?_, ?_⟩, ⟨?_, ?_⟩⟩ <;>
    first
    | (intro s b e; have := hd s b e; omega)
    | (intro s; have := hf s; omega)

theorem once_tuple6 {σ0 α0 σ1 α1 σ2 α2 σ3 α3 σ4 α4 σ5 α5 : Type} (D0 : Decoder σ0 α0) (D1 : Decoder σ1 α1) (D2 : Decoder σ2 α2) (D3 : Decoder σ3 α3) (D4 : Decoder σ4 α4) (D5 : Decoder σ5 α5) :
    AtMostOnce (tupleDecoder6 (countedDecoder D0) (countedDecoder D1) (countedDecoder D2) (countedDecoder D3) (countedDecoder D4) (countedDecoder D5)) (fun s => s.1.2) ∧
    AtMostOnce (tupleDecoder6 (countedDecoder D0) (countedDecoder D1) (countedDecoder D2) (countedDecoder D3) (countedDecoder D4) (countedDecoder D5)) (fun s => s.2.1.2) ∧
    AtMostOnce (tupleDecoder6 (countedDecoder D0) (countedDecoder D1) (countedDecoder D2) (countedDecoder D3) (countedDecoder D4) (countedDecoder D5)) (fun s => s.2.2.1.2) ∧
    AtMostOnce (tupleDecoder6 (countedDecoder D0) (countedDecoder D1) (countedDecoder D2) (countedDecoder D3) (countedDecoder D4) (countedDecoder D5)) (fun s => s.2.2.2.1.2) ∧
    AtMostOnce (tupleDecoder6 (countedDecoder D0) (countedDecoder D1) (countedDecoder D2) (countedDecoder D3) (countedDecoder D4) (countedDecoder D5)) (fun s => s.2.2.2.2.1.2) ∧
    AtMostOnce (tupleDecoder6 (countedDecoder D0) (countedDecoder D1) (countedDecoder D2) (countedDecoder D3) (countedDecoder D4) (countedDecoder D5)) (fun s => s.2.2.2.2.2.2) := by
  have hd : ∀ s b e, ((tupleDecoder6 (countedDecoder D0) (countedDecoder D1) (countedDecoder D2) (countedDecoder D3) (countedDecoder D4) (countedDecoder D5)).decode s b e).2.1.2.decodes ≤ s.1.2.decodes + 1 ∧ ((tupleDecoder6 (countedDecoder D0) (countedDecoder D1) (countedDecoder D2) (countedDecoder D3) (countedDecoder D4) (countedDecoder D5)).decode s b e).2.1.2.finishes ≤ s.1.2.finishes + 1 ∧
      ((tupleDecoder6 (countedDecoder D0) (countedDecoder D1) (countedDecoder D2) (countedDecoder D3) (countedDecoder D4) (countedDecoder D5)).decode s b e).2.2.1.2.decodes ≤ s.2.1.2.decodes + 1 ∧ ((tupleDecoder6 (countedDecoder D0) (countedDecoder D1) (countedDecoder D2) (countedDecoder D3) (countedDecoder D4) (countedDecoder D5)).decode s b e).2.2.1.2.finishes ≤ s.2.1.2.finishes + 1 ∧
      ((tupleDecoder6 (countedDecoder D0) (countedDecoder D1) (countedDecoder D2) (countedDecoder D3) (countedDecoder D4) (countedDecoder D5)).decode s b e).2.2.2.1.2.decodes ≤ s.2.2.1.2.decodes + 1 ∧ ((tupleDecoder6 (countedDecoder D0) (countedDecoder D1) (countedDecoder D2) (countedDecoder D3) (countedDecoder D4) (countedDecoder D5)).decode s b e).2.2.2.1.2.finishes ≤ s.2.2.1.2.finishes + 1 ∧
      ((tupleDecoder6 (countedDecoder D0) (countedDecoder D1) (countedDecoder D2) (countedDecoder D3) (countedDecoder D4) (countedDecoder D5)).decode s b e).2.2.2.2.1.2.decodes ≤ s.2.2.2.1.2.decodes + 1 ∧ ((tupleDecoder6 (countedDecoder D0) (countedDecoder D1) (countedDecoder D2) (countedDecoder D3) (countedDecoder D4) (countedDecoder D5)).decode s b e).2.2.2.2.1.2.finishes ≤ s.2.2.2.1.2.finishes + 1 ∧
      ((tupleDecoder6 (countedDecoder D0) (countedDecoder D1) (countedDecoder D2) (countedDecoder D3) (countedDecoder D4) (countedDecoder D5)).decode s b e).2.2.2.2.2.1.2.decodes ≤ s.2.2.2.2.1.2.decodes + 1 ∧ ((tupleDecoder6 (countedDecoder D0) (countedDecoder D1) (countedDecoder D2) (countedDecoder D3) (countedDecoder D4) (countedDecoder D5)).decode s b e).2.2.2.2.2.1.2.finishes ≤ s.2.2.2.2.1.2.finishes + 1 ∧
      ((tupleDecoder6 (countedDecoder D0) (countedDecoder D1) (countedDecoder D2) (countedDecoder D3) (countedDecoder D4) (countedDecoder D5)).decode s b e).2.2.2.2.2.2.2.decodes ≤ s.2.2.2.2.2.2.decodes + 1 ∧ ((tupleDecoder6 (countedDecoder D0) (countedDecoder D1) (countedDecoder D2) (countedDecoder D3) (countedDecoder D4) (countedDecoder D5)).decode s b e).2.2.2.2.2.2.2.finishes ≤ s.2.2.2.2.2.2.finishes + 1 := by
    intro s b e
    simp only [tupleDecoder6]
    have h0 := tryDecode_calls D0 s.1 0 b e
    rcases hs0 : tryDecode (countedDecoder D0) s.1 0 b e with ⟨o0, t0⟩ | ⟨r, t0⟩
    rotate_left
    · have := h0.2 _ _ hs0
      simp only
      omega
    replace h0 := h0.1 _ _ hs0
    simp only
    have h1 := tryDecode_calls D1 s.2.1 o0 b e
    rcases hs1 : tryDecode (countedDecoder D1) s.2.1 o0 b e with ⟨o1, t1⟩ | ⟨r, t1⟩
    rotate_left
    · have := h1.2 _ _ hs1
      simp only
      omega
    replace h1 := h1.1 _ _ hs1
    simp only
    have h2 := tryDecode_calls D2 s.2.2.1 o1 b e
    rcases hs2 : tryDecode (countedDecoder D2) s.2.2.1 o1 b e with ⟨o2, t2⟩ | ⟨r, t2⟩
    rotate_left
    · have := h2.2 _ _ hs2
      simp only
      omega
    replace h2 := h2.1 _ _ hs2
    simp only
    have h3 := tryDecode_calls D3 s.2.2.2.1 o2 b e
    rcases hs3 : tryDecode (countedDecoder D3) s.2.2.2.1 o2 b e with ⟨o3, t3⟩ | ⟨r, t3⟩
    rotate_left
    · have := h3.2 _ _ hs3
      simp only
      omega
    replace h3 := h3.1 _ _ hs3
    simp only
    have h4 := tryDecode_calls D4 s.2.2.2.2.1 o3 b e
    rcases hs4 : tryDecode (countedDecoder D4) s.2.2.2.2.1 o3 b e with ⟨o4, t4⟩ | ⟨r, t4⟩
    rotate_left
    · have := h4.2 _ _ hs4
      simp only
      omega
    replace h4 := h4.1 _ _ hs4
    simp only
    have h5 := tryDecode_calls D5 s.2.2.2.2.2 o4 b e
    rcases hs5 : tryDecode (countedDecoder D5) s.2.2.2.2.2 o4 b e with ⟨o5, t5⟩ | ⟨r, t5⟩
    rotate_left
    · have := h5.2 _ _ hs5
      simp only
      omega
    replace h5 := h5.1 _ _ hs5
    simp only
    omega
  have hf : ∀ s, ((tupleDecoder6 (countedDecoder D0) (countedDecoder D1) (countedDecoder D2) (countedDecoder D3) (countedDecoder D4) (countedDecoder D5)).finish s).2.1.2.decodes ≤ s.1.2.decodes ∧ ((tupleDecoder6 (countedDecoder D0) (countedDecoder D1) (countedDecoder D2) (countedDecoder D3) (countedDecoder D4) (countedDecoder D5)).finish s).2.1.2.finishes ≤ s.1.2.finishes + 1 ∧
      ((tupleDecoder6 (countedDecoder D0) (countedDecoder D1) (countedDecoder D2) (countedDecoder D3) (countedDecoder D4) (countedDecoder D5)).finish s).2.2.1.2.decodes ≤ s.2.1.2.decodes ∧ ((tupleDecoder6 (countedDecoder D0) (countedDecoder D1) (countedDecoder D2) (countedDecoder D3) (countedDecoder D4) (countedDecoder D5)).finish s).2.2.1.2.finishes ≤ s.2.1.2.finishes + 1 ∧
      ((tupleDecoder6 (countedDecoder D0) (countedDecoder D1) (countedDecoder D2) (countedDecoder D3) (countedDecoder D4) (countedDecoder D5)).finish s).2.2.2.1.2.decodes ≤ s.2.2.1.2.decodes ∧ ((tupleDecoder6 (countedDecoder D0) (countedDecoder D1) (countedDecoder D2) (countedDecoder D3) (countedDecoder D4) (countedDecoder D5)).finish s).2.2.2.1.2.finishes ≤ s.2.2.1.2.finishes + 1 ∧
      ((tupleDecoder6 (countedDecoder D0) (countedDecoder D1) (countedDecoder D2) (countedDecoder D3) (countedDecoder D4) (countedDecoder D5)).finish s).2.2.2.2.1.2.decodes ≤ s.2.2.2.1.2.decodes ∧ ((tupleDecoder6 (countedDecoder D0) (countedDecoder D1) (countedDecoder D2) (countedDecoder D3) (countedDecoder D4) (countedDecoder D5)).finish s).2.2.2.2.1.2.finishes ≤ s.2.2.2.1.2.finishes + 1 ∧
      ((tupleDecoder6 (countedDecoder D0) (countedDecoder D1) (countedDecoder D2) (countedDecoder D3) (countedDecoder D4) (countedDecoder D5)).finish s).2.2.2.2.2.1.2.decodes ≤ s.2.2.2.2.1.2.decodes ∧ ((tupleDecoder6 (countedDecoder D0) (countedDecoder D1) (countedDecoder D2) (countedDecoder D3) (countedDecoder D4) (countedDecoder D5)).finish s).2.2.2.2.2.1.2.finishes ≤ s.2.2.2.2.1.2.finishes + 1 ∧
      ((tupleDecoder6 (countedDecoder D0) (countedDecoder D1) (countedDecoder D2) (countedDecoder D3) (countedDecoder D4) (countedDecoder D5)).finish s).2.2.2.2.2.2.2.decodes ≤ s.2.2.2.2.2.2.decodes ∧ ((tupleDecoder6 (countedDecoder D0) (countedDecoder D1) (countedDecoder D2) (countedDecoder D3) (countedDecoder D4) (countedDecoder D5)).finish s).2.2.2.2.2.2.2.finishes ≤ s.2.2.2.2.2.2.finishes + 1 := by
    intro s
    simp only [tupleDecoder6, countedDecoder]
    rcases D0.finish s.1.1 with ⟨r0, t0⟩
    rcases r0 with x0 | _ | _ | _ | _
    rotate_left
    · simp only [Res.step]; omega
    · simp only [Res.step]; omega
    · simp only [Res.step]; omega
    · simp only [Res.step]; omega
    simp only [Res.step]
    rcases D1.finish s.2.1.1 with ⟨r1, t1⟩
    rcases r1 with x1 | _ | _ | _ | _
    rotate_left
    · simp only; omega
    · simp only; omega
    · simp only; omega
    · simp only; omega
    simp only
    rcases D2.finish s.2.2.1.1 with ⟨r2, t2⟩
    rcases r2 with x2 | _ | _ | _ | _
    rotate_left
    · simp only; omega
    · simp only; omega
    · simp only; omega
    · simp only; omega
    simp only
    rcases D3.finish s.2.2.2.1.1 with ⟨r3, t3⟩
    rcases r3 with x3 | _ | _ | _ | _
    rotate_left
    · simp only; omega
    · simp only; omega
    · simp only; omega
    · simp only; omega
    simp only
    rcases D4.finish s.2.2.2.2.1.1 with ⟨r4, t4⟩
    rcases r4 with x4 | _ | _ | _ | _
    rotate_left
    · simp only; omega
    · simp only; omega
    · simp only; omega
    · simp only; omega
    simp only
    rcases D5.finish s.2.2.2.2.2.1 with ⟨r5, t5⟩
    rcases r5 with x5 | _ | _ | _ | _
    rotate_left
    · simp only; omega
    · simp only; omega
    · simp only; omega
    · simp only; omega
    simp only
    omega
  simp only [AtMostOnce]
  refine ⟨⟨?_, ?_⟩, ⟨?_, ?_⟩, ⟨?_, ?_⟩, ⟨?_, ?_⟩, ⟨?_, ?_⟩, ⟨?_, ?_⟩⟩ <;>
    first
    | (intro s b e; have := hd s b e; omega)
    | (intro s; have := hf s; omega)

theorem once_tuple7 {σ0 α0 σ1 α1 σ2 α2 σ3 α3 σ4 α4 σ5 α5 σ6 α6 : Type} (D0 : Decoder σ0 α0) (D1 : Decoder σ1 α1) (D2 : Decoder σ2 α2) (D3 : Decoder σ3 α3) (D4 : Decoder σ4 α4) (D5 : Decoder σ5 α5) (D6 : Decoder σ6 α6) :
    AtMostOnce (tupleDecoder7 (countedDecoder D0) (countedDecoder D1) (countedDecoder D2) (countedDecoder D3) (countedDecoder D4) (countedDecoder D5) (countedDecoder D6)) (fun s => s.1.2) ∧
    AtMostOnce (tupleDecoder7 (countedDecoder D0) (countedDecoder D1) (countedDecoder D2) (countedDecoder D3) (countedDecoder D4) (countedDecoder D5) (countedDecoder D6)) (fun s => s.2.1.2) ∧
    AtMostOnce (tupleDecoder7 (countedDecoder D0) (countedDecoder D1) (countedDecoder D2) (countedDecoder D3) (countedDecoder D4) (countedDecoder D5) (countedDecoder D6)) (fun s => s.2.2.1.2) ∧
    AtMostOnce (tupleDecoder7 (countedDecoder D0) (countedDecoder D1) (countedDecoder D2) (countedDecoder D3) (countedDecoder D4) (countedDecoder D5) (countedDecoder D6)) (fun s => s.2.2.2.1.2) ∧
    AtMostOnce (tupleDecoder7 (countedDecoder D0) (countedDecoder D1) (countedDecoder D2) (countedDecoder D3) (countedDecoder D4) (countedDecoder D5) (countedDecoder D6)) (fun s => s.2.2.2.2.1.2) ∧
    AtMostOnce (tupleDecoder7 (countedDecoder D0) (countedDecoder D1) (countedDecoder D2) (countedDecoder D3) (countedDecoder D4) (countedDecoder D5) (countedDecoder D6)) (fun s => s.2.2.2.2.2.1.2) ∧
    AtMostOnce (tupleDecoder7 (countedDecoder D0) (countedDecoder D1) (countedDecoder D2) (countedDecoder D3) (countedDecoder D4) (countedDecoder D5) (countedDecoder D6)) (fun s => s.2.2.2.2.2.2.2) := by
  have hd : ∀ s b e, ((tupleDecoder7 (countedDecoder D0) (countedDecoder D1) (countedDecoder D2) (countedDecoder D3) (countedDecoder D4) (countedDecoder D5) (countedDecoder D6)).decode s b e).2.1.2.decodes ≤ s.1.2.decodes + 1 ∧ ((tupleDecoder7 (countedDecoder D0) (countedDecoder D1) (countedDecoder D2) (countedDecoder D3) (countedDecoder D4) (countedDecoder D5) (countedDecoder D6)).decode s b e).2.1.2.finishes ≤ s.1.2.finishes + 1 ∧
      ((tupleDecoder7 (countedDecoder D0) (countedDecoder D1) (countedDecoder D2) (countedDecoder D3) (countedDecoder D4) (countedDecoder D5) (countedDecoder D6)).decode s b e).2.2.1.2.decodes ≤ s.2.1.2.decodes + 1 ∧ ((tupleDecoder7 (countedDecoder D0) (countedDecoder D1) (countedDecoder D2) (countedDecoder D3) (countedDecoder D4) (countedDecoder D5) (countedDecoder D6)).decode s b e).2.2.1.2.finishes ≤ s.2.1.2.finishes + 1 ∧
      ((tupleDecoder7 (countedDecoder D0) (countedDecoder D1) (countedDecoder D2) (countedDecoder D3) (countedDecoder D4) (countedDecoder D5) (countedDecoder D6)).decode s b e).2.2.2.1.2.decodes ≤ s.2.2.1.2.decodes + 1 ∧ ((tupleDecoder7 (countedDecoder D0) (countedDecoder D1) (countedDecoder D2) (countedDecoder D3) (countedDecoder D4) (countedDecoder D5) (countedDecoder D6)).decode s b e).2.2.2.1.2.finishes ≤ s.2.2.1.2.finishes + 1 ∧
      ((tupleDecoder7 (countedDecoder D0) (countedDecoder D1) (countedDecoder D2) (countedDecoder D3) (countedDecoder D4) (countedDecoder D5) (countedDecoder D6)).decode s b e).2.2.2.2.1.2.decodes ≤ s.2.2.2.1.2.decodes + 1 ∧ ((tupleDecoder7 (countedDecoder D0) (countedDecoder D1) (countedDecoder D2) (countedDecoder D3) (countedDecoder D4) (countedDecoder D5) (countedDecoder D6)).decode s b e).2.2.2.2.1.2.finishes ≤ s.2.2.2.1.2.finishes + 1 ∧
      ((tupleDecoder7 (countedDecoder D0) (countedDecoder D1) (countedDecoder D2) (countedDecoder D3) (countedDecoder D4) (countedDecoder D5) (countedDecoder D6)).decode s b e).2.2.2.2.2.1.2.decodes ≤ s.2.2.2.2.1.2.decodes + 1 ∧ ((tupleDecoder7 (countedDecoder D0) (countedDecoder D1) (countedDecoder D2) (countedDecoder D3) (countedDecoder D4) (countedDecoder D5) (countedDecoder D6)).decode s b e).2.2.2.2.2.1.2.finishes ≤ s.2.2.2.2.1.2.finishes + 1 ∧
      ((tupleDecoder7 (countedDecoder D0) (countedDecoder D1) (countedDecoder D2) (countedDecoder D3) (countedDecoder D4) (countedDecoder D5) (countedDecoder D6)).decode s b e).2.2.2.2.2.2.1.2.decodes ≤ s.2.2.2.2.2.1.2.decodes + 1 ∧ ((tupleDecoder7 (countedDecoder D0) (countedDecoder D1) (countedDecoder D2) (countedDecoder D3) (countedDecoder D4) (countedDecoder D5) (countedDecoder D6)).decode s b e).2.2.2.2.2.2.1.2.finishes ≤ s.2.2.2.2.2.1.2.finishes + 1 ∧
      ((tupleDecoder7 (countedDecoder D0) (countedDecoder D1) (countedDecoder D2) (countedDecoder D3) (countedDecoder D4) (countedDecoder D5) (countedDecoder D6)).decode s b e).2.2.2.2.2.2.2.2.decodes ≤ s.2.2.2.2.2.2.2.decodes + 1 ∧ ((tupleDecoder7 (countedDecoder D0) (countedDecoder D1) (countedDecoder D2) (countedDecoder D3) (countedDecoder D4) (countedDecoder D5) (countedDecoder D6)).decode s b e).2.2.2.2.2.2.2.2.finishes ≤ s.2.2.2.2.2.2.2.finishes + 1 := by
    intro s b e
    simp only [tupleDecoder7]
    have h0 := tryDecode_calls D0 s.1 0 b e
    rcases hs0 : tryDecode (countedDecoder D0) s.1 0 b e with ⟨o0, t0⟩ | ⟨r, t0⟩
    rotate_left
    · have := h0.2 _ _ hs0
      simp only
      omega
    replace h0 := h0.1 _ _ hs0
    simp only
    have h1 := tryDecode_calls D1 s.2.1 o0 b e
    rcases hs1 : tryDecode (countedDecoder D1) s.2.1 o0 b e with ⟨o1, t1⟩ | ⟨r, t1⟩
    rotate_left
    · have := h1.2 _ _ hs1
      simp only
      omega
    replace h1 := h1.1 _ _ hs1
    simp only
    have h2 := tryDecode_calls D2 s.2.2.1 o1 b e
    rcases hs2 : tryDecode (countedDecoder D2) s.2.2.1 o1 b e with ⟨o2, t2⟩ | ⟨r, t2⟩
    rotate_left
    · have := h2.2 _ _ hs2
      simp only
      omega
    replace h2 := h2.1 _ _ hs2
    simp only
    have h3 := tryDecode_calls D3 s.2.2.2.1 o2 b e
    rcases hs3 : tryDecode (countedDecoder D3) s.2.2.2.1 o2 b e with ⟨o3, t3⟩ | ⟨r, t3⟩
    rotate_left
    · have := h3.2 _ _ hs3
      simp only
      omega
    replace h3 := h3.1 _ _ hs3
    simp only
    have h4 := tryDecode_calls D4 s.2.2.2.2.1 o3 b e
    rcases hs4 : tryDecode (countedDecoder D4) s.2.2.2.2.1 o3 b e with ⟨o4, t4⟩ | ⟨r, t4⟩
    rotate_left
    · have := h4.2 _ _ hs4
      simp only
      omega
    replace h4 := h4.1 _ _ hs4
    simp only
    have h5 := tryDecode_calls D5 s.2.2.2.2.2.1 o4 b e
    rcases hs5 : tryDecode (countedDecoder D5) s.2.2.2.2.2.1 o4 b e with ⟨o5, t5⟩ | ⟨r, t5⟩
    rotate_left
    · have := h5.2 _ _ hs5
      simp only
      omega
    replace h5 := h5.1 _ _ hs5
    simp only
    have h6 := tryDecode_calls D6 s.2.2.2.2.2.2 o5 b e
    rcases hs6 : tryDecode (countedDecoder D6) s.2.2.2.2.2.2 o5 b e with ⟨o6, t6⟩ | ⟨r, t6⟩
    rotate_left
    · have := h6.2 _ _ hs6
      simp only
      omega
    replace h6 := h6.1 _ _ hs6
    simp only
    omega
  have hf : ∀ s, ((tupleDecoder7 (countedDecoder D0) (countedDecoder D1) (countedDecoder D2) (countedDecoder D3) (countedDecoder D4) (countedDecoder D5) (countedDecoder D6)).finish s).2.1.2.decodes ≤ s.1.2.decodes ∧ ((tupleDecoder7 (countedDecoder D0) (countedDecoder D1) (countedDecoder D2) (countedDecoder D3) (countedDecoder D4) (countedDecoder D5) (countedDecoder D6)).finish s).2.1.2.finishes ≤ s.1.2.finishes + 1 ∧
      ((tupleDecoder7 (countedDecoder D0) (countedDecoder D1) (countedDecoder D2) (countedDecoder D3) (countedDecoder D4) (countedDecoder D5) (countedDecoder D6)).finish s).2.2.1.2.decodes ≤ s.2.1.2.decodes ∧ ((tupleDecoder7 (countedDecoder D0) (countedDecoder D1) (countedDecoder D2) (countedDecoder D3) (countedDecoder D4) (countedDecoder D5) (countedDecoder D6)).finish s).2.2.1.2.finishes ≤ s.2.1.2.finishes + 1 ∧
      ((tupleDecoder7 (countedDecoder D0) (countedDecoder D1) (countedDecoder D2) (countedDecoder D3) (countedDecoder D4) (countedDecoder D5) (countedDecoder D6)).finish s).2.2.2.1.2.decodes ≤ s.2.2.1.2.decodes ∧ ((tupleDecoder7 (countedDecoder D0) (countedDecoder D1) (countedDecoder D2) (countedDecoder D3) (countedDecoder D4) (countedDecoder D5) (countedDecoder D6)).finish s).2.2.2.1.2.finishes ≤ s.2.2.1.2.finishes + 1 ∧
      ((tupleDecoder7 (countedDecoder D0) (countedDecoder D1) (countedDecoder D2) (countedDecoder D3) (countedDecoder D4) (countedDecoder D5) (countedDecoder D6)).finish s).2.2.2.2.1.2.decodes ≤ s.2.2.2.1.2.decodes ∧ ((tupleDecoder7 (countedDecoder D0) (countedDecoder D1) (countedDecoder D2) (countedDecoder D3) (countedDecoder D4) (countedDecoder D5) (countedDecoder D6)).finish s).2.2.2.2.1.2.finishes ≤ s.2.2.2.1.2.finishes + 1 ∧
      ((tupleDecoder7 (countedDecoder D0) (countedDecoder D1) (countedDecoder D2) (countedDecoder D3) (countedDecoder D4) (countedDecoder D5) (countedDecoder D6)).finish s).2.2.2.2.2.1.2.decodes ≤ s.2.2.2.2.1.2.decodes ∧ ((tupleDecoder7 (countedDecoder D0) (countedDecoder D1) (countedDecoder D2) (countedDecoder D3) (countedDecoder D4) (countedDecoder D5) (countedDecoder D6)).finish s).2.2.2.2.2.1.2.finishes ≤ s.2.2.2.2.1.2.finishes + 1 ∧
      ((tupleDecoder7 (countedDecoder D0) (countedDecoder D1) (countedDecoder D2) (countedDecoder D3) (countedDecoder D4) (countedDecoder D5) (countedDecoder D6)).finish s).2.2.2.2.2.2.1.2.decodes ≤ s.2.2.2.2.2.1.2.decodes ∧ ((tupleDecoder7 (countedDecoder D0) (countedDecoder D1) (countedDecoder D2) (countedDecoder D3) (countedDecoder D4) (countedDecoder D5) (countedDecoder D6)).finish s).2.2.2.2.2.2.1.2.finishes ≤ s.2.2.2.2.2.1.2.finishes + 1 ∧
      ((tupleDecoder7 (countedDecoder D0) (countedDecoder D1) (countedDecoder D2) (countedDecoder D3) (countedDecoder D4) (countedDecoder D5) (countedDecoder D6)).finish s).2.2.2.2.2.2.2.2.decodes ≤ s.2.2.2.2.2.2.2.decodes ∧ ((tupleDecoder7 (countedDecoder D0) (countedDecoder D1) (countedDecoder D2) (countedDecoder D3) (countedDecoder D4) (countedDecoder D5) (countedDecoder D6)).finish s).2.2.2.2.2.2.2.2.finishes ≤ s.2.2.2.2.2.2.2.finishes + 1 := by
    intro s
    simp only [tupleDecoder7, countedDecoder]
    rcases D0.finish s.1.1 with ⟨r0, t0⟩
    rcases r0 with x0 | _ | _ | _ | _
    rotate_left
    · simp only [Res.step]; omega
    · simp only [Res.step]; omega
    · simp only [Res.step]; omega
    · simp only [Res.step]; omega
    simp only [Res.step]
    rcases D1.finish s.2.1.1 with ⟨r1, t1⟩
    rcases r1 with x1 | _ | _ | _ | _
    rotate_left
    · simp only; omega
    · simp only; omega
    · simp only; omega
    · simp only; omega
    simp only
    rcases D2.finish s.2.2.1.1 with ⟨r2, t2⟩
    rcases r2 with x2 | _ | _ | _ | _
    rotate_left
    · simp only; omega
    · simp only; omega
    · simp only; omega
    · simp only; omega
    simp only
    rcases D3.finish s.2.2.2.1.1 with ⟨r3, t3⟩
    rcases r3 with x3 | _ | _ | _ | _
    rotate_left
    · simp only; omega
    · simp only; omega
    · simp only; omega
    · simp only; omega
    simp only
    rcases D4.finish s.2.2.2.2.1.1 with ⟨r4, t4⟩
    rcases r4 with x4 | _ | _ | _ | _
    rotate_left
    · simp only; omega
    · simp only; omega
    · simp only; omega
    · simp only; omega
    simp only
    rcases D5.finish s.2.2.2.2.2.1.1 with ⟨r5, t5⟩
    rcases r5 with x5 | _ | _ | _ | _
    rotate_left
    · simp only; omega
    · simp only; omega
    · simp only; omega
    · simp only; omega
    simp only
    rcases D6.finish s.2.2.2.2.2.2.1 with ⟨r6, t6⟩
    rcases r6 with x6 | _ | _ | _ | _
    rotate_left
    · simp only; omega
    · simp only; omega
    · simp only; omega
    · simp only; omega
    simp only
    omega
  simp only [AtMostOnce]
  refine ⟨⟨?_, ?_⟩, ⟨?_, ?_⟩, ⟨?_, ?_⟩, ⟨?_, ?_⟩, ⟨?_, ?_⟩, ⟨?_, ?_⟩, ⟨?_, ?_⟩⟩ <;>
    first
    | (intro s b e; have := hd s b e; omega)
    | (intro s; have := hf s; omega)

theorem once_tuple8 {σ0 α0 σ1 α1 σ2 α2 σ3 α3 σ4 α4 σ5 α5 σ6 α6 σ7 α7 : Type} (D0 : Decoder σ0 α0) (D1 : Decoder σ1 α1) (D2 : Decoder σ2 α2) (D3 : Decoder σ3 α3) (D4 : Decoder σ4 α4) (D5 : Decoder σ5 α5) (D6 : Decoder σ6 α6) (D7 : Decoder σ7 α7) :
    AtMostOnce (tupleDecoder8 (countedDecoder D0) (countedDecoder D1) (countedDecoder D2) (countedDecoder D3) (countedDecoder D4) (countedDecoder D5) (countedDecoder D6) (countedDecoder D7)) (fun s => s.1.2) ∧
    AtMostOnce (tupleDecoder8 (countedDecoder D0) (countedDecoder D1) (countedDecoder D2) (countedDecoder D3) (countedDecoder D4) (countedDecoder D5) (countedDecoder D6) (countedDecoder D7)) (fun s => s.2.1.2) ∧
    AtMostOnce (tupleDecoder8 (countedDecoder D0) (countedDecoder D1) (countedDecoder D2) (countedDecoder D3) (countedDecoder D4) (countedDecoder D5) (countedDecoder D6) (countedDecoder D7)) (fun s => s.2.2.1.2) ∧
    AtMostOnce (tupleDecoder8 (countedDecoder D0) (countedDecoder D1) (countedDecoder D2) (countedDecoder D3) (countedDecoder D4) (countedDecoder D5) (countedDecoder D6) (countedDecoder D7)) (fun s => s.2.2.2.1.2) ∧
    AtMostOnce (tupleDecoder8 (countedDecoder D0) (countedDecoder D1) (countedDecoder D2) (countedDecoder D3) (countedDecoder D4) (countedDecoder D5) (countedDecoder D6) (countedDecoder D7)) (fun s => s.2.2.2.2.1.2) ∧
    AtMostOnce (tupleDecoder8 (countedDecoder D0) (countedDecoder D1) (countedDecoder D2) (countedDecoder D3) (countedDecoder D4) (countedDecoder D5) (countedDecoder D6) (countedDecoder D7)) (fun s => s.2.2.2.2.2.1.2) ∧
    AtMostOnce (tupleDecoder8 (countedDecoder D0) (countedDecoder D1) (countedDecoder D2) (countedDecoder D3) (countedDecoder D4) (countedDecoder D5) (countedDecoder D6) (countedDecoder D7)) (fun s => s.2.2.2.2.2.2.1.2) ∧
    AtMostOnce (tupleDecoder8 (countedDecoder D0) (countedDecoder D1) (countedDecoder D2) (countedDecoder D3) (countedDecoder D4) (countedDecoder D5) (countedDecoder D6) (countedDecoder D7)) (fun s => s.2.2.2.2.2.2.2.2) := by
  have hd : ∀ s b e, ((tupleDecoder8 (countedDecoder D0) (countedDecoder D1) (countedDecoder D2) (countedDecoder D3) (countedDecoder D4) (countedDecoder D5) (countedDecoder D6) (countedDecoder D7)).decode s b e).2.1.2.decodes ≤ s.1.2.decodes + 1 ∧ ((tupleDecoder8 (countedDecoder D0) (countedDecoder D1) (countedDecoder D2) (countedDecoder D3) (countedDecoder D4) (countedDecoder D5) (countedDecoder D6) (countedDecoder D7)).decode s b e).2.1.2.finishes ≤ s.1.2.finishes + 1 ∧
      ((tupleDecoder8 (countedDecoder D0) (countedDecoder D1) (countedDecoder D2) (countedDecoder D3) (countedDecoder D4) (countedDecoder D5) (countedDecoder D6) (countedDecoder D7)).decode s b e).2.2.1.2.decodes ≤ s.2.1.2.decodes + 1 ∧ ((tupleDecoder8 (countedDecoder D0) (countedDecoder D1) (countedDecoder D2) (countedDecoder D3) (countedDecoder D4) (countedDecoder D5) (countedDecoder D6) (countedDecoder D7)).decode s b e).2.2.1.2.finishes ≤ s.2.1.2.finishes + 1 ∧
      ((tupleDecoder8 (countedDecoder D0) (countedDecoder D1) (countedDecoder D2) (countedDecoder D3) (countedDecoder D4) (countedDecoder D5) (countedDecoder D6) (countedDecoder D7)).decode s b e).2.2.2.1.2.decodes ≤ s.2.2.1.2.decodes + 1 ∧ ((tupleDecoder8 (countedDecoder D0) (countedDecoder D1) (countedDecoder D2) (countedDecoder D3) (countedDecoder D4) (countedDecoder D5) (countedDecoder D6) (countedDecoder D7)).decode s b e).2.2.2.1.2.finishes ≤ s.2.2.1.2.finishes + 1 ∧
      ((tupleDecoder8 (countedDecoder D0) (countedDecoder D1) (countedDecoder D2) (countedDecoder D3) (countedDecoder D4) (countedDecoder D5) (countedDecoder D6) (countedDecoder D7)).decode s b e).2.2.2.2.1.2.decodes ≤ s.2.2.2.1.2.decodes + 1 ∧ ((tupleDecoder8 (countedDecoder D0) (countedDecoder D1) (countedDecoder D2) (countedDecoder D3) (countedDecoder D4) (countedDecoder D5) (countedDecoder D6) (countedDecoder D7)).decode s b e).2.2.2.2.1.2.finishes ≤ s.2.2.2.1.2.finishes + 1 ∧
      ((tupleDecoder8 (countedDecoder D0) (countedDecoder D1) (countedDecoder D2) (countedDecoder D3) (countedDecoder D4) (countedDecoder D5) (countedDecoder D6) (countedDecoder D7)).decode s b e).2.2.2.2.2.1.2.decodes ≤ s.2.2.2.2.1.2.decodes + 1 ∧ ((tupleDecoder8 (countedDecoder D0) (countedDecoder D1) (countedDecoder D2) (countedDecoder D3) (countedDecoder D4) (countedDecoder D5) (countedDecoder D6) (countedDecoder D7)).decode s b e).2.2.2.2.2.1.2.finishes ≤ s.2.2.2.2.1.2.finishes + 1 ∧
      ((tupleDecoder8 (countedDecoder D0) (countedDecoder D1) (countedDecoder D2) (countedDecoder D3) (countedDecoder D4) (countedDecoder D5) (countedDecoder D6) (countedDecoder D7)).decode s b e).2.2.2.2.2.2.1.2.decodes ≤ s.2.2.2.2.2.1.2.decodes + 1 ∧ ((tupleDecoder8 (countedDecoder D0) (countedDecoder D1) (countedDecoder D2) (countedDecoder D3) (countedDecoder D4) (countedDecoder D5) (countedDecoder D6) (countedDecoder D7)).decode s b e).2.2.2.2.2.2.1.2.finishes ≤ s.2.2.2.2.2.1.2.finishes + 1 ∧
      ((tupleDecoder8 (countedDecoder D0) (countedDecoder D1) (countedDecoder D2) (countedDecoder D3) (countedDecoder D4) (countedDecoder D5) (countedDecoder D6) (countedDecoder D7)).decode s b e).2.2.2.2.2.2.2.1.2.decodes ≤ s.2.2.2.2.2.2.1.2.decodes + 1 ∧ ((tupleDecoder8 (countedDecoder D0) (countedDecoder D1) (countedDecoder D2) (countedDecoder D3) (countedDecoder D4) (countedDecoder D5) (countedDecoder D6) (countedDecoder D7)).decode s b e).2.2.2.2.2.2.2.1.2.finishes ≤ s.2.2.2.2.2.2.1.2.finishes + 1 ∧
      ((tupleDecoder8 (countedDecoder D0) (countedDecoder D1) (countedDecoder D2) (countedDecoder D3) (countedDecoder D4) (countedDecoder D5) (countedDecoder D6) (countedDecoder D7)).decode s b e).2.2.2.2.2.2.2.2.2.decodes ≤ s.2.2.2.2.2.2.2.2.decodes + 1 ∧ ((tupleDecoder8 (countedDecoder D0) (countedDecoder D1) (countedDecoder D2) (countedDecoder D3) (countedDecoder D4) (countedDecoder D5) (countedDecoder D6) (countedDecoder D7)).decode s b e).2.2.2.2.2.2.2.2.2.finishes ≤ s.2.2.2.2.2.2.2.2.finishes + 1 := by
    intro s b e
    simp only [tupleDecoder8]
    have h0 := tryDecode_calls D0 s.1 0 b e
    rcases hs0 : tryDecode (countedDecoder D0) s.1 0 b e with ⟨o0, t0⟩ | ⟨r, t0⟩
    rotate_left
    · have := h0.2 _ _ hs0
      simp only
      omega
    replace h0 := h0.1 _ _ hs0
    simp only
    have h1 := tryDecode_calls D1 s.2.1 o0 b e
    rcases hs1 : tryDecode (countedDecoder D1) s.2.1 o0 b e with ⟨o1, t1⟩ | ⟨r, t1⟩
    rotate_left
    · have := h1.2 _ _ hs1
      simp only
      omega
    replace h1 := h1.1 _ _ hs1
    simp only
    have h2 := tryDecode_calls D2 s.2.2.1 o1 b e
    rcases hs2 : tryDecode (countedDecoder D2) s.2.2.1 o1 b e with ⟨o2, t2⟩ | ⟨r, t2⟩
    rotate_left
    · have := h2.2 _ _ hs2
      simp only
      omega
    replace h2 := h2.1 _ _ hs2
    simp only
    have h3 := tryDecode_calls D3 s.2.2.2.1 o2 b e
    rcases hs3 : tryDecode (countedDecoder D3) s.2.2.2.1 o2 b e with ⟨o3, t3⟩ | ⟨r, t3⟩
    rotate_left
    · have := h3.2 _ _ hs3
      simp only
      omega
    replace h3 := h3.1 _ _ hs3
    simp only
    have h4 := tryDecode_calls D4 s.2.2.2.2.1 o3 b e
    rcases hs4 : tryDecode (countedDecoder D4) s.2.2.2.2.1 o3 b e with ⟨o4, t4⟩ | ⟨r, t4⟩
    rotate_left
    · have := h4.2 _ _ hs4
      simp only
      omega
    replace h4 := h4.1 _ _ hs4
    simp only
    have h5 := tryDecode_calls D5 s.2.2.2.2.2.1 o4 b e
    rcases hs5 : tryDecode (countedDecoder D5) s.2.2.2.2.2.1 o4 b e with ⟨o5, t5⟩ | ⟨r, t5⟩
    rotate_left
    · have := h5.2 _ _ hs5
      simp only
      omega
    replace h5 := h5.1 _ _ hs5
    simp only
    have h6 := tryDecode_calls D6 s.2.2.2.2.2.2.1 o5 b e
    rcases hs6 : tryDecode (countedDecoder D6) s.2.2.2.2.2.2.1 o5 b e with ⟨o6, t6⟩ | ⟨r, t6⟩
    rotate_left
    · have := h6.2 _ _ hs6
      simp only
      omega
    replace h6 := h6.1 _ _ hs6
    simp only
    have h7 := tryDecode_calls D7 s.2.2.2.2.2.2.2 o6 b e
    rcases hs7 : tryDecode (countedDecoder D7) s.2.2.2.2.2.2.2 o6 b e with ⟨o7, t7⟩ | ⟨r, t7⟩
    rotate_left
    · have := h7.2 _ _ hs7
      simp only
      omega
    replace h7 := h7.1 _ _ hs7
    simp only
    omega
  have hf : ∀ s, ((tupleDecoder8 (countedDecoder D0) (countedDecoder D1) (countedDecoder D2) (countedDecoder D3) (countedDecoder D4) (countedDecoder D5) (countedDecoder D6) (countedDecoder D7)).finish s).2.1.2.decodes ≤ s.1.2.decodes ∧ ((tupleDecoder8 (countedDecoder D0) (countedDecoder D1) (countedDecoder D2) (countedDecoder D3) (countedDecoder D4) (countedDecoder D5) (countedDecoder D6) (countedDecoder D7)).finish s).2.1.2.finishes ≤ s.1.2.finishes + 1 ∧
      ((tupleDecoder8 (countedDecoder D0) (countedDecoder D1) (countedDecoder D2) (countedDecoder D3) (countedDecoder D4) (countedDecoder D5) (countedDecoder D6) (countedDecoder D7)).finish s).2.2.1.2.decodes ≤ s.2.1.2.decodes ∧ ((tupleDecoder8 (countedDecoder D0) (countedDecoder D1) (countedDecoder D2) (countedDecoder D3) (countedDecoder D4) (countedDecoder D5) (countedDecoder D6) (countedDecoder D7)).finish s).2.2.1.2.finishes ≤ s.2.1.2.finishes + 1 ∧
      ((tupleDecoder8 (countedDecoder D0) (countedDecoder D1) (countedDecoder D2) (countedDecoder D3) (countedDecoder D4) (countedDecoder D5) (countedDecoder D6) (countedDecoder D7)).finish s).2.2.2.1.2.decodes ≤ s.2.2.1.2.decodes ∧ ((tupleDecoder8 (countedDecoder D0) (countedDecoder D1) (countedDecoder D2) (countedDecoder D3) (countedDecoder D4) (countedDecoder D5) (countedDecoder D6) (countedDecoder D7)).finish s).2.2.2.1.2.finishes ≤ s.2.2.1.2.finishes + 1 ∧
      ((tupleDecoder8 (countedDecoder D0) (countedDecoder D1) (countedDecoder D2) (countedDecoder D3) (countedDecoder D4) (countedDecoder D5) (countedDecoder D6) (countedDecoder D7)).finish s).2.2.2.2.1.2.decodes ≤ s.2.2.2.1.2.decodes ∧ ((tupleDecoder8 (countedDecoder D0) (countedDecoder D1) (countedDecoder D2) (countedDecoder D3) (countedDecoder D4) (countedDecoder D5) (countedDecoder D6) (countedDecoder D7)).finish s).2.2.2.2.1.2.finishes ≤ s.2.2.2.1.2.finishes + 1 ∧
      ((tupleDecoder8 (countedDecoder D0) (countedDecoder D1) (countedDecoder D2) (countedDecoder D3) (countedDecoder D4) (countedDecoder D5) (countedDecoder D6) (countedDecoder D7)).finish s).2.2.2.2.2.1.2.decodes ≤ s.2.2.2.2.1.2.decodes ∧ ((tupleDecoder8 (countedDecoder D0) (countedDecoder D1) (countedDecoder D2) (countedDecoder D3) (countedDecoder D4) (countedDecoder D5) (countedDecoder D6) (countedDecoder D7)).finish s).2.2.2.2.2.1.2.finishes ≤ s.2.2.2.2.1.2.finishes + 1 ∧
      ((tupleDecoder8 (countedDecoder D0) (countedDecoder D1) (countedDecoder D2) (countedDecoder D3) (countedDecoder D4) (countedDecoder D5) (countedDecoder D6) (countedDecoder D7)).finish s).2.2.2.2.2.2.1.2.decodes ≤ s.2.2.2.2.2.1.2.decodes ∧ ((tupleDecoder8 (countedDecoder D0) (countedDecoder D1) (countedDecoder D2) (countedDecoder D3) (countedDecoder D4) (countedDecoder D5) (countedDecoder D6) (countedDecoder D7)).finish s).2.2.2.2.2.2.1.2.finishes ≤ s.2.2.2.2.2.1.2.finishes + 1 ∧
      ((tupleDecoder8 (countedDecoder D0) (countedDecoder D1) (countedDecoder D2) (countedDecoder D3) (countedDecoder D4) (countedDecoder D5) (countedDecoder D6) (countedDecoder D7)).finish s).2.2.2.2.2.2.2.1.2.decodes ≤ s.2.2.2.2.2.2.1.2.decodes ∧ ((tupleDecoder8 (countedDecoder D0) (countedDecoder D1) (countedDecoder D2) (countedDecoder D3) (countedDecoder D4) (countedDecoder D5) (countedDecoder D6) (countedDecoder D7)).finish s).2.2.2.2.2.2.2.1.2.finishes ≤ s.2.2.2.2.2.2.1.2.finishes + 1 ∧
      ((tupleDecoder8 (countedDecoder D0) (countedDecoder D1) (countedDecoder D2) (countedDecoder D3) (countedDecoder D4) (countedDecoder D5) (countedDecoder D6) (countedDecoder D7)).finish s).2.2.2.2.2.2.2.2.2.decodes ≤ s.2.2.2.2.2.2.2.2.decodes ∧ ((tupleDecoder8 (countedDecoder D0) (countedDecoder D1) (countedDecoder D2) (countedDecoder D3) (countedDecoder D4) (countedDecoder D5) (countedDecoder D6) (countedDecoder D7)).finish s).2.2.2.2.2.2.2.2.2.finishes ≤ s.2.2.2.2.2.2.2.2.finishes + 1 := by
    intro s
    simp only [tupleDecoder8, countedDecoder]
    rcases D0.finish s.1.1 with ⟨r0, t0⟩
    rcases r0 with x0 | _ | _ | _ | _
    rotate_left
    · simp only [Res.step]; omega
    · simp only [Res.step]; omega
    · simp only [Res.step]; omega
    · simp only [Res.step]; omega
    simp only [Res.step]
    rcases D1.finish s.2.1.1 with ⟨r1, t1⟩
    rcases r1 with x1 | _ | _ | _ | _
    rotate_left
    · simp only; omega
    · simp only; omega
    · simp only; omega
    · simp only; omega
    simp only
    rcases D2.finish s.2.2.1.1 with ⟨r2, t2⟩
    rcases r2 with x2 | _ | _ | _ | _
    rotate_left
    · simp only; omega
    · simp only; omega
    · simp only; omega
    · simp only; omega
    simp only
    rcases D3.finish s.2.2.2.1.1 with ⟨r3, t3⟩
    rcases r3 with x3 | _ | _ | _ | _
    rotate_left
    · simp only; omega
    · simp only; omega
    · simp only; omega
    · simp only; omega
    simp only
    rcases D4.finish s.2.2.2.2.1.1 with ⟨r4, t4⟩
    rcases r4 with x4 | _ | _ | _ | _
    rotate_left
    · simp only; omega
    · simp only; omega
    · simp only; omega
    · simp only; omega
    simp only
    rcases D5.finish s.2.2.2.2.2.1.1 with ⟨r5, t5⟩
    rcases r5 with x5 | _ | _ | _ | _
    rotate_left
    · simp only; omega
    · simp only; omega
    · simp only; omega
    · simp only; omega
    simp only
    rcases D6.finish s.2.2.2.2.2.2.1.1 with ⟨r6, t6⟩
    rcases r6 with x6 | _ | _ | _ | _
    rotate_left
    · simp only; omega
    · simp only; omega
    · simp only; omega
    · simp only; omega
    simp only
    rcases D7.finish s.2.2.2.2.2.2.2.1 with ⟨r7, t7⟩
    rcases r7 with x7 | _ | _ | _ | _
    rotate_left
    · simp only; omega
    · simp only; omega
    · simp only; omega
    · simp only; omega
    simp only
    omega
  simp only [AtMostOnce]
  refine ⟨⟨?_, ?_⟩, ⟨?_, ?_⟩, ⟨?_, ?_⟩, ⟨?_, ?_⟩, ⟨?_, ?_⟩, ⟨?_, ?_⟩, ⟨?_, ?_⟩, ⟨?_, ?_⟩⟩ <;>
    first
    | (intro s b e; have := hd s b e; omega)
    | (intro s; have := hf s; omega)

end Bytecodec
