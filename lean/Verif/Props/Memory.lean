import Verif.Lemmas.Memory
/-!
# The memory a decoder of remaining bytes asks for (C81)
-/
namespace Bytecodec.Props
open Spec

/-- The decoder with the capacity of its vector answers every sequence of calls as the one without. -/
theorem C81_same_decoder : Alike remainingMemDecoder .new remainingBytesDecoder .new :=
  sim_mem.alike ⟨rfl, rfl⟩

/-- C81: if nothing is announced, the memory asked for is at most twice the bytes received for the item
(and at least 8 bytes as soon as it is not empty), whatever the chunks. -/
theorem C81_received_partial {s : RemainingMem} {c : Nat}
    (h : Offered (fun _ _ e => announced e = 0) remainingMemDecoder .new s c) :
    s.buf.length = c ∧ s.cap ≤ max 8 (2 * c) := by
  refine ⟨offered_length h, ?_⟩
  induction h with
  | new => exact Nat.zero_le _
  | @decoded s s' c n b e h0 hP hd ih =>
    have hl := offered_length h0
    rcases mem_decode s b e with ⟨_, h⟩ | ⟨_, _, h⟩ | ⟨_, _, h⟩ | ⟨_, k, hk, h⟩ | ⟨_, _, h⟩
    · rw [h] at hd; cases hd; exact ih
    · rw [h] at hd; cases hd
    · rw [h] at hd; cases hd
    · have hn : n = b.length := by rw [h] at hd; cases hd; rfl
      exact mem_cap hd (by omega) (by omega)
    · have hn : n = b.length := by rw [h] at hd; cases hd; rfl
      exact mem_cap hd (by omega) (by omega)
  | @failed s s' c b e r _ _ hd hn ih =>
    rcases mem_decode s b e with ⟨_, h⟩ | ⟨_, _, h⟩ | ⟨_, _, h⟩ | ⟨_, k, hk, h⟩ | ⟨_, _, h⟩ <;> rw [h] at hd <;> cases hd
    · exact ih
    · exact ih
    · exact ih
    · exact (hn _ rfl).elim
    · exact (hn _ rfl).elim
  | @item s _ c _ _ hf =>
    rcases mem_finish s with ⟨_, h⟩ | ⟨_, h⟩ <;> rw [h] at hf <;> cases hf
    exact Nat.zero_le _
  | @refused s _ c _ _ hf hn ih =>
    rcases mem_finish s with ⟨_, h⟩ | ⟨_, h⟩ <;> rw [h] at hf <;> cases hf
    · exact (hn _ rfl).elim
    · exact ih

example : Offered (fun _ _ e => announced e = 0) remainingMemDecoder .new ⟨[1, 2, 3], true, 8⟩ 3 :=
  .decoded (n := 1) (b := [3]) (e := Eos.new true)
    (.decoded (n := 2) (b := [1, 2]) (e := Eos.new false) .new rfl rfl) rfl rfl

/-- C81, with announcements: the memory is at most twice the most that was ever received and announced
together. -/
theorem C81_received_or_announced {M : Nat} {s : RemainingMem} {c : Nat}
    (h : Offered (fun c b e => c + b.length + announced e ≤ M) remainingMemDecoder .new s c) :
    s.cap ≤ max 8 (2 * M) := by
  induction h with
  | new => exact Nat.zero_le _
  | decoded h0 hP hd ih =>
    have hl := offered_length h0
    exact mem_cap hd (by omega) ih
  | failed h0 hP hd _ ih =>
    have hl := offered_length h0
    exact mem_cap hd (by omega) ih
  | @item s _ c _ _ hf =>
    rcases mem_finish s with ⟨_, h⟩ | ⟨_, h⟩ <;> rw [h] at hf <;> cases hf
    exact Nat.zero_le _
  | @refused s _ c _ _ hf hn ih =>
    rcases mem_finish s with ⟨_, h⟩ | ⟨_, h⟩ <;> rw [h] at hf <;> cases hf
    · exact (hn _ rfl).elim
    · exact ih

example : Offered (fun c b e => c + b.length + announced e ≤ 5) remainingMemDecoder .new ⟨[1, 2], false, 5⟩ 2 :=
  .decoded (n := 2) (b := [1, 2]) (e := Eos.withRemainingBytes (.finite 3)) .new (by decide) rfl

private theorem mem_room {s s' : RemainingMem} {b : Bytes} {e : Eos} {r : Res Nat} (hs : s.buf.length ≤ s.cap)
    (hd : remainingMemDecoder.decode s b e = (r, s')) :
    s'.buf.length ≤ s'.cap ∧ (s.eos = false → ∀ n, r = .ok n → s'.buf.length + announced e ≤ s'.cap) := by
  rcases mem_decode s b e with ⟨hi, h⟩ | ⟨_, _, h⟩ | ⟨_, _, h⟩ | ⟨_, k, hk, h⟩ | ⟨_, hk, h⟩ <;> rw [h] at hd <;> cases hd
  · exact ⟨hs, fun h => by rw [hi] at h; cases h⟩
  · exact ⟨hs, fun _ n h => by cases h⟩
  · exact ⟨hs, fun _ n h => by cases h⟩
  · simp only [announced, hk, List.length_append, growAmortized, growExact]
    refine ⟨?_, fun _ n _ => ?_⟩ <;> split <;> split <;> omega
  · have : announced e = 0 := by
      cases hc : e.remaining with
      | finite r => exact absurd hc (hk r)
      | _ => simp only [announced, hc]
    simp only [this, List.length_append, growAmortized]
    refine ⟨?_, fun _ n _ => ?_⟩ <;> split <;> omega

/-- C81 (what is received and what is announced fits): after a successful call the memory holds the bytes of the item
and leaves room for all that was announced to follow, whatever was done before. -/
theorem C81_room {s s' : RemainingMem} {b : Bytes} {e : Eos} {n : Nat} (h : Reach remainingMemDecoder .new s)
    (hi : s.eos = false) (hd : remainingMemDecoder.decode s b e = (.ok n, s')) :
    s'.buf.length + announced e ≤ s'.cap := by
  have key : s.buf.length ≤ s.cap := by
    refine Reach.inv (Inv := fun s => s.buf.length ≤ s.cap) (Nat.zero_le _) ?_ ?_ h
    · intro s b e h _
      exact (mem_room h rfl).1
    · intro s h
      rcases mem_finish s with ⟨_, g⟩ | ⟨_, g⟩ <;> rw [g]
      · exact Nat.zero_le _
      · exact h
  exact (mem_room key hd).2 hi n rfl

/-- C81 (asked for once): as long as what arrives and what is announced fits, no more memory is asked for. With
`C81_room`: once the bytes that are still to come are announced, and the announcement is kept, there is no further
request. -/
theorem C81_once {s s' : RemainingMem} {b : Bytes} {e : Eos} {n : Nat} (hf : s.buf.length + b.length + announced e ≤ s.cap)
    (hd : remainingMemDecoder.decode s b e = (.ok n, s')) : s'.cap = s.cap := by
  rcases mem_decode s b e with ⟨_, h⟩ | ⟨_, _, h⟩ | ⟨_, _, h⟩ | ⟨_, k, hk, h⟩ | ⟨_, hk, h⟩
  · rw [h] at hd; cases hd; rfl
  · rw [h] at hd; cases hd
  · rw [h] at hd; cases hd
  · rw [h] at hd
    cases hd
    simp only [announced, hk] at hf
    simp only [growAmortized, growExact]
    split <;> split <;> omega
  · rw [h] at hd
    cases hd
    simp only [growAmortized]
    split <;> omega

/-- Three bytes, then one more with nine announced, then these nine. -/
example : ∃ s1 s2 s3, remainingMemDecoder.decode .new [1, 2, 3] (Eos.new false) = (.ok 3, s1) ∧ s1.cap = 8 ∧
    remainingMemDecoder.decode s1 [4] (Eos.withRemainingBytes (.finite 9)) = (.ok 1, s2) ∧ s2.cap = 13 ∧
    remainingMemDecoder.decode s2 [5, 6, 7, 8, 9, 10, 11, 12, 13] (Eos.new true) = (.ok 9, s3) ∧ s3.cap = 13 :=
  ⟨_, _, _, rfl, rfl, rfl, rfl, rfl, rfl⟩

/-- The state of `remaining` in a frame of `n` bytes. -/
private def InFrame (n : Nat) (s : LengthState RemainingMem) : Prop :=
  s.expected = n ∧ s.remaining + s.inner.buf.length = n ∧
    (s.inner.cap = n ∨ s.inner = RemainingMem.new) ∧ (s.remaining = 0 → s.inner.eos = true ∨ s.inner = RemainingMem.new)

private theorem grow_frame (cap len k n : Nat) (h : cap = n ∨ cap = 0 ∧ len = 0) (hk : len + k ≤ n) :
    growAmortized (growExact cap len (k + (n - len - k))) len k = n := by
  have : growExact cap len (k + (n - len - k)) = n := by
    simp only [growExact]; split <;> omega
  rw [this]
  simp only [growAmortized]
  split <;> omega

private theorem frame_decode {n : Nat} {s s' : LengthState RemainingMem} {b : Bytes} {e : Eos} {r : Res Nat}
    (h : InFrame n s) (hd : (lengthDecoder remainingMemDecoder).decode s b e = (r, s')) :
    InFrame n s' ∧ (r = .ok b.length → b ≠ [] → s'.inner.cap = n) := by
  obtain ⟨h1, h2, h3, h4⟩ := h
  obtain ⟨i, x, k⟩ := s
  simp only at h1 h2 h3 h4
  subst h1
  have stay : InFrame x ⟨i, x, k⟩ := ⟨rfl, h2, h3, h4⟩
  have hlen : (b.take (min b.length k)).length = min b.length k := by simp
  have go : Res.step (remainingMemDecoder.decode i (b.take (min b.length k))
        (Eos.withRemainingBytes (.finite (k - min b.length k)))) (fun j => (⟨j, x, k⟩ : LengthState RemainingMem))
        (fun size j => if k < size then (.panic, ⟨j, x, k⟩) else (.ok size, ⟨j, x, k - size⟩)) = (r, s') →
      InFrame x s' ∧ (r = .ok b.length → b ≠ [] → s'.inner.cap = x) := by
    intro hd
    rcases mem_decode i (b.take (min b.length k)) (Eos.withRemainingBytes (.finite (k - min b.length k))) with
      ⟨hi, h⟩ | ⟨hi, _, h⟩ | ⟨hi, _, h⟩ | ⟨hi, j, hj, h⟩ | ⟨hi, hj, _⟩
    · rw [h] at hd
      simp only [Res.step, if_neg (Nat.not_lt_zero k)] at hd
      cases hd
      refine ⟨⟨rfl, h2, h3, h4⟩, fun hb hne => ?_⟩
      cases hb' : b with
      | nil => exact absurd hb' hne
      | cons => rw [hb'] at hb; cases hb
    · rw [h] at hd; cases hd; exact ⟨stay, fun h => by cases h⟩
    · rw [h] at hd; cases hd; exact ⟨stay, fun h => by cases h⟩
    · cases hj
      rw [h] at hd
      simp only [Res.step, hlen] at hd
      rw [if_neg (by omega)] at hd
      cases hd
      have hg : growAmortized (growExact i.cap i.buf.length (min b.length k + (k - min b.length k))) i.buf.length
          (min b.length k) = x := by
        have := grow_frame i.cap i.buf.length (min b.length k) x
          (h3.elim .inl fun h => .inr (by rw [h]; exact ⟨rfl, rfl⟩)) (by omega)
        rwa [show x - i.buf.length - min b.length k = k - min b.length k by omega] at this
      refine ⟨⟨rfl, ?_, .inl hg, fun h0 => .inl ?_⟩, fun _ _ => hg⟩
      · simp; omega
      · simp only at h0
        simp [Eos.withRemainingBytes, Eos.isReached, h0]
    · exact (hj _ rfl).elim
  simp only [lengthDecoder] at hd
  split at hd
  · split at hd
    · cases hd; exact ⟨stay, fun h => by cases h⟩
    · split at hd
      · cases hd; exact ⟨stay, fun h => by cases h⟩
      · exact go hd
  · exact go hd

private theorem frame_finish {n : Nat} {s : LengthState RemainingMem} (h : InFrame n s) :
    InFrame n ((lengthDecoder remainingMemDecoder).finish s).2 := by
  obtain ⟨h1, h2, h3, h4⟩ := h
  obtain ⟨i, x, k⟩ := s
  simp only at h1 h2 h3 h4
  subst h1
  simp only [lengthDecoder]
  split
  · next hk =>
    rcases mem_finish i with ⟨hi, h⟩ | ⟨hi, h⟩ <;> rw [h]
    · exact ⟨rfl, by simp [Res.step, RemainingMem.new], .inr rfl, fun _ => .inr rfl⟩
    · have hnew : i = RemainingMem.new := (h4 hk).elim (fun h => by rw [hi] at h; cases h) id
      subst hnew
      exact ⟨rfl, by simp [Res.step, RemainingMem.new], .inr rfl, fun _ => .inr rfl⟩
  · exact ⟨rfl, h2, h3, h4⟩

private theorem frame_reach {n : Nat} {s : LengthState RemainingMem}
    (h : Reach (lengthDecoder remainingMemDecoder) (.new .new n) s) : InFrame n s := by
  refine Reach.inv (Inv := InFrame n) ⟨rfl, by simp [LengthState.new, RemainingMem.new], .inr rfl, fun _ => .inr rfl⟩
    ?_ ?_ h
  · intro s b e h _
    exact (frame_decode h rfl).1
  · intro s h
    exact frame_finish h

/-- C81, frames: in a `length(n)` frame the memory is asked for once, with the first bytes, and is exactly
the size of the frame: in every state a caller can reach the decoder owns nothing yet, or exactly `n`
bytes; and it owns the `n` bytes after the first call that took something. -/
theorem C81_frame {n : Nat} {s : LengthState RemainingMem}
    (h : Reach (lengthDecoder remainingMemDecoder) (.new .new n) s) :
    (s.inner.cap = n ∨ s.inner.cap = 0 ∧ s.inner.buf = []) ∧
    ∀ b e s', b ≠ [] → (lengthDecoder remainingMemDecoder).decode s b e = (.ok b.length, s') → s'.inner.cap = n := by
  have hI := frame_reach h
  refine ⟨hI.2.2.1.elim .inl fun h => .inr (by rw [h]; exact ⟨rfl, rfl⟩), ?_⟩
  intro b e s' hb hd
  exact (frame_decode hI hd).2 rfl hb

example : ((lengthDecoder remainingMemDecoder).decode (.new .new 3) [1, 2] (Eos.new false)).1 = .ok 2 ∧
    ((lengthDecoder remainingMemDecoder).decode (.new .new 3) [1, 2] (Eos.new false)).2.inner.cap = 3 := by
  decide +kernel

/-- C81 (the code deviates): the memory does not follow the data received. Whoever chooses the length of
a frame (e.g. by a length prefix) makes the decoder ask for any amount of memory below 2^63 bytes by
sending a single byte. -/
theorem C81_announced_fails (n : Nat) (h0 : 0 < n) (hn : n < 2 ^ 63) : ∃ t,
    (lengthDecoder remainingMemDecoder).decode (.new .new n) [0] (Eos.new false) = (.ok 1, t) ∧ t.inner.cap = n := by
  have hm : min 1 n = 1 := by omega
  refine ⟨⟨⟨[0], (Eos.withRemainingBytes (.finite (n - 1))).isReached, n⟩, n, n - 1⟩, ?_, rfl⟩
  have hg : growAmortized (growExact 0 0 (1 + (n - 1))) 0 1 = n := by
    have := grow_frame 0 0 1 n (.inr ⟨rfl, rfl⟩) (by omega)
    rwa [Nat.sub_zero] at this
  have h1 : ¬ 2 ^ 64 ≤ 1 + (n - 1) := by omega
  have h2 : ¬ 2 ^ 63 ≤ 0 + (1 + (n - 1)) := by omega
  simp only [lengthDecoder, LengthState.new, Eos.new, Eos.remainingBytes, ByteCount.toU64, List.length_singleton, hm,
    List.take_succ_cons, List.take_zero, remainingMemDecoder, RemainingMem.new, Eos.withRemainingBytes,
    if_neg (Bool.false_ne_true), List.length_nil, if_neg h1, if_neg h2, Res.step, if_neg (show ¬ n < 1 by omega),
    List.nil_append, hg]

/-- The same with `max_bytes` around the frame: a limit of one byte does not help. -/
theorem C81_max_outside_fails (n : Nat) (h0 : 0 < n) (hn : n < 2 ^ 63) : ∃ t,
    (maxBytesDecoder (lengthDecoder remainingMemDecoder)).decode (.new (.new .new n) 1) [0] (Eos.new false) =
      (.ok 1, t) ∧ t.inner.inner.cap = n := by
  obtain ⟨t, ht, hc⟩ := C81_announced_fails n h0 hn
  refine ⟨⟨t, 1, 1⟩, ?_, hc⟩
  have : (maxBytesDecoder (lengthDecoder remainingMemDecoder)).decode (.new (.new .new n) 1) [0] (Eos.new false) =
      Res.step ((lengthDecoder remainingMemDecoder).decode (.new .new n) [0] (Eos.new false))
        (fun i => ⟨i, 0, 1⟩) fun size i => (.ok size, ⟨i, 0 + size, 1⟩) := rfl
  rw [this, ht]
  rfl

/-- The state of `remaining.max_bytes(m).length(…)`. -/
private def InLimit (m : Nat) (s : LengthState (MaxBytesState RemainingMem)) : Prop :=
  s.inner.max = m ∧ s.inner.inner.buf.length = s.inner.consumed ∧ s.inner.consumed ≤ m ∧
    s.inner.inner.cap ≤ max 8 (2 * m) ∧ (s.remaining = 0 → s.inner.inner.eos = true ∨ s.inner.inner.buf = [])

private theorem limit_decode {m : Nat} {s s' : LengthState (MaxBytesState RemainingMem)} {b : Bytes} {e : Eos}
    {r : Res Nat} (h : InLimit m s)
    (hd : (lengthDecoder (maxBytesDecoder remainingMemDecoder)).decode s b e = (r, s')) : InLimit m s' := by
  obtain ⟨⟨i, c, x⟩, ex, k⟩ := s
  obtain ⟨h1, h2, h3, h4, h5⟩ := h
  simp only at h1 h2 h3 h4 h5
  subst h1
  have stay : InLimit x ⟨⟨i, c, x⟩, ex, k⟩ := ⟨rfl, h2, h3, h4, h5⟩
  have hlen : (b.take (min b.length k)).length = min b.length k := by simp
  have go : Res.step ((maxBytesDecoder remainingMemDecoder).decode ⟨i, c, x⟩ (b.take (min b.length k))
        (Eos.withRemainingBytes (.finite (k - min b.length k))))
        (fun j => (⟨j, ex, k⟩ : LengthState (MaxBytesState RemainingMem)))
        (fun size j => if k < size then (.panic, ⟨j, ex, k⟩) else (.ok size, ⟨j, ex, k - size⟩)) = (r, s') →
      InLimit x s' := by
    intro hd
    rcases maxBytes_cases remainingMemDecoder ⟨i, c, x⟩ (b.take (min b.length k))
      (Eos.withRemainingBytes (.finite (k - min b.length k))) with ⟨h, _⟩ | ⟨h, _⟩ | ⟨_, _, hb, h⟩
    · rw [h] at hd; cases hd; exact stay
    · rw [h] at hd; cases hd; exact stay
    · have hb := (hb _ rfl).1
      simp only [hlen] at hb
      rcases mem_decode i (b.take (min b.length k)) (Eos.withRemainingBytes (.finite (k - min b.length k))) with
        ⟨hi, g⟩ | ⟨hi, _, g⟩ | ⟨hi, _, g⟩ | ⟨hi, j, hj, g⟩ | ⟨hi, hj, _⟩
      · simp only [g] at h
        rw [h] at hd
        simp only [Res.step, if_neg (Nat.not_lt_zero k)] at hd
        cases hd
        exact ⟨rfl, h2, h3, h4, fun _ => .inl hi⟩
      · simp only [g] at h
        rw [h] at hd; cases hd; exact stay
      · simp only [g] at h
        rw [h] at hd; cases hd; exact stay
      · cases hj
        have hc := mem_cap g (M := x) (by simp only [hlen, announced, Eos.withRemainingBytes]; omega) h4
        simp only [hlen] at hc
        simp only [g] at h
        rw [h] at hd
        simp only [Res.step, hlen] at hd
        rw [if_neg (by omega)] at hd
        cases hd
        refine ⟨rfl, by simp [h2], by simp only; omega, hc, fun h0 => .inl ?_⟩
        simp only at h0
        simp [Eos.withRemainingBytes, Eos.isReached, h0]
      · exact (hj _ rfl).elim
  simp only [lengthDecoder] at hd
  split at hd
  · split at hd
    · cases hd; exact stay
    · split at hd
      · cases hd; exact stay
      · exact go hd
  · exact go hd

/-- C81, the remedy: with `max_bytes(m)` inside the frame, directly around the decoder of remaining bytes,
no announcement and no history of calls makes it ask for more than twice the limit. -/
theorem C81_max_inside {n m : Nat} {s : LengthState (MaxBytesState RemainingMem)}
    (h : Reach (lengthDecoder (maxBytesDecoder remainingMemDecoder)) (.new (.new .new m) n) s) :
    s.inner.inner.cap ≤ max 8 (2 * m) := by
  have key : InLimit m s := by
    refine Reach.inv (Inv := InLimit m) ⟨rfl, rfl, Nat.zero_le _, Nat.zero_le _, fun _ => .inr rfl⟩ ?_ ?_ h
    · intro s b e h _
      exact limit_decode h rfl
    · intro s h
      obtain ⟨⟨i, c, x⟩, ex, k⟩ := s
      obtain ⟨h1, h2, h3, h4, h5⟩ := h
      simp only at h1 h2 h3 h4 h5
      subst h1
      simp only [lengthDecoder, maxBytesDecoder]
      split
      · next hk =>
        rcases mem_finish i with ⟨hi, g⟩ | ⟨hi, g⟩ <;> rw [g]
        · exact ⟨rfl, rfl, Nat.zero_le _, Nat.zero_le _, fun _ => .inr rfl⟩
        · have hnil : i.buf = [] := (h5 hk).elim (fun h => by rw [hi] at h; cases h) id
          exact ⟨rfl, by simp [Res.step, hnil], Nat.zero_le _, h4, fun _ => .inr hnil⟩
      · exact ⟨rfl, h2, h3, h4, h5⟩
  exact key.2.2.2.1

/-- With the limit inside, the oversized frame is refused at the first call and nothing is allocated. -/
example : (lengthDecoder (maxBytesDecoder remainingMemDecoder)).decode (.new (.new .new 10) (2 ^ 40)) [0] (Eos.new false) =
    (.err .invalidInput, .new (.new .new 10) (2 ^ 40)) := by
  rfl

end Bytecodec.Props
