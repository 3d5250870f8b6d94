import Verif.Lemmas.MonoMemory
/-!
# The memory a monolithic decoder asks for (C90)
-/
namespace Bytecodec.Props
open Spec

variable {α : Type}

/-- The decoder with the capacity of its vector answers every sequence of calls as the one without. -/
theorem C90_same_decoder (parse : MonolithicParser α) :
    Alike (monoMemDecoder parse) .new (monolithicDecoder parse) .new :=
  (sim_monoMem parse).alike ⟨rfl, rfl⟩

/-- C90: if no item has more than `M` bytes before its last chunk, the memory is at most `2 * M` bytes (or
8), whatever the parser does, however many items there are, and whatever is announced. -/
theorem C90_received {parse : MonolithicParser α} {M : Nat} {s : MonoMem α} {c : Nat}
    (h : Served (fun c b e => e.isReached = false → c + b.length ≤ M) (monoMemDecoder parse) .new s c) :
    s.cap ≤ max 8 (2 * M) := by
  induction h with
  | new => exact Nat.zero_le _
  | @decoded s s' c n b e h0 hi hP hd ih =>
    have hl := (served_length h0).1 (by
      cases hs : s.item with
      | none => rfl
      | some x => simp [monoMemDecoder, hs] at hi)
    rcases monoMem_decode parse s b e with ⟨_, x, m, _, h⟩ | ⟨_, r, _, h⟩ | ⟨he, h⟩ <;> rw [h] at hd <;> cases hd
    · exact ih
    · exact ih
    · have := hP he
      exact growAmortized_le _ _ _ _ ih (by omega)
  | @failed s s' c b e r h0 hi hP hd hn ih =>
    rcases monoMem_decode parse s b e with ⟨_, x, m, _, h⟩ | ⟨_, r, _, h⟩ | ⟨he, h⟩ <;> rw [h] at hd <;> cases hd
    · exact ih
    · exact ih
    · exact (hn _ rfl).elim
  | @item s s' c x _ hf ih =>
    rcases monoMem_finish parse s with ⟨y, hy, h⟩ | ⟨_, h⟩ <;> rw [h] at hf <;> cases hf
    exact ih
  | @refused s s' c r _ hf hn ih =>
    rcases monoMem_finish parse s with ⟨y, hy, h⟩ | ⟨_, h⟩ <;> rw [h] at hf <;> cases hf
    · exact ih
    · exact ih

/-- Two items of three and of two bytes, of which the first two bytes and the first byte are copied. -/
example : Served (fun c b e => e.isReached = false → c + b.length ≤ 2)
    (monoMemDecoder fun a b => (.ok (a ++ b), a.length + b.length)) .new ⟨none, [4], 8⟩ (0 + 1) :=
  .decoded (b := [4]) (e := Eos.withRemainingBytes (.finite 1000))
    (.item (x := [1, 2, 3])
      (.decoded (n := 1) (b := [3]) (e := Eos.new true)
        (.decoded (n := 2) (b := [1, 2]) (e := Eos.new false) .new rfl (by decide) rfl) rfl (by decide) rfl) rfl)
    rfl (by decide) rfl

/-- The vector holds what it must: its capacity is never less than the bytes in it. -/
theorem C90_room {parse : MonolithicParser α} {s : MonoMem α} (h : Reach (monoMemDecoder parse) .new s) :
    s.buf.length ≤ s.cap := by
  induction h with
  | refl => exact Nat.le_refl _
  | @decode s b e _ _ ih =>
    rcases monoMem_decode parse s b e with ⟨_, x, m, _, h⟩ | ⟨_, r, _, h⟩ | ⟨_, h⟩ <;> rw [h]
    · exact Nat.zero_le _
    · exact ih
    · simp only [List.length_append, growAmortized]
      split <;> omega
  | @finish s _ ih =>
    rcases monoMem_finish parse s with ⟨y, hy, h⟩ | ⟨_, h⟩ <;> rw [h] <;> exact ih

example : Reach (monoMemDecoder fun a b => (.ok (a ++ b), a.length + b.length)) .new ⟨none, [1, 2], 8⟩ :=
  .decode [1, 2] (Eos.new false) .refl EosSane.newFalse

/-- C90, the last chunk: the bytes passed together with the end of the stream are not copied; the decoder asks
for no memory, however many they are. -/
theorem C90_last_chunk (parse : MonolithicParser α) (s : MonoMem α) (b : Bytes) {e : Eos} (he : e.isReached = true) :
    ((monoMemDecoder parse).decode s b e).2.cap = s.cap := by
  rcases monoMem_decode parse s b e with ⟨_, x, m, _, h⟩ | ⟨_, r, _, h⟩ | ⟨h', _⟩
  · rw [h]
  · rw [h]
  · rw [he] at h'; cases h'

example : (Eos.new true).isReached = true := rfl

/-- C90, announcements: the memory after a call does not depend on how many bytes are announced to follow. -/
theorem C90_announcements (parse : MonolithicParser α) (s : MonoMem α) (b : Bytes) {e e' : Eos}
    (h : e.isReached = false) (h' : e'.isReached = false) :
    (monoMemDecoder parse).decode s b e = (monoMemDecoder parse).decode s b e' := by
  simp only [monoMemDecoder, h, h']

example : (Eos.withRemainingBytes (.finite 1000000)).isReached = false ∧ (Eos.new false).isReached = false := ⟨rfl, rfl⟩

/-- C90, afterwards: the decoder never gives memory back, neither after an item nor after an error. -/
theorem C90_retained (parse : MonolithicParser α) (s : MonoMem α) :
    (∀ b e, s.cap ≤ ((monoMemDecoder parse).decode s b e).2.cap) ∧
    ((monoMemDecoder parse).finish s).2.cap = s.cap := by
  refine ⟨fun b e => ?_, ?_⟩
  · rcases monoMem_decode parse s b e with ⟨_, x, m, _, h⟩ | ⟨_, r, _, h⟩ | ⟨_, h⟩ <;> rw [h]
    · exact Nat.le_refl _
    · exact Nat.le_refl _
    · simp only [growAmortized]
      split <;> omega
  · rcases monoMem_finish parse s with ⟨y, hy, h⟩ | ⟨_, h⟩ <;> rw [h]

/-- C90 in a frame: inside `length(n)` the memory is at most `2 * n` bytes (or 8), in every history of calls. -/
theorem C90_length {parse : MonolithicParser α} {n : Nat} {s : LengthState (MonoMem α)}
    (h : Reach (lengthDecoder (monoMemDecoder parse)) (.new .new n) s) :
    s.inner.cap ≤ max 8 (2 * n) :=
  (mono_frame h).2.2.2

/-- C90 in a frame, the first chunk: a frame that announces any number of bytes and starts with a chunk `b` has
the decoder ask for at most twice that chunk (or 8 bytes). `RemainingBytesDecoder` asks for the whole frame
(`C81_announced_fails`). -/
theorem C90_length_first (parse : MonolithicParser α) (n : Nat) (b : Bytes) (e : Eos) :
    ((lengthDecoder (monoMemDecoder parse)).decode (.new .new n) b e).2.inner.cap ≤ max 8 (2 * b.length) := by
  have go : ∀ (l : Nat) (e' : Eos),
      ((monoMemDecoder parse).decode .new (b.take l) e').2.cap ≤ max 8 (2 * b.length) := by
    intro l e'
    have hl : (b.take l).length ≤ b.length := by simp only [List.length_take]; omega
    rcases monoMem_decode parse .new (b.take l) e' with ⟨_, x, m, _, h⟩ | ⟨_, r, _, h⟩ | ⟨_, h⟩ <;> rw [h]
    · exact Nat.zero_le _
    · exact Nat.zero_le _
    · exact growAmortized_le _ _ _ _ (Nat.zero_le _) (by simpa [MonoMem.new] using hl)
  have go2 : ∀ l e' (f : Nat → MonoMem α → Res Nat × LengthState (MonoMem α)),
      (∀ k i, (f k i).2.inner = i) →
      (Res.step ((monoMemDecoder parse).decode .new (b.take l) e')
        (fun i => ({ (LengthState.new .new n : LengthState (MonoMem α)) with inner := i })) f).2.inner.cap ≤
        max 8 (2 * b.length) := by
    intro l e' f hf
    have := go l e'
    rcases hd : (monoMemDecoder parse).decode .new (b.take l) e' with ⟨r, i⟩
    rw [hd] at this
    cases r <;> simp only [Res.step, hf] <;> exact this
  simp only [lengthDecoder]
  split
  · split
    · exact Nat.zero_le _
    · split
      · exact Nat.zero_le _
      · exact go2 _ _ _ (by intro k i; split <;> rfl)
  · exact go2 _ _ _ (by intro k i; split <;> rfl)

/-- C90 under a limit: inside `max_bytes(m)` the memory is at most `2 * m` bytes (or 8), if items are taken when
they are there and only then. -/
theorem C90_max_bytes {parse : MonolithicParser α} {m : Nat} {s : MaxBytesState (MonoMem α)}
    (h : ReachItem (maxBytesDecoder (monoMemDecoder parse)) (.new .new m) s) :
    s.inner.cap ≤ max 8 (2 * m) :=
  (mono_limit h).2.2.2.2

/-- Three bytes in a frame of 1000, and under a limit of 5. -/
example : Reach (lengthDecoder (monoMemDecoder fun a b => (.ok (a ++ b), a.length + b.length)))
    (.new .new 1000) ⟨⟨none, [1, 2, 3], 8⟩, 1000, 997⟩ :=
  .decode [1, 2, 3] (Eos.new false) .refl EosSane.newFalse

example : ReachItem (maxBytesDecoder (monoMemDecoder fun a b => (.ok (a ++ b), a.length + b.length)))
    (.new .new 5) ⟨⟨none, [1, 2, 3], 8⟩, 3, 5⟩ :=
  .decode [1, 2, 3] (Eos.new false) .refl EosSane.newFalse rfl rfl

end Bytecodec.Props
