import Verif.Model.MonoMemory
import Verif.Model.DecCombinator
import Verif.Lemmas.Memory
/-!
# Lemmas: the memory of `MonolithicDecoder`
-/
namespace Bytecodec
open Spec

variable {α : Type}

theorem sim_monoMem (parse : MonolithicParser α) :
    Sim (monoMemDecoder parse) (monolithicDecoder parse) (fun s t => s.item = t.item ∧ s.buf = t.buf) where
  idle := by rintro s t ⟨h, _⟩; simp only [monoMemDecoder, monolithicDecoder, h]
  req := by rintro s t ⟨h, _⟩; simp only [monoMemDecoder, monolithicDecoder, h]
  decode := by
    rintro ⟨si, sb, sc⟩ ⟨ti, tb⟩ ⟨h1, h2⟩ b e
    simp only at h1 h2
    subst h1 h2
    simp only [monoMemDecoder, monolithicDecoder]
    split
    · rcases parse sb b with ⟨r, n⟩
      cases r <;> exact ⟨rfl, rfl, rfl⟩
    · exact ⟨rfl, rfl, rfl⟩
  finish := by
    rintro ⟨si, sb, sc⟩ ⟨ti, tb⟩ ⟨h1, h2⟩
    simp only at h1 h2
    subst h1 h2
    cases si <;> exact ⟨rfl, rfl, rfl⟩

/-- What a `decode` call does. -/
theorem monoMem_decode (parse : MonolithicParser α) (s : MonoMem α) (b : Bytes) (e : Eos) :
    (e.isReached = true ∧ ∃ x n, n ≤ b.length ∧
      (monoMemDecoder parse).decode s b e = (.ok n, ⟨some x, [], s.cap⟩)) ∨
    (e.isReached = true ∧ ∃ r : Res Nat, (∀ n, r ≠ .ok n) ∧ (monoMemDecoder parse).decode s b e = (r, s)) ∨
    (e.isReached = false ∧ (monoMemDecoder parse).decode s b e =
      (.ok b.length, ⟨s.item, s.buf ++ b, growAmortized s.cap s.buf.length b.length⟩)) := by
  cases h : e.isReached with
  | false => exact .inr (.inr ⟨rfl, by simp [monoMemDecoder, h]⟩)
  | true =>
    simp only [monoMemDecoder, h, if_true]
    rcases parse s.buf b with ⟨r, n⟩
    cases r with
    | ok x => exact .inl ⟨trivial, x, min (n - s.buf.length) b.length, by omega, rfl⟩
    | err k => exact .inr (.inl ⟨trivial, .err k, by simp, rfl⟩)
    | panic => exact .inr (.inl ⟨trivial, .panic, by simp, rfl⟩)
    | capacity => exact .inr (.inl ⟨trivial, .capacity, by simp, rfl⟩)
    | diverge => exact .inr (.inl ⟨trivial, .diverge, by simp, rfl⟩)

theorem monoMem_finish (parse : MonolithicParser α) (s : MonoMem α) :
    (∃ x, s.item = some x ∧ (monoMemDecoder parse).finish s = (.ok x, { s with item := none })) ∨
    (s.item = none ∧ (monoMemDecoder parse).finish s = (.err .incompleteDecoding, s)) := by
  obtain ⟨i, b, c⟩ := s
  cases i with
  | none => exact .inr ⟨rfl, rfl⟩
  | some x => exact .inl ⟨x, rfl, rfl⟩

/-- The vector between items is empty, and holds what has been consumed in between. -/
theorem served_length {parse : MonolithicParser α} {P : Nat → Bytes → Eos → Prop} {s : MonoMem α} {c : Nat}
    (h : Served P (monoMemDecoder parse) .new s c) :
    (s.item = none → s.buf.length = c) ∧ (s.item.isSome = true → s.buf = []) := by
  induction h with
  | new => exact ⟨fun _ => rfl, fun _ => rfl⟩
  | @decoded s s' c n b e _ hi _ hd ih =>
    have hn : s.item = none := by
      cases hs : s.item with
      | none => rfl
      | some x => simp [monoMemDecoder, hs] at hi
    rcases monoMem_decode parse s b e with ⟨_, x, m, _, h⟩ | ⟨_, r, hr, h⟩ | ⟨_, h⟩ <;> rw [h] at hd <;> cases hd
    · exact ⟨fun h => (by cases h), fun _ => rfl⟩
    · exact (hr _ rfl).elim
    · refine ⟨fun _ => ?_, fun h => ?_⟩
      · simp [ih.1 hn]
      · simp [hn] at h
  | @failed s s' c b e r _ _ _ hd hn ih =>
    rcases monoMem_decode parse s b e with ⟨_, x, m, _, h⟩ | ⟨_, r, hr, h⟩ | ⟨_, h⟩ <;> rw [h] at hd <;> cases hd
    · exact (hn _ rfl).elim
    · exact ih
    · exact (hn _ rfl).elim
  | @item s s' c x _ hf ih =>
    rcases monoMem_finish parse s with ⟨y, hy, h⟩ | ⟨_, h⟩ <;> rw [h] at hf <;> cases hf
    refine ⟨fun _ => ?_, fun h => (by cases h)⟩
    simp [ih.2 (by simp [hy])]
  | @refused s s' c r _ hf hn ih =>
    rcases monoMem_finish parse s with ⟨y, hy, h⟩ | ⟨_, h⟩ <;> rw [h] at hf <;> cases hf
    · exact (hn _ rfl).elim
    · exact ih

/-- Inside a frame of `n` bytes: what is buffered and what is missing make up no more than the frame. -/
theorem mono_frame {parse : MonolithicParser α} {n : Nat} {s : LengthState (MonoMem α)}
    (h : Reach (lengthDecoder (monoMemDecoder parse)) (.new .new n) s) :
    s.expected = n ∧ s.inner.buf.length + s.remaining ≤ n ∧ (s.remaining = 0 → s.inner.buf = []) ∧
      s.inner.cap ≤ max 8 (2 * n) := by
  induction h with
  | refl => exact ⟨rfl, by simp [LengthState.new, MonoMem.new], fun _ => rfl, Nat.zero_le _⟩
  | @decode s b e _ _ ih =>
    obtain ⟨h1, h2, h3, h4⟩ := ih
    have go : ∀ t : LengthState (MonoMem α),
        (Res.step ((monoMemDecoder parse).decode s.inner (b.take (min b.length s.remaining))
            (Eos.withRemainingBytes (.finite (s.remaining - min b.length s.remaining))))
          (fun i => ({ s with inner := i } : LengthState (MonoMem α))) fun size i =>
            if s.remaining < size then ((.panic : Res Nat), { s with inner := i })
            else (.ok size, { s with inner := i, remaining := s.remaining - size })).2 = t →
        t.expected = n ∧ t.inner.buf.length + t.remaining ≤ n ∧ (t.remaining = 0 → t.inner.buf = []) ∧
          t.inner.cap ≤ max 8 (2 * n) := by
      rintro t rfl
      rcases monoMem_decode parse s.inner (b.take (min b.length s.remaining))
          (Eos.withRemainingBytes (.finite (s.remaining - min b.length s.remaining))) with
        ⟨_, x, m, hm, h⟩ | ⟨_, r, hr, h⟩ | ⟨he, h⟩ <;> rw [h]
      · simp only [Res.step]
        have hm' : m ≤ s.remaining := by simp only [List.length_take] at hm; omega
        rw [if_neg (by omega)]
        exact ⟨h1, by simp; omega, fun _ => rfl, h4⟩
      · cases r with
        | ok m => exact (hr _ rfl).elim
        | _ => exact ⟨h1, h2, h3, h4⟩
      · simp only [Res.step]
        have hlen : (b.take (min b.length s.remaining)).length = min b.length s.remaining := by
          simp only [List.length_take]; omega
        have hlt : min b.length s.remaining < s.remaining := by
          simp [Eos.isReached, Eos.withRemainingBytes] at he
          omega
        rw [if_neg (by omega)]
        refine ⟨h1, ?_, fun hz => ?_, ?_⟩
        · simp only [List.length_append, hlen]; omega
        · simp only [hlen] at hz; omega
        · exact growAmortized_le _ _ _ _ h4 (by omega)
    have keep := And.intro h1 (And.intro h2 (And.intro h3 h4))
    simp only [lengthDecoder]
    split
    · split
      · exact keep
      · split
        · exact keep
        · exact go _ rfl
    · exact go _ rfl
  | @finish s _ ih =>
    obtain ⟨h1, h2, h3, h4⟩ := ih
    simp only [lengthDecoder]
    by_cases h0 : s.remaining = 0
    · rw [if_pos h0]
      have hb := h3 h0
      rcases monoMem_finish parse s.inner with ⟨y, hy, h⟩ | ⟨_, h⟩ <;> rw [h] <;> simp only [Res.step] <;>
        exact ⟨h1, by simp [hb]; omega, fun _ => hb, h4⟩
    · rw [if_neg h0]; exact ⟨h1, h2, h3, h4⟩

/-- Under a limit of `m` bytes, as long as items are taken when they are there and only then. -/
theorem mono_limit {parse : MonolithicParser α} {m : Nat} {s : MaxBytesState (MonoMem α)}
    (h : ReachItem (maxBytesDecoder (monoMemDecoder parse)) (.new .new m) s) :
    s.max = m ∧ s.consumed ≤ m ∧ (s.inner.item = none → s.inner.buf.length ≤ s.consumed) ∧
      (s.inner.item.isSome = true → s.inner.buf = []) ∧ s.inner.cap ≤ max 8 (2 * m) := by
  have dec : ∀ (s : MaxBytesState (MonoMem α)) (b : Bytes) (e : Eos), s.inner.item.isSome = false →
      (s.max = m ∧ s.consumed ≤ m ∧ (s.inner.item = none → s.inner.buf.length ≤ s.consumed) ∧
        (s.inner.item.isSome = true → s.inner.buf = []) ∧ s.inner.cap ≤ max 8 (2 * m)) →
      ∀ t, ((maxBytesDecoder (monoMemDecoder parse)).decode s b e).2 = t →
      (t.max = m ∧ t.consumed ≤ m ∧ (t.inner.item = none → t.inner.buf.length ≤ t.consumed) ∧
        (t.inner.item.isSome = true → t.inner.buf = []) ∧ t.inner.cap ≤ max 8 (2 * m)) := by
    intro s b e hi ih
    obtain ⟨h1, h2, h3, h4, h5⟩ := ih
    have hn : s.inner.item = none := by
      cases hs : s.inner.item with
      | none => rfl
      | some x => rw [hs] at hi; cases hi
    have hl := h3 hn
    have go : b.length ≤ s.max - s.consumed → ∀ t,
        (Res.step ((monoMemDecoder parse).decode s.inner b e)
          (fun i => ({ s with inner := i } : MaxBytesState (MonoMem α))) fun size i =>
            ((.ok size : Res Nat), { s with inner := i, consumed := s.consumed + size })).2 = t →
        (t.max = m ∧ t.consumed ≤ m ∧ (t.inner.item = none → t.inner.buf.length ≤ t.consumed) ∧
          (t.inner.item.isSome = true → t.inner.buf = []) ∧ t.inner.cap ≤ max 8 (2 * m)) := by
      rintro hb t rfl
      rcases monoMem_decode parse s.inner b e with ⟨_, x, k, hk, h⟩ | ⟨_, r, hr, h⟩ | ⟨he, h⟩ <;> rw [h]
      · simp only [Res.step]
        exact ⟨h1, by omega, fun h => (by cases h), fun _ => trivial, h5⟩
      · cases r with
        | ok k => exact (hr _ rfl).elim
        | _ => exact ⟨h1, h2, h3, h4, h5⟩
      · simp only [Res.step]
        refine ⟨h1, by omega, fun _ => ?_, fun h => ?_, ?_⟩
        · simp only [List.length_append]; omega
        · rw [hn] at h; cases h
        · exact growAmortized_le _ _ _ _ h5 (by omega)
    rintro t rfl
    have keep := And.intro h1 (And.intro h2 (And.intro h3 (And.intro h4 h5)))
    simp only [maxBytesDecoder]
    split
    · exact keep
    · split
      · exact keep
      · split
        · rename_i hb; exact go hb _ rfl
        · exact keep
    · split
      · exact keep
      · split
        · exact keep
        · split
          · rename_i hb; exact go (by omega) _ rfl
          · exact keep
  have fin : ∀ (s : MaxBytesState (MonoMem α)), s.inner.item.isSome = true →
      (s.max = m ∧ s.consumed ≤ m ∧ (s.inner.item = none → s.inner.buf.length ≤ s.consumed) ∧
        (s.inner.item.isSome = true → s.inner.buf = []) ∧ s.inner.cap ≤ max 8 (2 * m)) →
      ∀ t, ((maxBytesDecoder (monoMemDecoder parse)).finish s).2 = t →
      (t.max = m ∧ t.consumed ≤ m ∧ (t.inner.item = none → t.inner.buf.length ≤ t.consumed) ∧
        (t.inner.item.isSome = true → t.inner.buf = []) ∧ t.inner.cap ≤ max 8 (2 * m)) := by
    rintro s hi ⟨h1, h2, h3, h4, h5⟩ t rfl
    have hb := h4 hi
    simp only [maxBytesDecoder]
    rcases monoMem_finish parse s.inner with ⟨y, hy, h⟩ | ⟨hn, h⟩
    · rw [h]
      simp only [Res.step]
      exact ⟨h1, Nat.zero_le _, fun _ => by simp [hb], fun h => (by cases h), h5⟩
    · rw [hn] at hi; cases hi
  induction h with
  | refl => exact ⟨rfl, Nat.zero_le _, fun _ => Nat.le_refl _, fun h => (by cases h), Nat.zero_le _⟩
  | decode b e _ _ hi _ ih => exact dec _ b e hi ih _ rfl
  | item b e _ _ hi hd ih =>
    simp only [Bool.and_eq_true] at hd
    exact fin _ hd.2 (dec _ b e hi ih _ rfl) _ rfl
  | finish _ hi ih => exact fin _ hi ih _ rfl

end Bytecodec
