import Verif.Lemmas.TupleNested
import Verif.Lemmas.Idle
import Verif.Spec.Streamable
/-!
# Splitting a buffer in two: the local form of chunking invariance
-/
namespace Bytecodec

open Spec

set_option linter.unusedSimpArgs false

variable {σ α β : Type}

/-- One item: drive the decoder (at most one call) until idle, then take the item. `t` is the state in
between. -/
def Item (D : Decoder σ α) (s : σ) (b : Bytes) (e : Eos) (n : Nat) (t : σ) (x : α) (s' : σ) : Prop :=
  tryDecode D s 0 b e = .next n t ∧ D.finish t = (.ok x, s')

/-- The marker `e1` may accompany a buffer that ends `k` bytes before the position of `e`. -/
def Earlier (e1 e : Eos) (k : Nat) : Prop := e1 = Eos.new false ∨ e1 = eosShift e k

theorem tryDecode_busy {D : Decoder σ α} {s : σ} (h : D.isIdle s = false) (b : Bytes) (e : Eos) :
    tryDecode D s 0 b e =
      match D.decode s b e with
      | (.ok n, s') => if D.isIdle s' then .next n s' else .ret (.ok n) s'
      | (.err k, s') => .ret (.err k) s'
      | (.panic, s') => .ret .panic s'
      | (.capacity, s') => .ret .capacity s'
      | (.diverge, s') => .ret .diverge s' := by
  rw [tryDecode, if_neg (by simp [h]), if_neg (by omega)]
  simp only [List.drop_zero, Nat.zero_add]
  rcases D.decode s b e with ⟨r, s'⟩
  cases r <;> rfl

theorem tryDecode_quiet {D : Decoder σ α} {s : σ} (h : D.isIdle s = true) (off : Nat) (b : Bytes)
    (e : Eos) : tryDecode D s off b e = .next off s := by
  rw [tryDecode, if_pos h]

theorem tryDecode_next_iff {D : Decoder σ α} {s t : σ} {n : Nat} {b : Bytes} {e : Eos}
    (h : D.isIdle s = false) :
    tryDecode D s 0 b e = .next n t ↔ D.decode s b e = (.ok n, t) ∧ D.isIdle t = true := by
  rw [tryDecode_busy h]
  rcases D.decode s b e with ⟨r, u⟩
  cases r with
  | ok m =>
    simp only
    split
    · constructor
      · intro h; cases h; exact ⟨rfl, by assumption⟩
      · rintro ⟨h, _⟩; cases h; rfl
    · constructor
      · intro h; cases h
      · rintro ⟨h, hi⟩; cases h; contradiction
  | _ => constructor <;> intro h <;> simp at h

theorem tryDecode_ret_iff {D : Decoder σ α} {s t : σ} {n : Nat} {b : Bytes} {e : Eos}
    (h : D.isIdle s = false) :
    tryDecode D s 0 b e = .ret (.ok n) t ↔ D.decode s b e = (.ok n, t) ∧ D.isIdle t = false := by
  rw [tryDecode_busy h]
  rcases D.decode s b e with ⟨r, u⟩
  cases r with
  | ok m =>
    simp only
    split
    · constructor
      · intro h; cases h
      · rintro ⟨h, _⟩; cases h; simp_all
    · constructor
      · intro h; cases h; exact ⟨rfl, by simp_all⟩
      · rintro ⟨h, hi⟩; cases h; rfl
  | _ => constructor <;> intro h <;> simp at h

theorem tryDecode_ret_busy {D : Decoder σ α} {s t : σ} {off : Nat} {r : Res Nat} {b : Bytes} {e : Eos}
    (h : tryDecode D s off b e = .ret r t) : D.isIdle s = false := by
  cases hi : D.isIdle s with
  | false => rfl
  | true => rw [tryDecode_quiet hi] at h; cases h

theorem item_busy {D : Decoder σ α} {s t s' : σ} {n : Nat} {b : Bytes} {e : Eos} {x : α}
    (h : D.isIdle s = false) :
    Item D s b e n t x s' ↔
      D.decode s b e = (.ok n, t) ∧ D.isIdle t = true ∧ D.finish t = (.ok x, s') := by
  rw [Item, tryDecode_next_iff h, and_assoc]

theorem item_quiet {D : Decoder σ α} {s t s' : σ} {n : Nat} {b : Bytes} {e : Eos} {x : α}
    (h : D.isIdle s = true) :
    Item D s b e n t x s' ↔ n = 0 ∧ t = s ∧ D.finish s = (.ok x, s') := by
  rw [Item, tryDecode_quiet h]
  constructor
  · rintro ⟨h1, h2⟩; cases h1; exact ⟨rfl, rfl, h2⟩
  · rintro ⟨rfl, rfl, h2⟩; exact ⟨rfl, h2⟩

theorem Item.idle {D : Decoder σ α} {s t s' : σ} {n : Nat} {b : Bytes} {e : Eos} {x : α}
    (h : Item D s b e n t x s') : D.isIdle t = true := tryDecode_next_isIdle h.1

/-- The macro at an offset inside the buffer. -/
theorem tryDecode_at {D : Decoder σ α} {s t : σ} {off o : Nat} {buf : Bytes} {e : Eos}
    (h : off ≤ buf.length) :
    tryDecode D s off buf e = .next o t ↔
      off ≤ o ∧ tryDecode D s 0 (buf.drop off) e = .next (o - off) t := by
  have := tryDecode_shift D s off 0 buf e h
  rw [Nat.add_zero] at this
  rw [this]
  rcases tryDecode D s 0 (buf.drop off) e with ⟨k, u⟩ | ⟨r, u⟩
  · simp only [Flow.shift, Flow.next.injEq]
    constructor
    · rintro ⟨h1, h2⟩; exact ⟨by omega, by omega, h2⟩
    · rintro ⟨h1, h2, h3⟩; exact ⟨by omega, h3⟩
  · cases r <;> simp [Flow.shift]

theorem tryDecode_at_ret {D : Decoder σ α} {s t : σ} {off o : Nat} {buf : Bytes} {e : Eos}
    (h : off ≤ buf.length) :
    tryDecode D s off buf e = .ret (.ok o) t ↔
      off ≤ o ∧ tryDecode D s 0 (buf.drop off) e = .ret (.ok (o - off)) t := by
  have := tryDecode_shift D s off 0 buf e h
  rw [Nat.add_zero] at this
  rw [this]
  rcases tryDecode D s 0 (buf.drop off) e with ⟨k, u⟩ | ⟨r, u⟩
  · simp [Flow.shift]
  · cases r <;> simp [Flow.shift]
    constructor
    · rintro ⟨h1, h2⟩; exact ⟨by omega, by omega, h2⟩
    · rintro ⟨h1, h2, h3⟩; exact ⟨by omega, h3⟩

/-- The splitting law on the states satisfying `I`. -/
structure Splits (p : Bool) (D : Decoder σ α) (I : σ → Prop) : Prop where
  bound : ∀ {s b e n t x s'}, I s → Item D s b e n t x s' → n ≤ b.length
  again : ∀ {s b e n t x s'}, I s → Item D s b e n t x s' → I s'
  quiet : ∀ {s a b e e1 n t x s'}, I s → D.isIdle s = true → D.decode s (a ++ b) e = (.ok n, t) →
    D.isIdle t = true → D.finish t = (.ok x, s') → Earlier e1 e b.length → e1.isReached = false →
    n = 0 ∧ t = s ∧ D.decode s a e1 = (.ok 0, s)
  split : ∀ {s a b e e1 n t x s'}, I s → Item D s (a ++ b) e n t x s' → Earlier e1 e b.length →
    e1.isReached = false →
    Item D s a e1 n t x s' ∨ ((p = true → b ≠ []) ∧ a.length ≤ n ∧ ∃ s1,
      tryDecode D s 0 a e1 = .ret (.ok a.length) s1 ∧ I s1 ∧ Item D s1 b e (n - a.length) t x s')

/-- A decoder with the same `decode` successes and idle states, and fewer `finish` successes. -/
theorem Splits.transfer {p : Bool} {D : Decoder σ α} {D' : Decoder σ β} {I : σ → Prop}
    (h : Splits p D I)
    (hd : ∀ s b e n t, D'.decode s b e = (.ok n, t) ↔ D.decode s b e = (.ok n, t))
    (hi : ∀ s, D'.isIdle s = D.isIdle s)
    (hf : ∀ t y s', D'.finish t = (.ok y, s') → ∃ x, D.finish t = (.ok x, s')) : Splits p D' I := by
  have hn : ∀ s b e n t, tryDecode D' s 0 b e = .next n t ↔ tryDecode D s 0 b e = .next n t := by
    intro s b e n t
    cases hs : D.isIdle s with
    | true => rw [tryDecode_quiet hs, tryDecode_quiet ((hi s).trans hs)]
    | false => rw [tryDecode_next_iff hs, tryDecode_next_iff ((hi s).trans hs), hd, hi]
  have hr : ∀ s b e n t, tryDecode D' s 0 b e = .ret (.ok n) t ↔
      tryDecode D s 0 b e = .ret (.ok n) t := by
    intro s b e n t
    cases hs : D.isIdle s with
    | true => simp [tryDecode_quiet hs, tryDecode_quiet ((hi s).trans hs)]
    | false => rw [tryDecode_ret_iff hs, tryDecode_ret_iff ((hi s).trans hs), hd, hi]
  have hit : ∀ {s b e n t y s'}, Item D' s b e n t y s' → ∃ x, Item D s b e n t x s' := by
    rintro s b e n t y s' ⟨h1, h2⟩
    obtain ⟨x, hx⟩ := hf t y s' h2
    exact ⟨x, (hn _ _ _ _ _).1 h1, hx⟩
  constructor
  · intro s b e n t y s' hI hit'
    obtain ⟨x, hx⟩ := hit hit'
    exact h.bound hI hx
  · intro s b e n t y s' hI hit'
    obtain ⟨x, hx⟩ := hit hit'
    exact h.again hI hx
  · intro s a b e e1 n t y s' hI hs hdec ht hfin he hne
    obtain ⟨x, hx⟩ := hf t y s' hfin
    have := h.quiet hI ((hi s).symm.trans hs) ((hd _ _ _ _ _).1 hdec) ((hi t).symm.trans ht) hx he hne
    exact ⟨this.1, this.2.1, (hd _ _ _ _ _).2 this.2.2⟩
  · intro s a b e e1 n t y s' hI hit' he hne
    obtain ⟨x, hx⟩ := hit hit'
    rcases h.split hI hx he hne with h1 | ⟨h1, h2, s1, h3, h4, h5⟩
    · exact .inl ⟨(hn _ _ _ _ _).2 h1.1, hit'.2⟩
    · exact .inr ⟨h1, h2, s1, (hr _ _ _ _ _).2 h3, h4, (hn _ _ _ _ _).2 h5.1, hit'.2⟩

/-- Build the law from the behaviour of `decode` in busy states. -/
theorem Splits.of_busy {p : Bool} {D : Decoder σ α} {I : σ → Prop}
    (bound : ∀ {s b e n t x s'}, I s → D.isIdle s = false → D.decode s b e = (.ok n, t) →
      D.isIdle t = true → D.finish t = (.ok x, s') → n ≤ b.length)
    (again : ∀ {s b e n t x s'}, I s → D.isIdle s = false → D.decode s b e = (.ok n, t) →
      D.isIdle t = true → D.finish t = (.ok x, s') → I s')
    (againQuiet : ∀ {s x s'}, I s → D.isIdle s = true → D.finish s = (.ok x, s') → I s')
    (quiet : ∀ {s a b e e1 n t x s'}, I s → D.isIdle s = true → D.decode s (a ++ b) e = (.ok n, t) →
      D.isIdle t = true → D.finish t = (.ok x, s') → Earlier e1 e b.length → e1.isReached = false →
      n = 0 ∧ t = s ∧ D.decode s a e1 = (.ok 0, s))
    (split : ∀ {s a b e e1 n t x s'}, I s → D.isIdle s = false → D.decode s (a ++ b) e = (.ok n, t) →
      D.isIdle t = true → D.finish t = (.ok x, s') → Earlier e1 e b.length → e1.isReached = false →
      D.decode s a e1 = (.ok n, t) ∨ ((p = true → b ≠ []) ∧ a.length ≤ n ∧ ∃ s1,
        D.decode s a e1 = (.ok a.length, s1) ∧ D.isIdle s1 = false ∧ I s1 ∧
        D.decode s1 b e = (.ok (n - a.length), t))) : Splits p D I := by
  constructor
  · intro s b e n t x s' hI hit
    cases hs : D.isIdle s with
    | true => rw [item_quiet hs] at hit; omega
    | false => rw [item_busy hs] at hit; exact bound hI hs hit.1 hit.2.1 hit.2.2
  · intro s b e n t x s' hI hit
    cases hs : D.isIdle s with
    | true => rw [item_quiet hs] at hit; exact againQuiet hI hs hit.2.2
    | false => rw [item_busy hs] at hit; exact again hI hs hit.1 hit.2.1 hit.2.2
  · exact quiet
  · intro s a b e e1 n t x s' hI hit he hne
    cases hs : D.isIdle s with
    | true => rw [item_quiet hs] at hit; left; rwa [item_quiet hs]
    | false =>
      rw [item_busy hs] at hit
      rcases split hI hs hit.1 hit.2.1 hit.2.2 he hne with h1 | ⟨h1, h2, s1, h3, h4, h5, h6⟩
      · left; rw [item_busy hs]; exact ⟨h1, hit.2⟩
      · right
        refine ⟨h1, h2, s1, ?_, h5, ?_⟩
        · rw [tryDecode_ret_iff hs]; exact ⟨h3, h4⟩
        · rw [item_busy h4]; exact ⟨h6, hit.2⟩

/-! ## Leaf decoders -/

theorem splice_splice {buf a b : Bytes} {off : Nat} (h : off + a.length ≤ buf.length) :
    splice (splice buf off a) (off + a.length) b = splice buf off (a ++ b) := by
  simp only [splice]
  have h1 : (List.take off buf).length = off := by simp; omega
  simp [List.take_append, List.drop_append, h1, List.append_assoc]
  have e1 : List.take (off + a.length) (List.take off buf) = List.take off buf :=
    List.take_of_length_le (by omega)
  have e4 : List.drop (off + a.length + b.length) (List.take off buf) = [] :=
    List.drop_eq_nil_of_le (by omega)
  have e5 : List.drop (off + a.length + b.length - off) a = [] :=
    List.drop_eq_nil_of_le (by omega)
  rw [e1, e4, e5]
  simp only [List.nil_append]
  congr 4
  omega

theorem copyable_eq {s : CopyableState} (b : Bytes) (e : Eos) (h : s.offset ≤ s.bytes.length) :
    copyableBytesDecoder.decode s b e =
      (if s.offset + min b.length (s.bytes.length - s.offset) ≠ s.bytes.length ∧ e.isReached then
        .err .unexpectedEos else .ok (min b.length (s.bytes.length - s.offset)),
        ⟨splice s.bytes s.offset (b.take (s.bytes.length - s.offset)),
          s.offset + min b.length (s.bytes.length - s.offset)⟩) := by
  have ht : b.take (min b.length (s.bytes.length - s.offset)) = b.take (s.bytes.length - s.offset) := by
    rcases Nat.le_total b.length (s.bytes.length - s.offset) with h1 | h1
    · rw [Nat.min_eq_left h1, List.take_of_length_le h1, List.take_of_length_le (Nat.le_refl _)]
    · rw [Nat.min_eq_right h1]
  have hl := splice_length (buf := s.bytes) (off := s.offset)
    (src := b.take (min b.length (s.bytes.length - s.offset))) (by simp; omega)
  simp only [copyableBytesDecoder]
  rw [if_neg (by omega), hl, ht]
  split <;> rfl

/-- The arithmetic core of splitting for the two fixed-size byte decoders. -/
theorem splice_split {buf a b : Bytes} {off : Nat} (h : off ≤ buf.length)
    (ha : a.length ≤ buf.length - off) :
    splice (splice buf off (a.take (buf.length - off))) (off + a.length)
      (b.take ((splice buf off (a.take (buf.length - off))).length - (off + a.length))) =
    splice buf off ((a ++ b).take (buf.length - off)) := by
  have ht : a.take (buf.length - off) = a := List.take_of_length_le ha
  rw [ht, splice_length (by omega), splice_splice (by omega), List.take_append, ht]
  congr 3
  omega

theorem splits_copyable (p : Bool) :
    Splits p copyableBytesDecoder (fun s => s.offset ≤ s.bytes.length) := by
  apply Splits.of_busy
  · intro s b e n t x s' hI hs hd ht hf
    rw [copyable_eq b e hI] at hd
    split at hd
    · cases hd
    · cases hd; omega
  · intro s b e n t x s' hI hs hd ht hf
    simp only [copyableBytesDecoder] at hf
    split at hf <;> cases hf
    exact Nat.zero_le _
  · intro s x s' hI hs hf
    simp only [copyableBytesDecoder] at hf
    split at hf <;> cases hf
    exact Nat.zero_le _
  · intro s a b e e1 n t x s' hI hs hd ht hf he hne
    have hs : s.offset = s.bytes.length := by simpa [copyableBytesDecoder] using hs
    obtain ⟨bs, off⟩ := s
    simp only at hs
    subst hs
    rw [copyable_eq _ _ hI] at hd ⊢
    simp only [Nat.sub_self, List.take_zero, splice_nil, Nat.min_zero, Nat.add_zero] at hd ⊢
    simp at hd ⊢
    exact ⟨hd.1.symm, hd.2.symm⟩
  · intro s a b e e1 n t x s' hI hs hd ht hf he hne
    have hs : s.offset ≠ s.bytes.length := by simpa [copyableBytesDecoder] using hs
    obtain ⟨bs, off⟩ := s
    simp only at hs hI
    rw [copyable_eq _ _ hI] at hd
    have ht' : t.offset = t.bytes.length := by simpa [copyableBytesDecoder] using ht
    simp only at hd
    split at hd
    · cases hd
    · cases hd
      simp only [List.length_append] at ht' ⊢
      rw [splice_length (by simp; omega)] at ht'
      by_cases hc : bs.length - off ≤ a.length
      · left
        rw [copyable_eq _ _ hI]
        simp only
        rw [if_neg (by omega), List.take_append_of_le_length hc]
        have e1 : min a.length (bs.length - off) = min (a.length + b.length) (bs.length - off) := by omega
        rw [e1]
      · right
        refine ⟨?_, by omega, ⟨splice bs off (a.take (bs.length - off)), off + a.length⟩, ?_, ?_, ?_, ?_⟩
        · rintro _ rfl
          simp at ht'
          omega
        · rw [copyable_eq _ _ hI]
          simp only [hne]
          have e1 : min a.length (bs.length - off) = a.length := by omega
          rw [e1]
          simp
        · simp only [copyableBytesDecoder]
          rw [splice_length (by simp; omega)]
          simp; omega
        · simp only
          rw [splice_length (by simp; omega)]
          omega
        · rw [copyable_eq]
          · simp only
            rw [splice_split hI (by omega), splice_length (by simp; omega)]
            have e1 : off + a.length + min b.length (bs.length - (off + a.length)) = bs.length := by omega
            rw [e1, if_neg (by simp)]
            have e2 : min b.length (bs.length - (off + a.length)) =
              min (a.length + b.length) (bs.length - off) - a.length := by omega
            have e3 : off + min (a.length + b.length) (bs.length - off) = bs.length := by omega
            rw [e2, e3]
          · simp only
            rw [splice_length (by simp; omega)]
            omega

theorem bytes_eq {bs : Bytes} {off : Nat} (b : Bytes) (e : Eos) (h : off ≤ bs.length) :
    bytesDecoder.decode ⟨some bs, off⟩ b e =
      ((copyableBytesDecoder.decode ⟨bs, off⟩ b e).1,
        ⟨some (copyableBytesDecoder.decode ⟨bs, off⟩ b e).2.bytes,
          (copyableBytesDecoder.decode ⟨bs, off⟩ b e).2.offset⟩) := by
  have hl := splice_length (buf := bs) (off := off)
    (src := b.take (min b.length (bs.length - off))) (by simp; omega)
  simp only [bytesDecoder, copyableBytesDecoder]
  rw [if_neg (show ¬ bs.length < off by omega), if_neg (show ¬ bs.length < off by omega)]
  split
  · next h =>
    simp only [BytesDecoderState.exact] at h
    rw [if_pos ⟨by omega, h.2⟩]
  · next h =>
    simp only [BytesDecoderState.exact] at h
    rw [if_neg (fun hc => h ⟨by omega, hc.2⟩)]

theorem bytes_ok {bs : Bytes} {off n : Nat} {b : Bytes} {e : Eos} {t : BytesDecoderState}
    (h : off ≤ bs.length) :
    bytesDecoder.decode ⟨some bs, off⟩ b e = (.ok n, t) ↔
      ∃ u, copyableBytesDecoder.decode ⟨bs, off⟩ b e = (.ok n, u) ∧ t = ⟨some u.bytes, u.offset⟩ := by
  rw [bytes_eq _ _ h]
  rcases copyableBytesDecoder.decode ⟨bs, off⟩ b e with ⟨r, u⟩
  constructor
  · intro h; cases h; exact ⟨u, rfl, rfl⟩
  · rintro ⟨v, h, rfl⟩; cases h; rfl

theorem copyable_bounded {s t : CopyableState} {b : Bytes} {e : Eos} {r : Res Nat}
    (h : s.offset ≤ s.bytes.length) (hd : copyableBytesDecoder.decode s b e = (r, t)) :
    t.offset ≤ t.bytes.length := by
  rw [copyable_eq _ _ h] at hd
  cases hd
  simp only
  rw [splice_length (by simp; omega)]
  omega

theorem bytes_idle {bs : Bytes} {off : Nat} (h : off ≤ bs.length) :
    bytesDecoder.isIdle ⟨some bs, off⟩ = copyableBytesDecoder.isIdle ⟨bs, off⟩ := by
  simp only [bytesDecoder, copyableBytesDecoder, BytesDecoderState.exact, Bool.beq_eq_decide_eq]
  congr 1
  simp
  omega

theorem splits_bytes (p : Bool) :
    Splits p bytesDecoder (fun s => ∀ b, s.bytes = some b → s.offset ≤ b.length) := by
  have idleFin : ∀ u : CopyableState, copyableBytesDecoder.isIdle u = true →
      copyableBytesDecoder.finish u = (.ok u.bytes, { u with offset := 0 }) := by
    intro u hu
    have : u.offset = u.bytes.length := by simpa [copyableBytesDecoder] using hu
    simp [copyableBytesDecoder, this]
  have finNone : ∀ {t x s'}, bytesDecoder.finish t = (.ok x, s') → s'.bytes = none := by
    intro t x s' hf
    simp only [bytesDecoder] at hf
    split at hf
    · cases hf
    · split at hf <;> cases hf
      rfl
  have busySome : ∀ {s}, bytesDecoder.isIdle s = false → ∃ bs, s.bytes = some bs := by
    intro s hs
    obtain ⟨o, off⟩ := s
    cases o with
    | none => simp [bytesDecoder, BytesDecoderState.exact] at hs
    | some bs => exact ⟨bs, rfl⟩
  apply Splits.of_busy
  · intro s b e n t x s' hI hs hd ht hf
    obtain ⟨o, off⟩ := s
    obtain ⟨bs, rfl⟩ := busySome hs
    have hI := hI bs rfl
    obtain ⟨u, hu, rfl⟩ := (bytes_ok hI).1 hd
    rw [bytes_idle hI] at hs
    rw [bytes_idle (copyable_bounded hI hu)] at ht
    exact (splits_copyable p).bound hI ((item_busy hs).2 ⟨hu, ht, idleFin u ht⟩)
  · intro s b e n t x s' hI hs hd ht hf b' hb'
    rw [finNone hf] at hb'
    cases hb'
  · intro s x s' hI hs hf b' hb'
    rw [finNone hf] at hb'
    cases hb'
  · intro s a b e e1 n t x s' hI hs hd ht hf he hne
    obtain ⟨o, off⟩ := s
    cases o with
    | none => simp [bytesDecoder] at hd
    | some bs =>
      have hI := hI bs rfl
      obtain ⟨u, hu, rfl⟩ := (bytes_ok hI).1 hd
      rw [bytes_idle hI] at hs
      rw [bytes_idle (copyable_bounded hI hu)] at ht
      obtain ⟨h1, h2, h3⟩ := (splits_copyable p).quiet hI hs hu ht (idleFin u ht) he hne
      refine ⟨h1, by rw [h2], (bytes_ok hI).2 ⟨_, h3, rfl⟩⟩
  · intro s a b e e1 n t x s' hI hs hd ht hf he hne
    obtain ⟨o, off⟩ := s
    obtain ⟨bs, rfl⟩ := busySome hs
    have hI := hI bs rfl
    obtain ⟨u, hu, rfl⟩ := (bytes_ok hI).1 hd
    rw [bytes_idle hI] at hs
    rw [bytes_idle (copyable_bounded hI hu)] at ht
    rcases (splits_copyable p).split hI ((item_busy hs).2 ⟨hu, ht, idleFin u ht⟩) he hne with
      h1 | ⟨h1, h2, s1, h3, h4, h5⟩
    · left
      rw [item_busy hs] at h1
      exact (bytes_ok hI).2 ⟨_, h1.1, rfl⟩
    · right
      rw [tryDecode_ret_iff hs] at h3
      rw [item_busy h3.2] at h5
      refine ⟨h1, h2, ⟨some s1.bytes, s1.offset⟩, (bytes_ok hI).2 ⟨_, h3.1, rfl⟩, ?_, ?_, ?_⟩
      · rw [bytes_idle h4]; exact h3.2
      · intro b' hb'; cases hb'; exact h4
      · exact (bytes_ok h4).2 ⟨_, h5.1, rfl⟩

theorem eosShift_sum {e : Eos} {k r : Nat} (h : (eosShift e k).remaining = .finite r) :
    ∃ m, e.remaining = .finite m ∧ r = m + k := by
  obtain ⟨c⟩ := e
  cases c <;> simp [eosShift] at h
  exact ⟨_, rfl, h.symm⟩

theorem splits_remaining : Splits false remainingBytesDecoder (fun _ => True) := by
  have busy_ok : ∀ {s b e n t}, remainingBytesDecoder.isIdle s = false →
      (remainingBytesDecoder.decode s b e = (.ok n, t) ↔
        n = b.length ∧ t = ⟨s.buf ++ b, e.isReached⟩ ∧
        ∀ m, e.remaining = .finite m → b.length + m < 2 ^ 64 ∧ s.buf.length + (b.length + m) < 2 ^ 63) := by
    intro s b e n t hs
    have hs : s.eos = false := hs
    simp only [remainingBytesDecoder, hs, Eos.remainingBytes]
    cases hc : e.remaining with
    | finite m =>
      simp only [ByteCount.toU64]
      by_cases h1 : 2 ^ 64 ≤ b.length + m
      · simp [h1] <;> omega
      · by_cases h2 : 2 ^ 63 ≤ s.buf.length + (b.length + m)
        · simp [h1, h2] <;> omega
        · simp [h1, h2]
          constructor
          · rintro ⟨rfl, rfl⟩; exact ⟨rfl, rfl, by omega⟩
          · rintro ⟨rfl, rfl, _⟩; exact ⟨rfl, rfl⟩
    | _ =>
      simp only [ByteCount.toU64]
      constructor
      · intro h; cases h; exact ⟨rfl, rfl, by simp⟩
      · rintro ⟨rfl, rfl, _⟩; rfl
  apply Splits.of_busy
  · intro s b e n t x s' hI hs hd ht hf
    have := (busy_ok hs).1 hd
    omega
  · intros; trivial
  · intros; trivial
  · intro s a b e e1 n t x s' hI hs hd ht hf he hne
    have hs : s.eos = true := hs
    simp [remainingBytesDecoder, hs] at hd ⊢
    exact ⟨hd.1.symm, hd.2.symm⟩
  · intro s a b e e1 n t x s' hI hs hd ht hf he hne
    right
    obtain ⟨rfl, rfl, h3⟩ := (busy_ok hs).1 hd
    refine ⟨by simp, by simp, ⟨s.buf ++ a, false⟩, ?_, rfl, trivial, ?_⟩
    · rw [busy_ok hs]
      refine ⟨rfl, by rw [hne], ?_⟩
      intro m hm
      rcases he with rfl | rfl
      · simp [Eos.new] at hm
      · obtain ⟨k, hk, rfl⟩ := eosShift_sum hm
        have := h3 k hk
        simp only [List.length_append] at this
        omega
    · rw [busy_ok rfl]
      refine ⟨by simp, by simp, ?_⟩
      intro m hm
      have := h3 m hm
      simp only [List.length_append] at this ⊢
      omega

theorem splits_null (p : Bool) : Splits p nullDecoder (fun _ => True) := by
  apply Splits.of_busy
  · intro s b e n t x s' hI hs; cases hs
  · intros; trivial
  · intros; trivial
  · intro s a b e e1 n t x s' hI hs hd ht hf he hne
    cases hd
    exact ⟨rfl, rfl, rfl⟩
  · intro s a b e e1 n t x s' hI hs; cases hs

theorem splits_padding : Splits false paddingDecoder (fun _ => True) := by
  have busy_ok : ∀ {s b e n t}, paddingDecoder.isIdle s = false →
      (paddingDecoder.decode s b e = (.ok n, t) ↔
        n = b.length ∧ t = { s with eos := e.isReached } ∧
        ∀ c, s.expected = some c → b.all (fun x => x == c) = true) := by
    intro s b e n t hs
    have hs : s.eos = false := hs
    simp only [paddingDecoder, hs]
    cases hc : s.expected with
    | none =>
      constructor
      · intro h; cases h; exact ⟨rfl, rfl, by simp⟩
      · rintro ⟨rfl, rfl, _⟩; rfl
    | some c =>
      simp only
      by_cases h1 : b.all (fun x => x == c) = true
      · rw [if_neg (by simp), if_pos h1]
        constructor
        · intro h; cases h; exact ⟨rfl, rfl, by simpa using h1⟩
        · rintro ⟨rfl, rfl, _⟩; rfl
      · rw [if_neg (by simp), if_neg h1]
        constructor
        · intro h; cases h
        · rintro ⟨rfl, rfl, h⟩; exact absurd (h c rfl) h1
  apply Splits.of_busy
  · intro s b e n t x s' hI hs hd ht hf
    have := (busy_ok hs).1 hd
    omega
  · intros; trivial
  · intros; trivial
  · intro s a b e e1 n t x s' hI hs hd ht hf he hne
    have hs : s.eos = true := hs
    simp [paddingDecoder, hs] at hd ⊢
    exact ⟨hd.1.symm, hd.2.symm⟩
  · intro s a b e e1 n t x s' hI hs hd ht hf he hne
    right
    obtain ⟨rfl, rfl, h3⟩ := (busy_ok hs).1 hd
    refine ⟨by simp, by simp, { s with eos := false }, ?_, rfl, trivial, ?_⟩
    · rw [busy_ok hs]
      refine ⟨rfl, by rw [hne], ?_⟩
      intro c hc
      have := h3 c hc
      simp only [List.all_append, Bool.and_eq_true] at this
      exact this.1
    · rw [busy_ok rfl]
      refine ⟨by simp, by simp, ?_⟩
      intro c hc
      have := h3 c hc
      simp only [List.all_append, Bool.and_eq_true] at this
      exact this.2

theorem splits_monolithic {parse : MonolithicParser α} (hp : WholeParser parse) :
    Splits false (monolithicDecoder parse) (fun s => s.item = none) := by
  have finNone : ∀ {t x s'}, (monolithicDecoder parse).finish t = (.ok x, s') → s'.item = none := by
    intro t x s' hf
    simp only [monolithicDecoder] at hf
    split at hf <;> cases hf
    rfl
  have done : ∀ {s b e n t}, s.item = none → (monolithicDecoder parse).decode s b e = (.ok n, t) →
      (monolithicDecoder parse).isIdle t = true →
      e.isReached = true ∧ n = b.length ∧ ∃ x, (parse s.buf b).1 = .ok x ∧ t = ⟨some x, []⟩ := by
    intro s b e n t hI hd ht
    simp only [monolithicDecoder] at hd
    split at hd
    · next hr =>
      split at hd
      · next item m hm =>
        cases hd
        have h1 := hp.whole s.buf b item (by rw [hm])
        rw [hm] at h1
        simp only at h1
        exact ⟨hr, by omega, item, by rw [hm], rfl⟩
      all_goals cases hd
    · cases hd
      simp [monolithicDecoder, hI] at ht
  apply Splits.of_busy
  · intro s b e n t x s' hI hs hd ht hf
    have := (done hI hd ht).2.1
    omega
  · intro s b e n t x s' hI hs hd ht hf
    exact finNone hf
  · intro s x s' hI hs hf
    exact finNone hf
  · intro s a b e e1 n t x s' hI hs
    simp [monolithicDecoder, hI] at hs
  · intro s a b e e1 n t x s' hI hs hd ht hf he hne
    right
    obtain ⟨hr, rfl, y, hy, rfl⟩ := done hI hd ht
    refine ⟨by simp, by simp, { s with buf := s.buf ++ a }, ?_, hs, hI, ?_⟩
    · simp [monolithicDecoder, hne]
    · simp only [monolithicDecoder, hr, if_true, hp.chain]
      have hw := hp.whole s.buf (a ++ b) y hy
      rcases hq : parse s.buf (a ++ b) with ⟨r, m⟩
      rw [hq] at hy hw
      simp only at hy hw
      subst hy
      simp only [List.length_append] at hw ⊢
      congr 2
      omega

end Bytecodec
