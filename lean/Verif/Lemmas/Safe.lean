import Verif.Spec.Assembled
import Verif.Lemmas.Captured
/-!
# Safety: no crash, no hang, no over-reporting
-/
set_option linter.unusedSimpArgs false

namespace Bytecodec

open Spec

variable {σ α β : Type}

theorem Spec.NoCrash.ok {β : Type} {x : β} : NoCrash (Res.ok x) := by simp [NoCrash, Returns]
theorem Spec.NoCrash.err {β : Type} {k : ErrorKind} : NoCrash (Res.err k : Res β) := by simp [NoCrash, Returns]
theorem Spec.Returns.ok {β : Type} {x : β} : Returns (Res.ok x) := .inl ⟨x, rfl⟩
theorem Spec.Returns.err {β : Type} {k : ErrorKind} : Returns (Res.err k : Res β) := .inr ⟨k, rfl⟩
theorem Spec.NoCrash.capacity {β : Type} : NoCrash (Res.capacity : Res β) := by simp [NoCrash, Returns]

/-- Prove `SafeFrom` with an invariant. -/
theorem SafeFrom.of_inv {D : Decoder σ α} {s₀ : σ} (Inv : σ → Prop) (h0 : Inv s₀)
    (hd : ∀ s b e, Inv s → EosSane e b.length → Inv (D.decode s b e).2 ∧
      NoCrash (D.decode s b e).1 ∧ ∀ n, (D.decode s b e).1 = .ok n → n ≤ b.length)
    (hf : ∀ s, Inv s → Inv (D.finish s).2 ∧ Returns (D.finish s).1) : SafeFrom D s₀ := by
  intro s hs
  have hI : Inv s := Reach.inv h0 (fun s b e h he => (hd s b e h he).1) (fun s h => (hf s h).1) hs
  exact ⟨fun b e he => (hd s b e hI he).2, (hf s hI).2⟩

theorem splice_length {buf src : Bytes} {off : Nat} (h : off + src.length ≤ buf.length) :
    (splice buf off src).length = buf.length := by
  simp only [splice, List.length_append, List.length_take, List.length_drop]; omega

theorem safe_copyable_at {s₀ : CopyableState} (h0 : s₀.offset ≤ s₀.bytes.length) :
    SafeFrom copyableBytesDecoder s₀ := by
  apply SafeFrom.of_inv (fun s => s.offset ≤ s.bytes.length) h0
  · intro s b e h he
    simp only [copyableBytesDecoder]
    rw [if_neg (by omega)]
    have hl : (splice s.bytes s.offset (b.take (min b.length (s.bytes.length - s.offset)))).length
        = s.bytes.length := splice_length (by simp; omega)
    split
    · simp [NoCrash, hl]; omega
    · simp [NoCrash, hl]; omega
  · intro s h
    simp only [copyableBytesDecoder]
    split <;> simp [Returns, h]

theorem safe_copyable (b : Bytes) : SafeFrom copyableBytesDecoder (.new b) :=
  safe_copyable_at (by simp [CopyableState.new])

theorem safe_fix_at (f : Bytes → α) {s₀ : CopyableState} (h0 : s₀.offset ≤ s₀.bytes.length) :
    SafeFrom (fixDecoder f) s₀ := by
  intro s hs
  have := safe_copyable_at h0 s (reach_fix hs)
  refine ⟨this.1, ?_⟩
  have h := this.2
  simp only [fixDecoder]
  rcases hf : copyableBytesDecoder.finish s with ⟨r, s'⟩
  rw [hf] at h
  cases r <;> simp_all [NoCrash, Returns, Res.step]

theorem safe_fix (f : Bytes → α) (k : Nat) : SafeFrom (fixDecoder f) (fixInit k) :=
  safe_fix_at f (by simp [fixInit, CopyableState.new])

theorem safe_bytes_at {s₀ : BytesDecoderState} (h0 : ∀ b, s₀.bytes = some b → s₀.offset ≤ b.length) :
    SafeFrom bytesDecoder s₀ := by
  apply SafeFrom.of_inv (fun s => ∀ b, s.bytes = some b → s.offset ≤ b.length) h0
  · intro s b e h he
    simp only [bytesDecoder]
    split
    · simp [NoCrash, Returns]; simp_all
    · next c hc =>
      have hc' := h c hc
      rw [if_neg (by omega)]
      have hl : (splice c s.offset (b.take (min b.length (c.length - s.offset)))).length
          = c.length := splice_length (by simp; omega)
      split
      · simp [NoCrash, hl]; omega
      · simp [NoCrash, hl]; omega
  · intro s h
    simp only [bytesDecoder]
    split
    · exact ⟨h, .err⟩
    · split
      · exact ⟨h, .err⟩
      · simp [NoCrash, Returns]

theorem safe_bytes (b : Bytes) : SafeFrom bytesDecoder (.new b) :=
  safe_bytes_at (by simp [BytesDecoderState.new])

theorem safe_remaining {s₀ : RemainingState} : SafeFrom remainingBytesDecoder s₀ := by
  apply SafeFrom.of_inv (fun _ => True) trivial
  · intro s b e _ he
    refine ⟨trivial, ?_⟩
    simp only [remainingBytesDecoder]
    split
    · simp [NoCrash, Returns]
    · split
      · next r hr =>
        have : e.remaining = .finite r := by
          revert hr; simp only [Eos.remainingBytes, ByteCount.toU64]; split <;> simp_all
        have := he r this
        rw [if_neg (by omega)]
        split <;> simp [NoCrash, Returns]
      · simp [NoCrash, Returns]
  · intro s _
    simp only [remainingBytesDecoder]
    split <;> simp [NoCrash, Returns]

theorem safe_null : SafeFrom nullDecoder () := by
  apply SafeFrom.of_inv (fun _ => True) trivial <;> simp [nullDecoder, NoCrash, Returns]

theorem safe_padding {s₀ : PaddingState} : SafeFrom paddingDecoder s₀ := by
  apply SafeFrom.of_inv (fun _ => True) trivial
  · intro s b e _ he
    refine ⟨trivial, ?_⟩
    simp only [paddingDecoder]
    (repeat' split) <;> simp [NoCrash, Returns]
  · intro s _
    simp only [paddingDecoder]
    split <;> simp [NoCrash, Returns]

theorem safe_utf8 {D : Decoder σ Bytes} {s₀ : σ} (h : SafeFrom D s₀) :
    SafeFrom (utf8Decoder D) s₀ := by
  intro s hs
  have := h s (reach_utf8 hs)
  refine ⟨this.1, ?_⟩
  have h := this.2
  simp only [utf8Decoder]
  rcases hf : D.finish s with ⟨r, s'⟩
  rw [hf] at h
  cases r with
  | ok b => simp only [Res.step]; split <;> simp [NoCrash, Returns]
  | _ => simp_all [NoCrash, Returns, Res.step]

theorem safe_monolithic (parse : MonolithicParser α) (hp : ∀ a b, NoCrash (parse a b).1)
    {s₀ : MonoDecState α} : SafeFrom (monolithicDecoder parse) s₀ := by
  apply SafeFrom.of_inv (fun _ => True) trivial
  · intro s b e _ he
    refine ⟨trivial, ?_⟩
    have := hp s.buf b
    simp only [monolithicDecoder]
    (repeat' split) <;> simp_all [NoCrash, Returns]
    omega
  · intro s _
    simp only [monolithicDecoder]
    split <;> simp [NoCrash, Returns]

theorem safe_map {D : Decoder σ α} {s₀ : σ} (f : α → β) (h : SafeFrom D s₀) :
    SafeFrom (mapDecoder D f) s₀ := by
  intro s hs
  have := h s (reach_map hs)
  refine ⟨this.1, ?_⟩
  have h := this.2
  simp only [mapDecoder]
  rcases hf : D.finish s with ⟨r, s'⟩
  rw [hf] at h
  cases r with
  | ok b => exact .ok
  | _ => simp_all [NoCrash, Returns, Res.step]

theorem safe_tryMap {D : Decoder σ α} {s₀ : σ} (f : α → Except ErrorKind β) (h : SafeFrom D s₀) :
    SafeFrom (tryMapDecoder D f) s₀ := by
  intro s hs
  have := h s (reach_tryMap hs)
  refine ⟨this.1, ?_⟩
  have h := this.2
  simp only [tryMapDecoder]
  rcases hf : D.finish s with ⟨r, s'⟩
  rw [hf] at h
  cases r with
  | ok b => simp only [Res.step]; split <;> simp [NoCrash, Returns]
  | _ => simp_all [NoCrash, Returns, Res.step]

theorem mapErr_noCrash {r : Res β} {f : ErrorKind → ErrorKind} (h : NoCrash r) : NoCrash (r.mapErr f) := by
  cases r <;> simp_all [NoCrash, Res.mapErr]

theorem mapErr_returns {r : Res β} {f : ErrorKind → ErrorKind} (h : Returns r) : Returns (r.mapErr f) := by
  cases r <;> simp_all [Returns, Res.mapErr]

theorem safe_mapErr {D : Decoder σ α} {s₀ : σ} (f : ErrorKind → ErrorKind) (h : SafeFrom D s₀) :
    SafeFrom (mapErrDecoder D f) s₀ := by
  intro s hs
  have := h s (reach_mapErr hs)
  refine ⟨fun b e he => ⟨mapErr_noCrash (this.1 b e he).1, fun n hn => ?_⟩, mapErr_returns this.2⟩
  refine (this.1 b e he).2 n ?_
  simp only [mapErrDecoder] at hn
  cases hr : (D.decode s b e).1 <;> simp_all [Res.mapErr]

theorem safe_omit {D : Decoder σ α} {s₀ : OmitState σ} (h : SafeFrom D s₀.inner) :
    SafeFrom (omittableDecoder D) s₀ := by
  intro s hs
  have := h s.inner (reach_omit hs).1
  constructor
  · intro b e he
    have hd := this.1 b e he
    simp only [omittableDecoder]
    split
    · simp [NoCrash, Returns]
    · rcases hf : D.decode s.inner b e with ⟨r, s'⟩
      rw [hf] at hd
      cases r <;> exact hd
  · have hf := this.2
    simp only [omittableDecoder]
    split
    · exact .ok
    · rcases hf' : D.finish s.inner with ⟨r, s'⟩
      rw [hf'] at hf
      cases r with
      | ok b => exact .ok
      | _ => simp_all [NoCrash, Returns, Res.step]

theorem finite_of_toU64 {e : Eos} {n : Nat} (h : e.remainingBytes.toU64 = some n) :
    e.remaining = .finite n := by
  revert h; simp only [Eos.remainingBytes, ByteCount.toU64]; split <;> simp_all

theorem safe_length_at {D : Decoder σ α} {s₀ : LengthState σ} (hn : s₀.remaining < 2 ^ 64)
    (hx : s₀.expected < 2 ^ 64) (h : SafeFrom D s₀.inner) : SafeFrom (lengthDecoder D) s₀ := by
  intro s hs
  have hr := reach_length hn hx hs
  have := h s.inner hr.1
  constructor
  · intro b e he
    have hd := this.1 (b.take (min b.length s.remaining))
      (Eos.withRemainingBytes (.finite (s.remaining - min b.length s.remaining))) (by
        intro n hn; simp [Eos.withRemainingBytes] at hn; simp; omega)
    simp only [lengthDecoder]
    rcases hf : D.decode s.inner (b.take (min b.length s.remaining))
      (Eos.withRemainingBytes (.finite (s.remaining - min b.length s.remaining))) with ⟨r, s'⟩
    rw [hf] at hd
    have key : NoCrash (Res.step (β := Nat) (r, s') (fun i => { s with inner := i }) fun size i =>
          if s.remaining < size then (.panic, { s with inner := i })
          else (.ok size, { s with inner := i, remaining := s.remaining - size })).1 ∧
        ∀ n, (Res.step (β := Nat) (r, s') (fun i => { s with inner := i }) fun size i =>
          if s.remaining < size then (.panic, { s with inner := i })
          else (.ok size, { s with inner := i, remaining := s.remaining - size })).1 = .ok n →
            n ≤ b.length := by
      cases r with
      | ok m =>
        have hm := hd.2 m rfl
        simp only [List.length_take] at hm
        simp only [Res.step]
        rw [if_neg (by omega)]
        refine ⟨.ok, ?_⟩
        rintro n ⟨⟩; omega
      | _ => simp_all [Res.step, NoCrash]
    split
    · next m hm =>
      have := he m (finite_of_toU64 hm)
      rw [if_neg (by omega)]
      split
      · simp [NoCrash, Returns]
      · exact key
    · exact key
  · have hf := this.2
    simp only [lengthDecoder]
    split
    · rcases hf' : D.finish s.inner with ⟨r, s'⟩
      rw [hf'] at hf
      cases r with
      | ok b => exact .ok
      | _ => simp_all [NoCrash, Returns, Res.step]
    · exact .err

theorem safe_length {D : Decoder σ α} {s₀ : σ} {n : Nat} (hn : n < 2 ^ 64) (h : SafeFrom D s₀) :
    SafeFrom (lengthDecoder D) (.new s₀ n) := safe_length_at (s₀ := .new s₀ n) hn hn h

theorem maxBytes_inv_at {D : Decoder σ α} {s₀ : MaxBytesState σ} (h0 : s₀.consumed ≤ s₀.max)
    (h : SafeFrom D s₀.inner) {s : MaxBytesState σ} (hs : Reach (maxBytesDecoder D) s₀ s) :
    Reach D s₀.inner s.inner ∧ s.max = s₀.max ∧ s.consumed ≤ s₀.max := by
  refine Reach.inv (Inv := fun s => Reach D s₀.inner s.inner ∧ s.max = s₀.max ∧ s.consumed ≤ s₀.max)
    ⟨.refl, rfl, h0⟩ ?_ ?_ hs
  · intro s b e ⟨hr, hm, hc⟩ he
    have hd := hr.decode b e he
    have hb := ((h _ hr).1 b e he).2
    simp only [maxBytesDecoder]
    rcases hf : D.decode s.inner b e with ⟨r, s'⟩
    rw [hf] at hd hb
    cases r with
    | ok k =>
      have := hb k rfl
      simp only [Res.step]; (repeat' split) <;>
        first | exact ⟨hr, hm, hc⟩ | exact ⟨hd, hm, by simp only; omega⟩
    | _ =>
      simp only [Res.step]; (repeat' split) <;> first | exact ⟨hr, hm, hc⟩ | exact ⟨hd, hm, hc⟩
  · intro s ⟨hr, hm, hc⟩
    have := hr.finish
    simp only [maxBytesDecoder]
    rcases hf : D.finish s.inner with ⟨r, s'⟩
    rw [hf] at this
    cases r <;> exact ⟨this, hm, Nat.zero_le _⟩

theorem maxBytes_inv {D : Decoder σ α} {s₀ : σ} {n : Nat} (h : SafeFrom D s₀) {s : MaxBytesState σ}
    (hs : Reach (maxBytesDecoder D) (.new s₀ n) s) : Reach D s₀ s.inner ∧ s.max = n ∧ s.consumed ≤ n :=
  maxBytes_inv_at (s₀ := .new s₀ n) (Nat.zero_le _) h hs

theorem safe_maxBytes_at {D : Decoder σ α} {s₀ : MaxBytesState σ} (h0 : s₀.consumed ≤ s₀.max)
    (h : SafeFrom D s₀.inner) : SafeFrom (maxBytesDecoder D) s₀ := by
  intro s hs
  obtain ⟨hr, hm, hc⟩ := maxBytes_inv_at h0 h hs
  have := h _ hr
  constructor
  · intro b e he
    have hd := this.1 b e he
    simp only [maxBytesDecoder]
    rcases hf : D.decode s.inner b e with ⟨r, s'⟩
    rw [hf] at hd
    have key : NoCrash (Res.step (β := Nat) (r, s') (fun i => { s with inner := i }) fun size i =>
          (.ok size, { s with inner := i, consumed := s.consumed + size })).1 ∧
        ∀ n, (Res.step (β := Nat) (r, s') (fun i => { s with inner := i }) fun size i =>
          (.ok size, { s with inner := i, consumed := s.consumed + size })).1 = .ok n → n ≤ b.length := by
      cases r <;> exact hd
    split
    · simp [NoCrash, Returns]
    · rw [if_neg (by omega)]
      split
      · exact key
      · simp [NoCrash, Returns]
    · next r hr =>
      have := he r hr
      rw [if_neg (by omega), if_neg (by omega)]
      split
      · exact key
      · simp [NoCrash, Returns]
  · have hf := this.2
    simp only [maxBytesDecoder]
    rcases hf' : D.finish s.inner with ⟨r, s'⟩
    rw [hf'] at hf
    cases r with
    | ok b => exact .ok
    | _ => simp_all [NoCrash, Returns, Res.step]

theorem safe_maxBytes {D : Decoder σ α} {s₀ : σ} {n : Nat} (h : SafeFrom D s₀) :
    SafeFrom (maxBytesDecoder D) (.new s₀ n) := safe_maxBytes_at (s₀ := .new s₀ n) (Nat.zero_le _) h

theorem back_ok {e : Eos} {k n : Nat} (he : EosSane e n) (hk : k ≤ n) : ∃ e', e.back k = .ok e' := by
  obtain ⟨r⟩ := e
  cases r with
  | finite m =>
    have := he m rfl
    simp only [Eos.back]
    rw [if_pos (by omega)]
    exact ⟨_, rfl⟩
  | _ => exact ⟨_, rfl⟩

theorem safe_slice {D : Decoder σ α} {s₀ : SliceState σ} (h : SafeFrom D s₀.inner) :
    SafeFrom (sliceDecoder D) s₀ := by
  intro s hs
  have := h s.inner (reach_slice hs)
  constructor
  · intro b e he
    obtain ⟨e', hb⟩ := back_ok (k := b.length - min b.length s.consumable) he (by omega)
    have hd := this.1 (b.take (min b.length s.consumable)) e'
      (back_sane hb (he.mono (by simp; omega)))
    simp only [sliceDecoder, hb]
    rcases hf : D.decode s.inner (b.take (min b.length s.consumable)) e' with ⟨r, s'⟩
    rw [hf] at hd
    cases r with
    | ok m =>
      have hm := hd.2 m rfl
      simp only [List.length_take] at hm
      simp only [Res.step]
      rw [if_neg (by omega)]
      refine ⟨.ok, ?_⟩
      rintro n ⟨⟩; omega
    | _ => simp_all [Res.step, NoCrash]
  · have hf := this.2
    simp only [sliceDecoder]
    rcases hf' : D.finish s.inner with ⟨r, s'⟩
    rw [hf'] at hf
    cases r with
    | ok b => exact .ok
    | _ => simp_all [NoCrash, Returns, Res.step]

theorem safe_peekable {D : Decoder σ α} {s₀ : PeekState σ α} (h : SafeFrom D s₀.inner) :
    SafeFrom (peekableDecoder D) s₀ := by
  intro s hs
  have hr := reach_peekable hs
  have := h s.inner hr
  constructor
  · intro b e he
    have hd := this.1 b e he
    have hr' := hr.decode b e he
    simp only [peekableDecoder]
    split
    · rcases hf : D.decode s.inner b e with ⟨r, s'⟩
      rw [hf] at hd hr'
      cases r with
      | ok m =>
        simp only [Res.step]
        split
        · have hfin := (h _ hr').2
          rcases hf : D.finish s' with ⟨r, s''⟩
          rw [hf] at hfin
          cases r with
          | ok x => exact hd
          | _ => simp_all [NoCrash, Returns]
        · exact hd
      | _ => exact hd
    · simp [NoCrash, Returns]
  · simp only [peekableDecoder]
    split <;> simp [NoCrash, Returns]

theorem safe_maybeEos {D : Decoder σ α} {s₀ : MaybeEosState σ} (h : SafeFrom D s₀.inner) :
    SafeFrom (maybeEosDecoder D) s₀ := by
  intro s hs
  have hr := reach_maybeEos hs
  have := h s.inner hr
  constructor
  · intro b e he
    have hd := this.1 b (if !s.started && b.isEmpty && e.isReached then Eos.new false else e) (by
      split
      · exact EosSane.newFalse
      · exact he)
    simp only [maybeEosDecoder]
    rcases hf : D.decode s.inner b (if !s.started && b.isEmpty && e.isReached then Eos.new false else e)
      with ⟨r, s'⟩
    rw [hf] at hd
    cases r <;> exact hd
  · have hf := this.2
    simp only [maybeEosDecoder]
    rcases hf' : D.finish s.inner with ⟨r, s'⟩
    rw [hf'] at hf
    cases r with
    | ok b => exact .ok
    | _ => simp_all [NoCrash, Returns, Res.step]

/-- One `bytecodec_try_decode!` on a safe decoder. -/
theorem tryDecode_safe {D : Decoder σ α} {s₀ s : σ} {off : Nat} {buf : Bytes} {e : Eos}
    (h : SafeFrom D s₀) (hr : Reach D s₀ s) (he : EosSane e buf.length) (ho : off ≤ buf.length) :
    (∀ o s', tryDecode D s off buf e = .next o s' → off ≤ o ∧ o ≤ buf.length) ∧
    (∀ r s', tryDecode D s off buf e = .ret r s' →
      NoCrash r ∧ ∀ n, r = .ok n → off ≤ n ∧ n ≤ buf.length) := by
  have hd := (h s hr).1 (buf.drop off) e he.drop
  unfold tryDecode
  split
  · refine ⟨?_, by simp⟩
    rintro o s' ⟨⟩; omega
  · rw [if_neg (by omega)]
    rcases hf : D.decode s (buf.drop off) e with ⟨r, s'⟩
    rw [hf] at hd
    cases r with
    | ok n =>
      have hn := hd.2 n rfl
      simp only [List.length_drop] at hn
      simp only
      split
      · refine ⟨?_, by simp⟩
        rintro o s' ⟨⟩; omega
      · refine ⟨by simp, ?_⟩
        rintro r s' ⟨⟩
        refine ⟨.ok, ?_⟩
        rintro n ⟨⟩; omega
    | panic => exact absurd rfl hd.1.1
    | diverge => exact absurd rfl hd.1.2
    | _ => refine ⟨by simp, ?_⟩; rintro r s' ⟨⟩; simp [NoCrash, Returns]

theorem safe_pair {σ0 α0 σ1 α1 : Type} {D0 : Decoder σ0 α0} {D1 : Decoder σ1 α1} {s0 : σ0} {s1 : σ1}
    (h0 : SafeFrom D0 s0) (h1 : SafeFrom D1 s1) : SafeFrom (tupleDecoder2 D0 D1) (s0, s1) := by
  intro s hs
  have hr := reach_pair hs
  constructor
  · intro b e he
    have t0 := tryDecode_safe (off := 0) h0 hr.1 he (by omega)
    simp only [tupleDecoder2]
    split
    · next r t h =>
      have := t0.2 _ _ h
      exact ⟨this.1, fun n hn => (this.2 n hn).2⟩
    · next o t h =>
      have ho := t0.1 _ _ h
      have t1 := tryDecode_safe (off := o) h1 hr.2 he ho.2
      split
      · next r u h =>
        have := t1.2 _ _ h
        exact ⟨this.1, fun n hn => (this.2 n hn).2⟩
      · next r u h =>
        have := t1.1 _ _ h
        exact ⟨.ok, fun n hn => by cases hn; exact this.2⟩
  · have f0 := (h0 _ hr.1).2
    have f1 := (h1 _ hr.2).2
    simp only [tupleDecoder2]
    rcases hf : D0.finish s.1 with ⟨r, s'⟩
    rw [hf] at f0
    cases r with
    | ok x =>
      simp only [Res.step]
      rcases hf : D1.finish s.2 with ⟨r, s'⟩
      rw [hf] at f1
      cases r with
      | ok y => exact .ok
      | _ => simp_all [NoCrash, Returns]
    | _ => simp_all [NoCrash, Returns, Res.step]

theorem safe_andThen {σ0 α0 σ1 α1 : Type} {D0 : Decoder σ0 α0} {D1 : Decoder σ1 α1} {s0 : σ0}
    {f : α0 → σ1} (h0 : SafeFrom D0 s0) (h1 : ∀ x, SafeFrom D1 (f x)) :
    SafeFrom (andThenDecoder D0 D1 f) (s0, none) := by
  intro s hs
  have hr := reach_andThen hs
  constructor
  · intro b e he
    simp only [andThenDecoder]
    split
    · next t ht =>
      obtain ⟨x, hx⟩ := hr.2 t ht
      have t1 := tryDecode_safe (off := 0) (h1 x) hx he (by omega)
      split
      · next r u h =>
        have := t1.2 _ _ h
        exact ⟨this.1, fun n hn => (this.2 n hn).2⟩
      · next r u h =>
        have := t1.1 _ _ h
        exact ⟨.ok, fun n hn => by cases hn; exact this.2⟩
    · have t0 := tryDecode_safe (off := 0) h0 hr.1 he (by omega)
      have r0 := tryDecode_reach (off := 0) hr.1 he
      split
      · next r t h =>
        have := t0.2 _ _ h
        exact ⟨this.1, fun n hn => (this.2 n hn).2⟩
      · next o u hu =>
        have ho := t0.1 _ _ hu
        have f0 := (h0 _ (r0.1 _ _ hu)).2
        rcases hf : D0.finish u with ⟨r, s'⟩
        rw [hf] at f0
        cases r with
        | ok x =>
          simp only [Res.step]
          have t1 := tryDecode_safe (off := o) (h1 x) .refl he ho.2
          split
          · next r u h =>
            have := t1.2 _ _ h
            exact ⟨this.1, fun n hn => (this.2 n hn).2⟩
          · next r u h =>
            have := t1.1 _ _ h
            exact ⟨.ok, fun n hn => by cases hn; exact this.2⟩
        | _ => simp_all [NoCrash, Returns, Res.step]
  · simp only [andThenDecoder]
    split
    · exact .err
    · next t ht =>
      obtain ⟨x, hx⟩ := hr.2 t ht
      exact (h1 x _ hx).2

/-- What a safe loop exit reports. -/
def LoopExitN.Bounded (len : Nat) : LoopExitN σ α → Prop
  | .done o _ _ _ => o ≤ len
  | .ret r _ _ _ => NoCrash r ∧ ∀ n, r = .ok n → n ≤ len

theorem collectNLoop_safe {D : Decoder σ α} {s₀ : σ} {buf : Bytes} {e : Eos} (h : SafeFrom D s₀)
    (he : EosSane e buf.length) : ∀ n off s items, ReachItem D s₀ s → off ≤ buf.length →
      (collectNLoop D buf e n off s items).Bounded buf.length := by
  intro n
  induction n with
  | zero => intro off s items hr ho; exact ho
  | succ n ih =>
    intro off s items hr ho
    have ht := tryDecode_safe h hr.reach he ho
    have hri := tryDecode_reachItem (off := off) hr he
    have hrr := tryDecode_reach (off := off) hr.reach he
    simp only [collectNLoop]
    split
    · split
      · next hret =>
        have := ht.2 _ _ hret
        exact ⟨this.1, fun n hn => (this.2 n hn).2⟩
      · next o s' hnext =>
        have hf := hri.1 _ _ hnext
        have ho' := ht.1 _ _ hnext
        have hn := (h _ (hrr.1 _ _ hnext)).2
        split <;> rename_i hfin <;> rw [hfin] at hf hn
        · exact ih _ _ _ hf ho'.2
        all_goals simp_all [NoCrash, Returns, LoopExitN.Bounded]
    · exact ho

theorem safe_collectN {D : Decoder σ α} {s₀ : CollectNState σ α} (h : SafeFrom D s₀.inner) :
    SafeFrom (collectNDecoder D) s₀ := by
  intro s hs
  have hr := reach_collectN hs
  constructor
  · intro b e he
    have := collectNLoop_safe h he s.remaining 0 s.inner s.items hr (by omega)
    simp only [collectNDecoder]
    split
    · next hl => rw [hl] at this; exact this
    · next hl =>
      rw [hl] at this
      split
      · simp [NoCrash, Returns]
      · exact ⟨.ok, fun n hn => by cases hn; exact this⟩
  · simp only [collectNDecoder]
    split <;> simp [NoCrash, Returns]

theorem collectLoop_safe {D : Decoder σ α} {s₀ : σ} {buf : Bytes} {e : Eos} (h : SafeFrom D s₀)
    (hp : Productive D s₀) (he : EosSane e buf.length) :
    ∀ k off s items, buf.length - off ≤ k → ReachItem D s₀ s → off ≤ buf.length →
      ∃ x, collectLoop D buf e off s items = some x ∧
        match x with
        | .done o _ _ => o = buf.length
        | .ret r _ _ => NoCrash r ∧ ∀ n, r = .ok n → n ≤ buf.length := by
  intro k
  induction k with
  | zero =>
    intro off s items hk hr ho
    rw [collectLoop, if_neg (by omega)]
    exact ⟨_, rfl, by simp only; omega⟩
  | succ k ih =>
    intro off s items hk hr ho
    have ht := tryDecode_safe h hr.reach he ho
    have hri := tryDecode_reachItem (off := off) hr he
    have hrr := tryDecode_reach (off := off) hr.reach he
    rw [collectLoop]
    split
    · next hlt =>
      rcases hstep : tryDecode D s off buf e with ⟨o, s'⟩ | ⟨r, s'⟩
      · have hf := hri.1 _ _ hstep
        have ho' := ht.1 _ _ hstep
        have hn := (h _ (hrr.1 _ _ hstep)).2
        simp only
        rcases hfin : D.finish s' with ⟨r, s''⟩
        rw [hfin] at hf hn
        cases r with
        | ok x =>
          simp only
          refine ih _ _ _ ?_ hf ho'.2
          have hne : off ≠ o := by
            rintro rfl
            have hp' := hp s hr
            unfold tryDecode at hstep
            split at hstep
            · next hi =>
              cases hstep
              have := hp'.1 hi
              rw [hfin] at this; simp [Res.isOk] at this
            · next hi =>
              rw [if_neg (by omega)] at hstep
              split at hstep
              · next n t hdec =>
                split at hstep
                · next hi2 =>
                  simp at hstep
                  obtain ⟨h0, rfl⟩ := hstep
                  have hb : buf.drop off ≠ [] := by
                    intro hnil
                    have := congrArg List.length hnil
                    simp at this; omega
                  have := hp'.2 (buf.drop off) e hb he.drop (by simpa using hi)
                  rw [hdec] at this
                  have := this (by simp [h0]) hi2
                  rw [hfin] at this; simp [Res.isOk] at this
                · simp at hstep
              all_goals simp at hstep
          omega
        | err => exact ⟨_, rfl, by simp [NoCrash, Returns]⟩
        | capacity => exact ⟨_, rfl, by simp [NoCrash, Returns]⟩
        | panic => simp [Returns] at hn
        | diverge => simp [Returns] at hn
      · have := ht.2 _ _ hstep
        exact ⟨_, rfl, this.1, fun n hn => (this.2 n hn).2⟩
    · exact ⟨_, rfl, by simp only; omega⟩

theorem safe_collect {D : Decoder σ α} {s₀ : CollectState σ α} (hp : Productive D s₀.inner)
    (h : SafeFrom D s₀.inner) : SafeFrom (collectDecoder D) s₀ := by
  intro s hs
  have hr := reach_collect hs
  constructor
  · intro b e he
    obtain ⟨x, hx, hx'⟩ := collectLoop_safe h hp he _ 0 s.inner s.items (Nat.le_refl _) hr (by omega)
    simp only [collectDecoder, hx]
    split
    · simp [NoCrash, Returns]
    · cases x with
      | done o i items => simp only at hx'; subst hx'; simp [NoCrash, Returns]
      | ret r i items => exact hx'
  · simp only [collectDecoder]
    split <;> simp [NoCrash, Returns]

theorem parts_safe {own : OwnDecoder} {ok : Shape → Prop} {D : Decoder σ α} {s : σ} (hP : ∀ σ α (D : Decoder σ α) s, own σ α D s → SafeFrom D s)
    (h : AssembledWith own ok D s) :
    SafeFrom D s := by
  induction h with
  | own h => exact hP _ _ _ _ h
  | copyable b _ => exact safe_copyable b
  | bytes b _ => exact safe_bytes b
  | remaining => exact safe_remaining
  | null => exact safe_null
  | padding b _ => exact safe_padding
  | number f k _ => exact safe_fix f k
  | utf8 _ _ ih => exact safe_utf8 ih
  | monolithic p _ hp => exact safe_monolithic p hp
  | map f _ _ ih => exact safe_map f ih
  | tryMap f _ _ ih => exact safe_tryMap f ih
  | mapErr f _ _ ih => exact safe_mapErr f ih
  | omittable d _ _ ih => exact safe_omit ih
  | length n _ hn _ ih => exact safe_length hn ih
  | maxBytes n _ _ ih => exact safe_maxBytes ih
  | slice n _ _ ih => exact safe_slice ih
  | peekable _ _ ih => exact safe_peekable ih
  | maybeEos _ _ ih => exact safe_maybeEos ih
  | collect _ hp _ ih => exact safe_collect hp ih
  | collectN n _ _ ih => exact safe_collectN ih
  | pair _ _ _ ih0 ih1 => exact safe_pair ih0 ih1
  | andThen f _ _ _ ih0 ih1 => exact safe_andThen ih0 ih1
  | captured F x _ ih => exact safe_captured ih

theorem assembled_safe {ok : Shape → Prop} {D : Decoder σ α} {s : σ} (h : Assembled ok D s) :
    SafeFrom D s :=
  parts_safe (fun _ _ _ _ h => h.elim) h

end Bytecodec
