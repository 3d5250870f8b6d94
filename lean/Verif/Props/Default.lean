import Verif.Model.Default
import Verif.Model.Access
import Verif.Lemmas.Tally
import Verif.Lemmas.Safe
import Verif.Lemmas.Default
import Verif.Model.Fixnum
/-!
# C88: codecs made by `Default`
-/
namespace Bytecodec.Props

open Bytecodec Bytecodec.Spec

variable {σ α κ π : Type}

/-! ## As made by the constructors -/

/-- C88: the default of every decoder with a constructor without parameters is what the constructor makes (of the
inner decoder's default, where there is one). -/
theorem C88_decoders (i : σ) (p : π) (dflt : κ) :
    RemainingState.default = .new ∧ CollectIntoState.default dflt i = .new dflt i ∧
    MaybeEosState.default i = .new i ∧ SliceState.default i = .new i ∧ PeekState.default (α := α) i = .new i ∧
    (p, MonoDecState.default (α := α)) = monoDecNew p := ⟨rfl, rfl, rfl, rfl, rfl, rfl⟩

/-- C88: the default of every encoder with a constructor without parameters is what the constructor makes. -/
theorem C88_encoders (i : σ) (p : π) :
    BytesEncoderState.default (β := α) = .new ∧ RepeatState.default (α := α) i = .new i ∧
    PreEncodeState.default i = .new i ∧ (p, MonoEncState.default (α := α)) = monoEncNew p := ⟨rfl, rfl, rfl, rfl⟩

/-- C88: the default of a codec with parameters is the one made with the default parameter: no bytes, no items, any
padding byte, an array of zeros (as in all the number decoders). -/
theorem C88_parameters (i : σ) (k : Nat) :
    LengthState.default i = .new i 0 ∧ MaxBytesState.default i = .new i 0 ∧
    CollectNState.default (α := α) i = .new i 0 ∧ PaddingState.default = .new none ∧
    OmitState.default i = .new i false ∧
    CopyableState.default (List.replicate k 0) = fixInit k := ⟨rfl, rfl, rfl, rfl, rfl, rfl⟩

/-- C88: a default codec can be given its parameter later, and is then the one the constructor makes with it. -/
theorem C88_configure (i : σ) (n : Nat) (b : Bytes) (pad : Option UInt8) (o : Bool) :
    (LengthState.default i).setExpectedBytes n = (.ok (), .new i n) ∧
    (MaxBytesState.default i).setMaxBytes n = (.ok (), .new i n) ∧
    (CollectNState.default (α := α) i).setRemainingItems n = .new i n ∧
    PaddingState.default.setExpectedByte pad = .new pad ∧
    (OmitState.default i).setDoOmit o = .new i o ∧ ((OmitState.default i).setDoOmit o).willOmit = o ∧
    BytesDecoderState.default.setBytes b = .new b :=
  ⟨rfl, by simp [MaxBytesState.setMaxBytes, MaxBytesState.default, MaxBytesState.new], rfl, rfl, rfl, rfl, rfl⟩

/-- C88: a default encoder has nothing to write and takes an item: the padding encoder, the encoders of bytes and
strings, the monolithic encoders, `Repeat` and `PreEncode`; `Last`, of which an item is asked by its constructor,
is without one and idle if its inner encoder is. -/
theorem C88_idle (E : Encoder σ α) (i : σ) (b : UInt8) (asRef : α → Bytes) (x : α) (xs : List α)
    (ser : MonolithicSerializer α) :
    paddingEncoder.isIdle paddingEncoderDefault = true ∧
    (paddingEncoder.start paddingEncoderDefault b).1 = .ok () ∧
    (bytesEncoder asRef).isIdle .default = true ∧ ((bytesEncoder asRef).start .default x).1 = .ok () ∧
    (monolithicEncoder ser).isIdle .default = true ∧ ((monolithicEncoder ser).start .default x).1 = .ok () ∧
    (repeatEncoder E).isIdle (.default i) = true ∧ ((repeatEncoder E).start (.default i) xs).1 = .ok () ∧
    (preEncodeEncoder E).isIdle (.default i) = true ∧ (lastEncoder E).isIdle (.default i) = E.isIdle i :=
  ⟨rfl, rfl, rfl, rfl, rfl, rfl, rfl, rfl, rfl, rfl⟩

/-! ## Before they are configured -/

/-- C88: a default `Length` decoder takes no byte, whatever the inner decoder and the history of calls. -/
theorem C88_length {D : Decoder σ α} {i : σ} {s : LengthState σ} {c f : Nat}
    (h : Tally (lengthDecoder D) noSet (.default i) s c f) : c = 0 := by
  obtain ⟨k, _, _, _, h4⟩ := tally_length (n := 0) h
  omega

/-- C88: a default `MaxBytes` decoder takes no byte from any inner decoder that reports what it consumes. -/
theorem C88_maxBytes {D : Decoder σ α} {i : σ} (hD : SafeFrom D i) {s : MaxBytesState σ} {c f : Nat}
    (h : Tally (maxBytesDecoder D) noSet (.default i) s c f) : c = 0 := by
  suffices Reach D i s.inner ∧ s.consumed = 0 ∧ s.max = 0 ∧ c = 0 from this.2.2.2
  induction h with
  | new => exact ⟨.refl, rfl, rfl, rfl⟩
  | @decoded s s' c f m b e _ he hd ih =>
    obtain ⟨h1, h2, h3, h4⟩ := ih
    rcases maxBytes_cases D s b e with ⟨h, _⟩ | ⟨h, _⟩ | ⟨hb, _, _, h⟩ <;> rw [h] at hd
    · cases hd
    · cases hd
    · have hr := h1.decode b e he
      have hle := ((hD _ h1).1 b e he).2 m (congrArg Prod.fst hd)
      have e1 := congrArg Prod.fst hd
      have e2 := congrArg Prod.snd hd
      simp only at e1 e2
      rw [e1] at e2
      subst e2
      exact ⟨hr, by simp only; omega, h3, by omega⟩
  | @failed s s' c f b e r _ he hd hnr ih =>
    obtain ⟨h1, h2, h3, h4⟩ := ih
    rcases maxBytes_cases D s b e with ⟨h, _⟩ | ⟨h, _⟩ | ⟨hb, _, _, h⟩ <;> rw [h] at hd
    · cases hd; exact ⟨h1, h2, h3, h4⟩
    · cases hd; exact ⟨h1, h2, h3, h4⟩
    · have hr := h1.decode b e he
      have e1 := congrArg Prod.fst hd
      have e2 := congrArg Prod.snd hd
      simp only at e1 e2
      rw [e1] at e2
      subst e2
      cases r with
      | ok m => exact (hnr m rfl).elim
      | _ => exact ⟨hr, h2, h3, h4⟩
  | @item s s' c f x _ hf ih =>
    rw [maxBytes_finish] at hf
    have e2 := congrArg Prod.snd hf
    simp only at e2
    subst e2
    exact ⟨ih.1.finish, rfl, ih.2.2.1, rfl⟩
  | @refused s s' c f r _ hf hr ih =>
    rw [maxBytes_finish] at hf
    have e2 := congrArg Prod.snd hf
    simp only at e2
    subst e2
    exact ⟨ih.1.finish, rfl, ih.2.2.1, ih.2.2.2⟩
  | set _ hs => exact hs.elim

/-- C88: a default `CollectN` decoder has its (empty) collection ready and takes no byte, also after it has handed it
out. -/
theorem C88_collectN {D : Decoder σ α} {i : σ} {s : CollectNState σ α} {c f : Nat}
    (h : Tally (collectNDecoder D) noSet (.default i) s c f) :
    c = 0 ∧ s = .default i ∧ (collectNDecoder D).isIdle s = true ∧ (collectNDecoder D).finish s = (.ok [], s) := by
  suffices c = 0 ∧ s = .default i by
    obtain ⟨h1, rfl⟩ := this
    exact ⟨h1, rfl, rfl, rfl⟩
  induction h with
  | new => exact ⟨rfl, rfl⟩
  | @decoded s s' c f m b e _ he hd ih =>
    obtain ⟨h1, rfl⟩ := ih
    have : (collectNDecoder D).decode (.default i) b e = (.ok 0, .default i) := by
      simp [collectNDecoder, CollectNState.default, collectNLoop]
    rw [this] at hd
    cases hd
    exact ⟨h1, rfl⟩
  | @failed s s' c f b e r _ he hd hnr ih =>
    obtain ⟨h1, rfl⟩ := ih
    have : (collectNDecoder D).decode (.default i) b e = (.ok 0, .default i) := by
      simp [collectNDecoder, CollectNState.default, collectNLoop]
    rw [this] at hd
    cases hd
    exact (hnr _ rfl).elim
  | @item s s' c f x _ hf ih =>
    obtain ⟨h1, rfl⟩ := ih
    have : (collectNDecoder D).finish (.default i) = (.ok [], .default i) := rfl
    rw [this] at hf
    cases hf
    exact ⟨rfl, rfl⟩
  | @refused s s' c f r _ hf hr ih =>
    obtain ⟨h1, rfl⟩ := ih
    have : (collectNDecoder D).finish (.default i) = (.ok [], .default i) := rfl
    rw [this] at hf
    cases hf
    exact (hr _ rfl).elim
  | set _ hs => exact hs.elim

/-- C88: a default `Slice` decoder is suspended and takes no byte until it is given an allowance. -/
theorem C88_slice {D : Decoder σ α} {i : σ} {s : SliceState σ} {c f : Nat}
    (h : Tally (sliceDecoder D) noSet (.default i) s c f) : c = 0 ∧ s.isSuspended = true := by
  suffices c = 0 ∧ s.consumable = 0 from ⟨this.1, by rw [SliceState.isSuspended, this.2]; rfl⟩
  have dec : ∀ (s : SliceState σ) b e r s', s.consumable = 0 → (sliceDecoder D).decode s b e = (r, s') →
      s'.consumable = 0 ∧ ∀ m, r = .ok m → m = 0 := by
    intro s b e r s' h0 hd
    simp only [sliceDecoder] at hd
    split at hd
    · rcases hq : D.decode s.inner (b.take (min b.length s.consumable)) _ with ⟨r', i'⟩
      rw [hq] at hd
      cases r' with
      | ok m =>
        simp only [Res.step] at hd
        split at hd
        · cases hd; exact ⟨h0, fun _ h => (by cases h)⟩
        · cases hd; exact ⟨by simp only; omega, fun _ h => (by cases h; omega)⟩
      | _ => simp only [Res.step] at hd; cases hd; exact ⟨h0, fun _ h => (by cases h)⟩
    · cases hd; exact ⟨h0, fun _ h => (by cases h)⟩
  have fin : ∀ (s : SliceState σ), ((sliceDecoder D).finish s).2.consumable = s.consumable := by
    intro s
    simp only [sliceDecoder]
    rcases D.finish s.inner with ⟨r', i'⟩
    cases r' <;> rfl
  induction h with
  | new => exact ⟨rfl, rfl⟩
  | decoded _ he hd ih =>
    obtain ⟨h1, h2⟩ := dec _ _ _ _ _ ih.2 hd
    exact ⟨by rw [ih.1, h2 _ rfl], h1⟩
  | failed _ he hd hnr ih => exact ⟨ih.1, (dec _ _ _ _ _ ih.2 hd).1⟩
  | @item s s' c f x _ hf ih => exact ⟨rfl, by have := fin s; rw [hf] at this; rw [this, ih.2]⟩
  | @refused s s' c f r _ hf hr ih => exact ⟨ih.1, by have := fin s; rw [hf] at this; rw [this, ih.2]⟩
  | set _ hs => exact hs.elim

/-- C88: a default `BytesDecoder` has nothing to fill: it reports idle and asks for no byte, but every call fails, until
it is given a buffer. -/
theorem C88_bytes (b : Bytes) (e : Eos) :
    bytesDecoder.isIdle .default = true ∧ bytesDecoder.requiring .default = .finite 0 ∧
    bytesDecoder.decode .default b e = (.err .decoderTerminated, .default) ∧
    bytesDecoder.finish .default = (.err .decoderTerminated, .default) := ⟨rfl, rfl, rfl, rfl⟩

/-- C88: default `Length`, `MaxBytes` and `Slice` encoders write no byte before they are configured, whatever is done
with them. -/
theorem C88_mute (E : Encoder σ α) (i : σ) :
    Mute (lengthEncoder E).toEncoder (.default i) ∧ Mute (maxBytesEncoder E) (.default i) ∧
    Mute (sliceEncoder E) (.default i) := by
  refine ⟨mute_of (fun s => s.expected = 0 ∧ s.remaining = 0) ?_ ?_ ⟨rfl, rfl⟩,
    mute_of (fun s => s.max = 0) ?_ ?_ rfl, mute_of (fun s => s.consumable = 0) ?_ ?_ rfl⟩
  · intro s x h
    simp only [lengthEncoder]
    split
    · rcases E.start s.inner x with ⟨r, i'⟩
      cases r <;> exact ⟨h.1, h.1⟩
    · exact h
  · intro s cap e h
    simp only [lengthEncoder]
    split
    · exact ⟨h, fun _ hb => (by cases hb)⟩
    · rcases E.encode s.inner (if cap < s.remaining then cap else s.remaining)
        (if cap < s.remaining then e else Eos.new true) with ⟨r, i'⟩
      cases r with
      | ok bs =>
        simp only [Res.step]
        split
        · exact ⟨h, fun _ hb => (by cases hb)⟩
        · next hlt =>
          split
          · exact ⟨⟨h.1, by simp only; omega⟩, fun _ hb => (by cases hb)⟩
          · exact ⟨⟨h.1, by simp only; omega⟩, fun _ hb => (by
              cases hb
              exact List.eq_nil_of_length_eq_zero (by omega))⟩
      | _ => exact ⟨h, fun _ hb => (by cases hb)⟩
  · intro s x h
    simp only [maxBytesEncoder]
    rcases E.start s.inner x with ⟨r, i'⟩
    cases r <;> exact h
  · intro s cap e h
    simp only [maxBytesEncoder]
    rcases E.encode s.inner cap e with ⟨r, i'⟩
    cases r with
    | ok bs =>
      simp only [Res.step]
      split
      · exact ⟨h, fun _ hb => (by cases hb)⟩
      · next hlt =>
        split
        · exact ⟨h, fun _ hb => (by
            cases hb
            exact List.eq_nil_of_length_eq_zero (by omega))⟩
        · exact ⟨h, fun _ hb => (by
            cases hb
            exact List.eq_nil_of_length_eq_zero (by omega))⟩
    | _ => exact ⟨h, fun _ hb => (by cases hb)⟩
  · intro s x h
    simp only [sliceEncoder]
    rcases E.start s.inner x with ⟨r, i'⟩
    cases r <;> exact h
  · intro s cap e h
    simp only [sliceEncoder]
    split
    · rcases E.encode s.inner (min cap s.consumable) _ with ⟨r, i'⟩
      cases r with
      | ok bs =>
        simp only [Res.step]
        split
        · exact ⟨h, fun _ hb => (by cases hb)⟩
        · exact ⟨by simp only; omega, fun _ hb => (by
            cases hb
            exact List.eq_nil_of_length_eq_zero (by omega))⟩
      | _ => exact ⟨h, fun _ hb => (by cases hb)⟩
    · exact ⟨h, fun _ hb => (by cases hb)⟩

/-- C88: a default `Last` encoder has no last item: it behaves like the encoder it wraps, to which no item can be given
any more. -/
theorem C88_last (E : Encoder σ α) (i : σ) (calls : List (Nat × Eos)) :
    observeE (lastEncoder E) (.default i) (calls.map fun c => .encode c.1 c.2) =
      observeE E i (calls.map fun c => .encode c.1 c.2) := by
  induction calls generalizing i with
  | nil => rfl
  | cons c cs ih =>
    have h : (lastEncoder E).encode (.default i) c.1 c.2 =
        ((E.encode i c.1 c.2).1, .default (E.encode i c.1 c.2).2) := by
      have : ∀ j : σ, (lastEncoder E).encode (.default j) c.1 c.2 = Res.step (E.encode j c.1 c.2)
          (fun k => LastState.default k) fun bs k => (.ok bs, .default k) := by
        intro j
        simp only [lastEncoder, LastState.default]
        split <;> rfl
      rw [this]
      rcases E.encode i c.1 c.2 with ⟨r, j⟩
      cases r <;> rfl
    simp only [List.map_cons, observeE, ecallState, ecallAnswer, h]
    rw [ih]
    rfl

/-! ## Examples -/

/-- A history with a call that offers a byte, and one that takes an item. -/
example : Tally (lengthDecoder nullDecoder) noSet (.default ()) (.default ()) 0 0 :=
  .item (c := 0) (f := 0) (.decoded (b := [7]) (e := Eos.new false) (n := 0) (s' := .default ()) .new
    EosSane.newFalse rfl) rfl

example : Tally (maxBytesDecoder nullDecoder) noSet (.default ()) (.default ()) 0 0 :=
  .failed (b := [7]) (e := Eos.new false) (r := .err .invalidInput) .new EosSane.newFalse rfl (fun _ h => (by cases h))

/-- Configured, the same encoder is not mute. -/
example : ¬ Mute (lengthEncoder u8Encoder.toEncoder).toEncoder (.new .new 1) := fun h =>
  absurd (h [.start 7, .encode 1 (Eos.new false)] ⟨.encode (.ok [7]), true, .finite 0⟩ [7]
    (.tail _ (.head _)) rfl) (by decide)

end Bytecodec.Props
