import Verif.Lemmas.LawsEnc
import Verif.Model.Fixnum
import Verif.Model.NullPadding
/-!
# C66: rewriting a composition does not change its behaviour

Each law names two ways to write the same codec; `Alike` (Spec/Interchange) says that no sequence of calls tells them
apart, also after errors. Together with C65 the laws apply anywhere inside a larger composition.
-/
namespace Bytecodec.Props

open Bytecodec Bytecodec.Spec

variable {σ α β γ : Type}

/-! ## Decoders: mapping -/

/-- C66: mapping with the identity changes nothing. -/
theorem C66_map_id (D : Decoder σ α) (s : σ) : Alike (mapDecoder D (fun x => x)) s D s :=
  alike_of_eq (map_id_eq D) s

/-- C66: mapping twice is mapping with the composed function. -/
theorem C66_map_map (D : Decoder σ α) (f : α → β) (g : β → γ) (s : σ) :
    Alike (mapDecoder (mapDecoder D f) g) s (mapDecoder D (fun x => g (f x))) s :=
  alike_of_eq (map_map_eq D f g) s

/-- C66: `try_map` with a function that does not fail is `map`. -/
theorem C66_try_map_ok (D : Decoder σ α) (f : α → β) (s : σ) :
    Alike (tryMapDecoder D (fun x => .ok (f x))) s (mapDecoder D f) s :=
  alike_of_eq (tryMap_ok_eq D f) s

/-- C66: two `try_map`s are one, which stops at the first error. -/
theorem C66_try_map_try_map (D : Decoder σ α) (f : α → Except ErrorKind β) (g : β → Except ErrorKind γ) (s : σ) :
    Alike (tryMapDecoder (tryMapDecoder D f) g) s (tryMapDecoder D (fun x => f x >>= g)) s :=
  alike_of_eq (tryMap_tryMap_eq D f g) s

/-- C66: the UTF-8 decoder is `try_map` with `String::from_utf8`. -/
theorem C66_utf8 (D : Decoder σ Bytes) (s : σ) : Alike (utf8Decoder D) s
    (tryMapDecoder D (fun b => match fromUtf8 b with | some str => .ok str | none => .error .invalidInput)) s :=
  alike_of_eq (utf8_eq D) s

/-- C66: mapping errors with the identity changes nothing. -/
theorem C66_map_err_id (D : Decoder σ α) (s : σ) : Alike (mapErrDecoder D (fun k => k)) s D s :=
  alike_of_eq (mapErr_id_eq D) s

/-- C66: mapping errors twice is mapping with the composed function. -/
theorem C66_map_err_map_err (D : Decoder σ α) (f g : ErrorKind → ErrorKind) (s : σ) :
    Alike (mapErrDecoder (mapErrDecoder D f) g) s (mapErrDecoder D (fun k => g (f k))) s :=
  alike_of_eq (mapErr_mapErr_eq D f g) s

/-- C66: `map` and `map_err` can be swapped. -/
theorem C66_map_err_map (D : Decoder σ α) (f : α → β) (g : ErrorKind → ErrorKind) (s : σ) :
    Alike (mapErrDecoder (mapDecoder D f) g) s (mapDecoder (mapErrDecoder D g) f) s :=
  alike_of_eq (mapErr_map_eq D f g) s

/-- C66: `map_err` after `try_map` also converts the errors of the conversion. -/
theorem C66_map_err_try_map (D : Decoder σ α) (f : α → Except ErrorKind β) (g : ErrorKind → ErrorKind) (s : σ) :
    Alike (mapErrDecoder (tryMapDecoder D f) g) s
      (tryMapDecoder (mapErrDecoder D g) (fun x => (f x).mapError g)) s :=
  alike_of_eq (mapErr_tryMap_eq D f g) s

/-! ## Decoders: `map` can be moved through the other combinators -/

/-- C66: `omit`. -/
theorem C66_omit_map (D : Decoder σ α) (f : α → β) (s : OmitState σ) :
    Alike (omittableDecoder (mapDecoder D f)) s (mapDecoder (omittableDecoder D) (Option.map f)) s :=
  alike_of_eq (omittable_map_eq D f) s

/-- C66: `length`. -/
theorem C66_length_map (D : Decoder σ α) (f : α → β) (s : LengthState σ) :
    Alike (lengthDecoder (mapDecoder D f)) s (mapDecoder (lengthDecoder D) f) s :=
  alike_of_eq (length_map_eq D f) s

/-- C66: `max_bytes`. -/
theorem C66_max_bytes_map (D : Decoder σ α) (f : α → β) (s : MaxBytesState σ) :
    Alike (maxBytesDecoder (mapDecoder D f)) s (mapDecoder (maxBytesDecoder D) f) s :=
  alike_of_eq (maxBytes_map_eq D f) s

/-- C66: `slice`. -/
theorem C66_slice_map (D : Decoder σ α) (f : α → β) (s : SliceState σ) :
    Alike (sliceDecoder (mapDecoder D f)) s (mapDecoder (sliceDecoder D) f) s :=
  alike_of_eq (slice_map_eq D f) s

/-- C66: `maybe_eos`. -/
theorem C66_maybe_eos_map (D : Decoder σ α) (f : α → β) (s : MaybeEosState σ) :
    Alike (maybeEosDecoder (mapDecoder D f)) s (mapDecoder (maybeEosDecoder D) f) s :=
  alike_of_eq (maybeEos_map_eq D f) s

/-- C66: `peekable`. -/
theorem C66_peekable_map (D : Decoder σ α) (f : α → β) (s : σ) :
    Alike (peekableDecoder (mapDecoder D f)) ⟨s, none⟩ (mapDecoder (peekableDecoder D) f) ⟨s, none⟩ :=
  (sim_peekable_map D f).alike ⟨rfl, rfl⟩

/-- C66: `collect`: mapping every item is mapping the collection. -/
theorem C66_collect_map (D : Decoder σ α) (f : α → β) (s : σ) :
    Alike (collectDecoder (mapDecoder D f)) ⟨s, [], false⟩ (mapDecoder (collectDecoder D) (List.map f)) ⟨s, [], false⟩ :=
  (sim_collect_map D f).alike ⟨rfl, rfl, rfl⟩

/-- C66: `collectn`. -/
theorem C66_collectn_map (D : Decoder σ α) (f : α → β) (s : σ) (n : Nat) :
    Alike (collectNDecoder (mapDecoder D f)) (.new s n) (mapDecoder (collectNDecoder D) (List.map f)) (.new s n) :=
  (sim_collectN_map D f).alike ⟨rfl, rfl, rfl⟩

/-- C66: pairs. -/
theorem C66_pair_map {σ0 α0 β0 σ1 α1 β1 : Type} (D0 : Decoder σ0 α0) (D1 : Decoder σ1 α1) (f : α0 → β0) (g : α1 → β1)
    (s : σ0 × σ1) :
    Alike (tupleDecoder2 (mapDecoder D0 f) (mapDecoder D1 g)) s
      (mapDecoder (tupleDecoder2 D0 D1) (fun p => (f p.1, g p.2))) s :=
  alike_of_eq (pair_map_eq D0 D1 f g) s

/-- C66: `and_then`: mapping the header. -/
theorem C66_and_then_map_header {σ0 α0 β0 σ1 : Type} (D0 : Decoder σ0 α0) (D1 : Decoder σ1 α) (f : α0 → β0)
    (g : β0 → σ1) (s : σ0 × Option σ1) :
    Alike (andThenDecoder (mapDecoder D0 f) D1 g) s (andThenDecoder D0 D1 (fun x => g (f x))) s :=
  alike_of_eq (andThen_map_first_eq D0 D1 f g) s

/-- C66: `and_then`: mapping the body. -/
theorem C66_and_then_map_body {σ0 α0 σ1 : Type} (D0 : Decoder σ0 α0) (D1 : Decoder σ1 α) (f : α0 → σ1) (g : α → β)
    (s : σ0 × Option σ1) :
    Alike (andThenDecoder D0 (mapDecoder D1 g) f) s (mapDecoder (andThenDecoder D0 D1 f) g) s :=
  alike_of_eq (andThen_map_second_eq D0 D1 f g) s

/-! ## Decoders: `map_err` through combinators that add no errors of their own -/

/-- C66: pairs. -/
theorem C66_pair_map_err {σ0 α0 σ1 α1 : Type} (D0 : Decoder σ0 α0) (D1 : Decoder σ1 α1) (g : ErrorKind → ErrorKind)
    (s : σ0 × σ1) :
    Alike (mapErrDecoder (tupleDecoder2 D0 D1) g) s (tupleDecoder2 (mapErrDecoder D0 g) (mapErrDecoder D1 g)) s :=
  alike_of_eq (pair_mapErr_eq D0 D1 g) s

/-- C66: `slice`. -/
theorem C66_slice_map_err (D : Decoder σ α) (g : ErrorKind → ErrorKind) (s : SliceState σ) :
    Alike (mapErrDecoder (sliceDecoder D) g) s (sliceDecoder (mapErrDecoder D g)) s :=
  alike_of_eq (slice_mapErr_eq D g) s

/-- C66: `maybe_eos`. -/
theorem C66_maybe_eos_map_err (D : Decoder σ α) (g : ErrorKind → ErrorKind) (s : MaybeEosState σ) :
    Alike (mapErrDecoder (maybeEosDecoder D) g) s (maybeEosDecoder (mapErrDecoder D g)) s :=
  alike_of_eq (maybeEos_mapErr_eq D g) s

/-! ## Decoders: nesting -/

/-- C66: pairs can be grouped either way. -/
theorem C66_pair_assoc {σ0 α0 σ1 α1 σ2 α2 : Type} (D0 : Decoder σ0 α0) (D1 : Decoder σ1 α1) (D2 : Decoder σ2 α2)
    (s0 : σ0) (s1 : σ1) (s2 : σ2) :
    Alike (mapDecoder (tupleDecoder2 (tupleDecoder2 D0 D1) D2) (fun p => (p.1.1, p.1.2, p.2))) ((s0, s1), s2)
      (tupleDecoder2 D0 (tupleDecoder2 D1 D2)) (s0, s1, s2) :=
  (sim_pair_assoc D0 D1 D2).alike ⟨rfl, rfl, rfl⟩

/-- C66: of two limits, the smaller one counts. -/
theorem C66_max_bytes_max_bytes (D : Decoder σ α)
    (hD : ∀ s b e n s', D.decode s b e = (.ok n, s') → n ≤ b.length) (s : σ) (n m : Nat) :
    Alike (maxBytesDecoder (maxBytesDecoder D)) (.new (.new s m) n) (maxBytesDecoder D) (.new s (min n m)) :=
  (sim_maxBytes_maxBytes D ⟨hD⟩).alike ⟨rfl, rfl, rfl, rfl, Nat.zero_le _⟩

/-- C66: of two slices, the smaller one counts. -/
theorem C66_slice_slice (D : Decoder σ α)
    (hD : ∀ s b e n s', D.decode s b e = (.ok n, s') → n ≤ b.length) (s : σ) (n m : Nat) :
    Alike (sliceDecoder (sliceDecoder D)) ⟨⟨s, m⟩, n⟩ (sliceDecoder D) ⟨s, min n m⟩ :=
  (sim_slice_slice D ⟨hD⟩).alike ⟨rfl, rfl⟩

/-- C66: two equal frames are one. `n` is a `u64`. -/
theorem C66_length_length (D : Decoder σ α) (s : σ) (n : Nat) (hn : n < 2 ^ 64) :
    Alike (lengthDecoder (lengthDecoder D)) (.new (.new s n) n) (lengthDecoder D) (.new s n) :=
  (sim_length_length D n hn).alike ⟨rfl, rfl, rfl, Nat.le_refl _, Nat.le_refl _⟩

/-- C66: `maybe_eos` twice is `maybe_eos`. -/
theorem C66_maybe_eos_maybe_eos (D : Decoder σ α) (s : σ) :
    Alike (maybeEosDecoder (maybeEosDecoder D)) (.new (.new s)) (maybeEosDecoder D) (.new s) :=
  (sim_maybeEos_maybeEos D).alike ⟨rfl, rfl⟩

/-- C66: `peekable` twice is `peekable`. -/
theorem C66_peekable_peekable (D : Decoder σ α) (s : σ) :
    Alike (peekableDecoder (peekableDecoder D)) ⟨⟨s, none⟩, none⟩ (peekableDecoder D) ⟨s, none⟩ :=
  (sim_peekable_peekable D).alike ⟨rfl, rfl, rfl⟩

/-- C66: without an omission `omit` is `map(Some)`. -/
theorem C66_omit_false (D : Decoder σ α) (s : σ) :
    Alike (omittableDecoder D) ⟨s, false⟩ (mapDecoder D some) s := by
  have h : Sim (omittableDecoder D) (mapDecoder D some) (fun s t => s.inner = t ∧ s.doOmit = false) := by
    constructor
    · rintro ⟨s, o⟩ t ⟨h1, h2⟩; simp only at h1 h2; subst h1 h2; rfl
    · rintro ⟨s, o⟩ t ⟨h1, h2⟩; simp only at h1 h2; subst h1 h2; rfl
    · rintro ⟨s, o⟩ t ⟨h1, h2⟩ b e
      simp only at h1 h2
      subst h1 h2
      simp only [omittableDecoder, mapDecoder]
      generalize D.decode s b e = p
      obtain ⟨r, s'⟩ := p
      cases r <;> exact .mk ⟨rfl, rfl⟩
    · rintro ⟨s, o⟩ t ⟨h1, h2⟩
      simp only at h1 h2
      subst h1 h2
      simp only [omittableDecoder, mapDecoder]
      generalize D.finish s = p
      obtain ⟨r, s'⟩ := p
      cases r <;> exact .mk ⟨rfl, rfl⟩
  exact h.alike ⟨rfl, rfl⟩

/-- Example: numbers never claim more bytes than there are. -/
theorem fix_moderate (f : Bytes → α) (s : CopyableState) (b : Bytes) (e : Eos) (n : Nat) (s' : CopyableState)
    (h : (fixDecoder f).decode s b e = (.ok n, s')) : n ≤ b.length := by
  simp only [fixDecoder, copyableBytesDecoder] at h
  have h1 := congrArg Prod.fst h
  split at h1
  · cases h1
  · split at h1
    · cases h1
    · cases h1; omega

example (n m : Nat) : Alike (maxBytesDecoder (maxBytesDecoder u16beDecoder)) (.new (.new (fixInit 2) m) n)
    (maxBytesDecoder u16beDecoder) (.new (fixInit 2) (min n m)) :=
  C66_max_bytes_max_bytes _ (fix_moderate _) _ _ _

/-- Example: frames of different lengths are not one frame: the answers for the empty input differ. -/
example : ¬ Alike (lengthDecoder (lengthDecoder u16beDecoder)) (.new (.new (fixInit 2) 2) 3)
    (lengthDecoder u16beDecoder) (.new (fixInit 2) 2) := by
  rintro ⟨_, h, _⟩
  cases h

/-! ## Encoders: mapping -/

/-- C66: mapping with the identity changes nothing. -/
theorem C66_map_from_id (E : Encoder σ α) (s : σ) : AlikeE (mapFromEncoder E (fun x => x)) s E s :=
  alikeE_of_eq (mapFrom_id_eq E) s

/-- C66: mapping twice is mapping with the composed function. -/
theorem C66_map_from_map_from (E : Encoder σ α) (f : β → α) (g : γ → β) (s : σ) :
    AlikeE (mapFromEncoder (mapFromEncoder E f) g) s (mapFromEncoder E (fun x => f (g x))) s :=
  alikeE_of_eq (mapFrom_mapFrom_eq E f g) s

/-- C66: `try_map_from` with a function that does not fail is `map_from`. -/
theorem C66_try_map_from_ok (E : Encoder σ α) (f : β → α) (s : σ) :
    AlikeE (tryMapFromEncoder E (fun x => .ok (f x))) s (mapFromEncoder E f) s :=
  alikeE_of_eq (tryMapFrom_ok_eq E f) s

/-- C66: two `try_map_from`s are one, which stops at the first error. -/
theorem C66_try_map_from_try_map_from (E : Encoder σ α) (f : β → Except ErrorKind α) (g : γ → Except ErrorKind β)
    (s : σ) :
    AlikeE (tryMapFromEncoder (tryMapFromEncoder E f) g) s (tryMapFromEncoder E (fun x => g x >>= f)) s :=
  alikeE_of_eq (tryMapFrom_tryMapFrom_eq E f g) s

/-- C66: mapping errors with the identity changes nothing. -/
theorem C66_map_err_id_encoder (E : Encoder σ α) (s : σ) : AlikeE (mapErrEncoder E (fun k => k)) s E s :=
  alikeE_of_eq (mapErrE_id_eq E) s

/-- C66: mapping errors twice is mapping with the composed function. -/
theorem C66_map_err_map_err_encoder (E : Encoder σ α) (f g : ErrorKind → ErrorKind) (s : σ) :
    AlikeE (mapErrEncoder (mapErrEncoder E f) g) s (mapErrEncoder E (fun k => g (f k))) s :=
  alikeE_of_eq (mapErrE_mapErr_eq E f g) s

/-- C66: `map_from` and `map_err` can be swapped. -/
theorem C66_map_err_map_from (E : Encoder σ α) (f : β → α) (g : ErrorKind → ErrorKind) (s : σ) :
    AlikeE (mapErrEncoder (mapFromEncoder E f) g) s (mapFromEncoder (mapErrEncoder E g) f) s :=
  alikeE_of_eq (mapErrE_mapFrom_eq E f g) s

/-- C66: `map_err` after `try_map_from` also converts the errors of the conversion. -/
theorem C66_map_err_try_map_from (E : Encoder σ α) (f : β → Except ErrorKind α) (g : ErrorKind → ErrorKind) (s : σ) :
    AlikeE (mapErrEncoder (tryMapFromEncoder E f) g) s
      (tryMapFromEncoder (mapErrEncoder E g) (fun x => (f x).mapError g)) s :=
  alikeE_of_eq (mapErrE_tryMapFrom_eq E f g) s

/-! ## Encoders: `map_from` can be moved through the other combinators -/

/-- C66: `optional`. -/
theorem C66_optional_map_from (E : Encoder σ α) (f : β → α) (s : σ) :
    AlikeE (optionalEncoder (mapFromEncoder E f)) s (mapFromEncoder (optionalEncoder E) (Option.map f)) s :=
  alikeE_of_eq (optional_mapFrom_eq E f) s

/-- C66: `length`. -/
theorem C66_length_map_from (E : Encoder σ α) (f : β → α) (s : LengthState σ) :
    AlikeE (lengthEncoder (mapFromEncoder E f)).toEncoder s (mapFromEncoder (lengthEncoder E).toEncoder f) s :=
  alikeE_of_eq (length_mapFrom_eq E f) s

/-- C66: `max_bytes`. -/
theorem C66_max_bytes_map_from (E : Encoder σ α) (f : β → α) (s : MaxBytesState σ) :
    AlikeE (maxBytesEncoder (mapFromEncoder E f)) s (mapFromEncoder (maxBytesEncoder E) f) s :=
  alikeE_of_eq (maxBytes_mapFrom_eq E f) s

/-- C66: `slice`. -/
theorem C66_slice_map_from (E : Encoder σ α) (f : β → α) (s : SliceState σ) :
    AlikeE (sliceEncoder (mapFromEncoder E f)) s (mapFromEncoder (sliceEncoder E) f) s :=
  alikeE_of_eq (slice_mapFrom_eq E f) s

/-- C66: `pre_encode`. -/
theorem C66_pre_encode_map_from (E : Encoder σ α) (f : β → α) (s : PreEncodeState σ) :
    AlikeE (preEncodeEncoder (mapFromEncoder E f)).toEncoder s (mapFromEncoder (preEncodeEncoder E).toEncoder f) s :=
  alikeE_of_eq (preEncode_mapFrom_eq E f) s

/-- C66: `last`: the item can be mapped beforehand. -/
theorem C66_last_map_from (E : Encoder σ α) (f : β → α) (s : σ) (x : β) :
    AlikeE (lastEncoder (mapFromEncoder E f)) (.new s x) (lastEncoder E) (.new s (f x)) :=
  (simE_last_mapFrom E f).alike ⟨rfl, rfl⟩

/-- C66: `repeat`: mapping every item is mapping the collection. -/
theorem C66_repeat_map_from (E : Encoder σ α) (f : β → α) (s : σ) :
    AlikeE (repeatEncoder (mapFromEncoder E f)) (.new s) (mapFromEncoder (repeatEncoder E) (List.map f)) (.new s) :=
  (simE_repeat_mapFrom E f).alike ⟨rfl, rfl⟩

/-- C66: pairs. -/
theorem C66_pair_map_from {σ0 α0 β0 σ1 α1 β1 : Type} (E0 : Encoder σ0 α0) (E1 : Encoder σ1 α1) (f : β0 → α0)
    (g : β1 → α1) (s : σ0 × σ1) :
    AlikeE (tupleEncoder2 (mapFromEncoder E0 f) (mapFromEncoder E1 g)) s
      (mapFromEncoder (tupleEncoder2 E0 E1) (fun p => (f p.1, g p.2))) s :=
  alikeE_of_eq (pair_mapFrom_eq E0 E1 f g) s

/-! ## Encoders: `map_err` through combinators that add no errors of their own -/

/-- C66: pairs. -/
theorem C66_pair_map_err_encoder {σ0 α0 σ1 α1 : Type} (E0 : Encoder σ0 α0) (E1 : Encoder σ1 α1)
    (g : ErrorKind → ErrorKind) (s : σ0 × σ1) :
    AlikeE (mapErrEncoder (tupleEncoder2 E0 E1) g) s (tupleEncoder2 (mapErrEncoder E0 g) (mapErrEncoder E1 g)) s :=
  alikeE_of_eq (pairE_mapErr_eq E0 E1 g) s

/-- C66: `slice`. -/
theorem C66_slice_map_err_encoder (E : Encoder σ α) (g : ErrorKind → ErrorKind) (s : SliceState σ) :
    AlikeE (mapErrEncoder (sliceEncoder E) g) s (sliceEncoder (mapErrEncoder E g)) s :=
  alikeE_of_eq (sliceE_mapErr_eq E g) s

/-! ## Encoders: nesting -/

/-- C66: pairs can be grouped either way. -/
theorem C66_pair_assoc_encoder {σ0 α0 σ1 α1 σ2 α2 : Type} (E0 : Encoder σ0 α0) (E1 : Encoder σ1 α1)
    (E2 : Encoder σ2 α2) (s0 : σ0) (s1 : σ1) (s2 : σ2) :
    AlikeE (mapFromEncoder (tupleEncoder2 (tupleEncoder2 E0 E1) E2) (fun p => ((p.1, p.2.1), p.2.2))) ((s0, s1), s2)
      (tupleEncoder2 E0 (tupleEncoder2 E1 E2)) (s0, s1, s2) :=
  (simE_pair_assoc E0 E1 E2).alike ⟨rfl, rfl, rfl⟩

/-- C66: of two limits, the smaller one counts. -/
theorem C66_max_bytes_max_bytes_encoder (E : Encoder σ α) (s : σ) (n m : Nat) :
    AlikeE (maxBytesEncoder (maxBytesEncoder E)) (.new (.new s m) n) (maxBytesEncoder E) (.new s (min n m)) :=
  (simE_maxBytes_maxBytes E).alike ⟨rfl, rfl, .inl ⟨rfl, rfl, Nat.zero_le _⟩⟩

/-- C66: of two slices, the smaller one counts. -/
theorem C66_slice_slice_encoder (E : Encoder σ α)
    (hE : ∀ s cap e bs s', E.encode s cap e = (.ok bs, s') → bs.length ≤ cap) (s : σ) (n m : Nat) :
    AlikeE (sliceEncoder (sliceEncoder E)) ⟨⟨s, m⟩, n⟩ (sliceEncoder E) ⟨s, min n m⟩ :=
  (simE_slice_slice E ⟨hE⟩).alike ⟨rfl, rfl⟩

/-- Example: the padding encoder fills its buffer and no more. -/
example (n m : Nat) : AlikeE (sliceEncoder (sliceEncoder paddingEncoder)) ⟨⟨none, m⟩, n⟩
    (sliceEncoder paddingEncoder) ⟨none, min n m⟩ := by
  refine C66_slice_slice_encoder _ (fun s cap e bs s' h => ?_) _ _ _
  cases s with
  | none => cases h; simp
  | some b => simp only [paddingEncoder] at h; cases h; simp

end Bytecodec.Props
