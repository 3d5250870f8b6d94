import Verif.Lemmas.TrackedLeaves
/-!
# C102: what the codecs that are no combinators say when they fail

`/repo` `src/bytes.rs`, `src/padding.rs`, `src/null.rs`, `src/fixnum.rs`, `src/monolithic.rs`, `src/json_codec.rs`,
`src/bincode_codec.rs`: every `track_assert…!`, `track!` and `cause` in them.
-/
namespace Bytecodec.Props
open Bytecodec

variable {κ σ α : Type} {O O' : TError κ → Prop}

/-- C102: seen through kinds only, each codec with whole errors does in every call what the rest of the model says. -/
theorem C102_same {D : TDecoder κ σ α} {M : Decoder σ α} (h : LeafDec O D M) : D.erase = M := leafDec_erase h

/-- C102: the same for encoders. -/
theorem C102_same_encoder {E : TEncoder κ σ α} {M : Encoder σ α} (h : LeafEnc O E M) : E.erase = M := leafEnc_erase h

/-- C102: every error of such a decoder is one of the library's own assertions or one of its parser, tracked further. -/
theorem C102_decoder {D : TDecoder κ σ α} {M : Decoder σ α} (h : LeafDec O D M) (x : TError κ) (hx : RaisedBy D x) :
    Arrives O x := by
  rcases hx with ⟨s, b, e, hx⟩ | ⟨s, hx⟩
  · exact (leafDec_only h).decode s b e x hx
  · exact (leafDec_only h).finish s x hx

/-- C102: every error of such an encoder is one of the library's own assertions or one of its serializer, tracked further. -/
theorem C102_encoder {E : TEncoder κ σ α} {M : Encoder σ α} (h : LeafEnc O E M) (x : TError κ) (hx : RaisedByE E x) :
    Arrives O x := by
  rcases hx with ⟨s, b, e, hx⟩ | ⟨s, a, hx⟩
  · exact (leafEnc_only h).encode s b e x hx
  · exact (leafEnc_only h).start s a x hx

/-- C102: an error that comes from nowhere else is one of the library's own: it has a history, and its text, if it has one, is
that of the place where its history begins. With `C102_decoder` and `C102_encoder`: byte strings, padding and numbers never
return an error that does not say where it was raised. -/
theorem C102_placed (x : TError κ) (hx : Arrives (fun _ => False) x) :
    ∃ l ls, x.history = some (l :: ls) ∧ (x.cause = some (.text l) ∨ x.cause = none) := by
  obtain ⟨o, ho, h1, h2, ls, h3⟩ := hx
  rcases ho with ho | ⟨k, l, rfl | rfl⟩
  · exact ho.elim
  · exact ⟨l, ls, h3, .inl h2⟩
  · exact ⟨l, ls, h3, .inr h2⟩

/-- C102: in a program, the parts may be such codecs: what the errors of the parts come from, the errors of the whole come from. -/
theorem C102_program {D : TDecoder κ σ α} {M : Decoder σ α} (h : TracedDec O D M) (hO : ∀ x, O x → Arrives O' x)
    (x : TError κ) (hx : RaisedBy D x) : Arrives O' x := by
  refine Arrives.through hO ?_
  rcases hx with ⟨s, b, e, hx⟩ | ⟨s, hx⟩
  · exact (tracedDec_only h).decode s b e x hx
  · exact (tracedDec_only h).finish s x hx

/-- C102: the same for encoders. -/
theorem C102_program_encoder {E : TEncoder κ σ α} {M : Encoder σ α} (h : TracedEnc O E M) (hO : ∀ x, O x → Arrives O' x)
    (x : TError κ) (hx : RaisedByE E x) : Arrives O' x := by
  refine Arrives.through hO ?_
  rcases hx with ⟨s, b, e, hx⟩ | ⟨s, a, hx⟩
  · exact (tracedEnc_only h).encode s b e x hx
  · exact (tracedEnc_only h).start s a x hx

/-- C102: when the parser of a monolithic decoder refuses, `decode` returns the parser's error and leaves the decoder alone. -/
theorem C102_monolithic (parse : TMonolithicParser κ α) (s : MonoDecState α) (b : Bytes) (e : Eos) (he : e.isReached = true)
    (o : TError κ) (hp : (parse s.buf b).1 = .err o) :
    ∃ x, (tMonolithicDecoder parse).decode s b e = (.err x, s) ∧ Surfaces o x := by
  refine ⟨_, ?_, (Surfaces.refl o).track ⟨"monolithic.rs", 55⟩⟩
  generalize hq : parse s.buf b = q at hp
  obtain ⟨r, n⟩ := q
  simp only at hp
  subst hp
  simp only [tMonolithicDecoder, if_pos he, hq, tracked, TRes.step]

/-- C102: when the serializer of a monolithic encoder refuses the item, `encode` returns the serializer's error; the item is
gone. -/
theorem C102_monolithic_encoder (zero : κ) (ser : TMonolithicSerializer κ α) (s : MonoEncState α) (a : α)
    (hs : s.item = some a) (n : Nat) (e : Eos) (o : TError κ) (ho : (ser a).2 = .err o) :
    ∃ x, (tMonolithicEncoder zero ser).encode s n e = (.err x, ⟨none, s.buf⟩) ∧ Surfaces o x := by
  refine ⟨_, ?_, (Surfaces.refl o).track ⟨"monolithic.rs", 138⟩⟩
  obtain ⟨w, hw⟩ := tSerialize_chain zero (ser a).1 ⟨[], n, []⟩
  simp only [tMonolithicEncoder, hs, hw, TRes.step, ho, tracked]

/-- C102: when serde_json refuses the input, the error of `decode` is `InvalidInput`, its cause is the error of serde_json, and
its history is the way it took; the decoder is left alone. -/
theorem C102_json (de : Bytes → Except κ α) (s : MonoDecState α) (b : Bytes) (e : Eos) (he : e.isReached = true) (c : κ)
    (hd : de (s.buf ++ b) = .error c) :
    (tJsonDecoder de).decode s b e =
      (.err ⟨.invalidInput, some (.given c),
        some [⟨"json_codec.rs", 89⟩, ⟨"monolithic.rs", 55⟩, ⟨"json_codec.rs", 51⟩]⟩, s) := by
  simp only [tJsonDecoder, tDelegate, tMonolithicDecoder, if_pos he, tJsonParser, hd, tracked, TRes.step]
  rfl

/-- C102: the same for bincode. -/
theorem C102_bincode (de : Bytes → Except κ (α × Nat)) (s : MonoDecState α) (b : Bytes) (e : Eos) (he : e.isReached = true)
    (c : κ) (hd : de (s.buf ++ b) = .error c) :
    (tBincodeDecoder de).decode s b e =
      (.err ⟨.invalidInput, some (.given c),
        some [⟨"bincode_codec.rs", 78⟩, ⟨"monolithic.rs", 55⟩, ⟨"bincode_codec.rs", 35⟩]⟩, s) := by
  simp only [tBincodeDecoder, tDelegate, tMonolithicDecoder, if_pos he, tBincodeParser, hd, tracked, TRes.step]
  rfl

/-- C102: when serde_json refuses the item, the error of `encode` is `InvalidInput` and its cause is the error of serde_json. -/
theorem C102_json_encoder (zero : κ) (ser : TSerdeWrite κ α) (s : MonoEncState α) (a : α) (hs : s.item = some a) (n : Nat)
    (e : Eos) (c : κ) (hc : (ser a).2 = some c) :
    (tJsonEncoder zero ser).encode s n e =
      (.err ⟨.invalidInput, some (.given c),
        some [⟨"json_codec.rs", 153⟩, ⟨"monolithic.rs", 138⟩, ⟨"json_codec.rs", 115⟩]⟩, ⟨none, s.buf⟩) := by
  obtain ⟨w, hw⟩ := tSerialize_chain zero (ser a).1 ⟨[], n, []⟩
  simp only [tJsonEncoder, tDelegateE, tMonolithicEncoder, hs, tSerdeSerializer, hw, TRes.step, hc, tracked]
  rfl

/-- C102: the same for bincode. -/
theorem C102_bincode_encoder (zero : κ) (ser : TSerdeWrite κ α) (s : MonoEncState α) (a : α) (hs : s.item = some a) (n : Nat)
    (e : Eos) (c : κ) (hc : (ser a).2 = some c) :
    (tBincodeEncoder zero ser).encode s n e =
      (.err ⟨.invalidInput, some (.given c),
        some [⟨"bincode_codec.rs", 144⟩, ⟨"monolithic.rs", 138⟩, ⟨"bincode_codec.rs", 106⟩]⟩, ⟨none, s.buf⟩) := by
  obtain ⟨w, hw⟩ := tSerialize_chain zero (ser a).1 ⟨[], n, []⟩
  simp only [tBincodeEncoder, tDelegateE, tMonolithicEncoder, hs, tSerdeSerializer, hw, TRes.step, hc, tracked]
  rfl

/-- C102: a number that does not fit is refused with `InvalidInput`; the error names the assertion of `encode_item` (at `at_`)
and the `impl_encode!` (at `line`), and the encoder is left alone. -/
theorem C102_number (line at_ max : Nat) (toNat : α → Nat) (write : Nat → Bytes) (s : BytesEncoderState Bytes) (n : α)
    (hn : max < toNat n) :
    (tFixEncoder (κ := κ) line (tBounded at_ max toNat write)).start s n =
      (.err ⟨.invalidInput, some (.text ⟨"fixnum.rs", at_⟩), some [⟨"fixnum.rs", at_⟩, ⟨"fixnum.rs", line⟩]⟩, s) := by
  simp only [tFixEncoder, tBounded, if_neg (Nat.not_le.mpr hn), tracked]
  rfl

/-- A JSON value for the examples: a single digit. -/
private def digit (b : Bytes) : Except String Nat :=
  match b with
  | [d] => if 48 ≤ d ∧ d ≤ 57 then .ok (d.toNat - 48) else .error "not a digit"
  | _ => .error "not a single byte"

/-- A 16-bit number and a JSON value, in a frame of three bytes. -/
private def record : TDecoder String (LengthState (CopyableState × MonoDecState Nat)) (Nat × Nat) :=
  tLengthDecoder (tPairDecoder (tFixDecoder 200 readBE) (tJsonDecoder digit))

/-- Seen through kinds only, it is the program of the rest of the model. -/
example : record.erase = lengthDecoder (tupleDecoder2 (fixDecoder readBE) (jsonDecoder (eraseDe digit))) := by
  have h : TracedDec _ record _ := .length (.pair (.part (tFixDecoder 200 readBE)) (.part (tJsonDecoder digit)))
  rw [tracedDec_erase h, C102_same (.number 200 readBE), C102_same (.json digit)]

/-- Its errors are assertions of the library or refusals of the parser. -/
example (x : TError String) (hx : RaisedBy record x) :
    Arrives (fun o => ∃ b c, digit b = .error c ∧ o = refusal c) x := by
  refine C102_program (.length (.pair (.part (tFixDecoder 200 readBE)) (.part (tJsonDecoder digit)))) (fun o ho => ?_) x hx
  rcases ho with ho | ho
  · exact Arrives.mono (fun _ h => h.elim) (C102_decoder (.number 200 readBE) o ho)
  · exact C102_decoder (.json digit) o ho

/-- What a user reads when the value is no digit. -/
example : (tDecodeFromBytes record (.new (fixInit 2, .new) 3) [1, 2, 65]).1 =
    .err ⟨.invalidInput, some (.given "not a digit"),
      some [⟨"json_codec.rs", 89⟩, ⟨"monolithic.rs", 55⟩, ⟨"json_codec.rs", 51⟩, ⟨"tuple.rs", 61⟩, ⟨"combinator.rs", 732⟩,
        ⟨"decode.rs", 448⟩]⟩ := by decide +kernel

/-- A serializer that refuses `0` after having written two bytes. -/
private def nonZero : TSerdeWrite String Nat := fun n => if n = 0 then ([[1], [2]], some "zero") else ([[1], [2]], none)

example : ∃ a c, (nonZero a).2 = some c := ⟨0, "zero", rfl⟩

example : ((tJsonEncoder "" nonZero).start .new 0).2.item = some 0 := by decide +kernel

/-- A number of 24 bits. -/
example : ((tFixEncoder (κ := String) 491 (tBounded 486 0xFFFFFF UInt32.toNat (writeBE 3))).start .new 0x1000000).1 =
    .err ⟨.invalidInput, some (.text ⟨"fixnum.rs", 486⟩), some [⟨"fixnum.rs", 486⟩, ⟨"fixnum.rs", 491⟩]⟩ := by decide +kernel

end Bytecodec.Props
