import Verif.Lemmas.Lossless
import Verif.Props.Chunking
import Verif.Props.Encoding
/-!
# Encoding gives back what was decoded (C63)
-/
namespace Bytecodec.Props
open Spec

variable {σ τ α : Type}

/-- C63 (one call): if a lossless decoder delivers an item, whatever the bytes offered, then encoding
the item with any encoder for the same format gives back exactly the bytes consumed. -/
theorem C63_one_call {delim again strict : Bool} {D : Decoder τ α} {sD : τ} {dom : α → Prop}
    {enc : α → Except ErrorKind Bytes} (h : Lossless delim again D sD dom enc)
    {E : Encoder σ α} {sE : σ} (hE : Writes strict E sE dom enc)
    {b : Bytes} {e : Eos} {n : Nat} {x : α} {s' : τ} (hf : feed D sD [(b, e)] = some (n, x, s')) :
    n ≤ b.length ∧ dom x ∧ enc x = .ok (b.take n) ∧
      (n < 2 ^ 63 → (encodeIntoBytes E sE x).1 = .ok (b.take n)) := by
  obtain ⟨F, hF, hK⟩ := lossless_keeps h
  obtain ⟨t, ht⟩ := feed_one.1 hf
  obtain ⟨h1, ⟨h2, h3⟩, _⟩ := hK.item hF ht
  refine ⟨h1, h2, h3, fun hn => ?_⟩
  obtain ⟨P, hP⟩ := writes_fresh hE
  have hem := fresh_emits hP
  obtain ⟨s1, _, g, _⟩ := (C34_encode_into_bytes hem .new hem.new h2).1 _ h3 (by simp; omega)
  rw [g]

/-- C63 (pieces): the same for bytes that arrive in pieces of any sizes, if the decoder is built without
`max_bytes` and `collect`. -/
theorem C63_chunked_partial {delim again strict p q : Bool} {D : Decoder τ α} {sD : τ} {dom : α → Prop}
    {enc : α → Except ErrorKind Bytes} (h : Lossless delim again D sD dom enc) (hp : Streamable Plain p q D sD)
    {E : Encoder σ α} {sE : σ} (hE : Writes strict E sE dom enc)
    {chunks : List (Bytes × Eos)} {b : Bytes} {e : Eos} (hc : Schedule chunks b e) (he : EosSane e b.length)
    {n : Nat} {x : α} {s' : τ} (hf : feed D sD chunks = some (n, x, s')) :
    n ≤ b.length ∧ dom x ∧ enc x = .ok (b.take n) ∧
      (n < 2 ^ 63 → (encodeIntoBytes E sE x).1 = .ok (b.take n)) :=
  C63_one_call h hE (C08_join_partial hp hc he hf)

/-- C63 (pieces, with `collect`): provided the end of the stream does not arrive in an empty piece. -/
theorem C63_chunked_collect_partial {delim again strict p q : Bool} {D : Decoder τ α} {sD : τ} {dom : α → Prop}
    {enc : α → Except ErrorKind Bytes} (h : Lossless delim again D sD dom enc)
    (hp : Streamable WithCollect p q D sD) {E : Encoder σ α} {sE : σ} (hE : Writes strict E sE dom enc)
    {chunks : List (Bytes × Eos)} {b : Bytes} {e : Eos} (hc : Schedule chunks b e)
    (hlast : ∀ c, chunks.getLast? = some c → c.1 ≠ []) (he : EosSane e b.length)
    {n : Nat} {x : α} {s' : τ} (hf : feed D sD chunks = some (n, x, s')) :
    n ≤ b.length ∧ dom x ∧ enc x = .ok (b.take n) ∧
      (n < 2 ^ 63 → (encodeIntoBytes E sE x).1 = .ok (b.take n)) :=
  C63_one_call h hE (C08_join_collect_partial hp hc hlast he hf)

/-- C63 (relays): items are taken from a stream one after the other, and handed to an encoder for the same
format. Whatever the sizes of the pieces and of the output buffers, the encoder accepts every item, and
once it is idle it has emitted exactly the part of the stream that was consumed. -/
theorem C63_relay_partial {delim strict p q : Bool} {D : Decoder τ α} {sD : τ} {dom : α → Prop}
    {enc : α → Except ErrorKind Bytes} (h : Lossless delim true D sD dom enc) (hp : Streamable Plain p q D sD)
    {E : Encoder σ α} {sE : σ} (hE : Writes strict E sE dom enc)
    {stream : Bytes} {e : Eos} (he : EosSane e stream.length) {s : τ} {pos : Nat} {items : List α}
    (hr : Relays D stream e sD s pos items) :
    (∀ {t sent out}, Sends strict E sE t sent out → (∀ x ∈ sent, x ∈ items) → E.isIdle t = true →
      ∀ x ∈ items, (E.start t x).1 = .ok ()) ∧
    ∀ {t out}, Sends strict E sE t items out → E.isIdle t = true → out = stream.take pos := by
  obtain ⟨F, hF, hK⟩ := lossless_keeps h
  obtain ⟨I, hI, hs⟩ := streamable_joins (c := true) (fun h => h.1 rfl) (fun h => h.2.2 rfl)
    (fun _ h => h.2.1 rfl) hp
  obtain ⟨_, _, _, hrow⟩ := relays_keep hI hK hs hF he hr
  obtain ⟨all, hall⟩ := row_enc hrow
  obtain ⟨P, hP⟩ := writes_fresh hE
  have hem := fresh_emits hP
  constructor
  · intro t sent out hsend hsub hi x hx
    obtain ⟨_, g2⟩ := sends_encRun hem hsend fun y hy => (all y (hsub y hy)).1
    obtain ⟨b, hb⟩ := (all x hx).2
    exact hem.accepts g2 hi (all x hx).1 hb
  · intro t out hsend hi
    obtain ⟨_, g2⟩ := sends_encRun hem hsend fun y hy => (all y hy).1
    rw [hem.complete g2 hi, hall]

/-- C63: every number codec is lossless. (Each number decoder accepts any bytes, and every bit counts.) -/
theorem C63_numbers {E : SizedEncoder (BytesEncoderState Bytes) α} {D : Decoder CopyableState α}
    {k : Nat} {be : Bool} {val : α → Nat} (h : NumberCodec E D k be val) {b : Bytes} {e : Eos} {n : Nat} {x : α}
    {s' : CopyableState} (hf : feed D (fixInit k) [(b, e)] = some (n, x, s')) :
    n = k ∧ (encodeIntoBytes E.toEncoder .new x).1 = .ok (b.take k) := by
  have hk : k ≤ 8 := by cases h <;> decide
  obtain ⟨h1, h2, h3, h4⟩ := C63_one_call (lossless_number h)
    (.weaken (matched_writes (matched_number h true)) (fun x _ => ⟨trivial, rfl⟩) id) hf
  have hn : n = k := by
    rw [if_pos h2] at h3
    have := congrArg List.length (Except.ok.inj h3)
    rw [length_layout, List.length_take] at this
    omega
  subst hn
  exact ⟨rfl, h4 (by omega)⟩

/-- C63: length-prefixed data is lossless if the data is. -/
theorem C63_length_prefixed {delim again : Bool} {α0 : Type}
    {E0 : SizedEncoder (BytesEncoderState Bytes) α0} {D0 : Decoder CopyableState α0} {k : Nat} {be : Bool}
    {val : α0 → Nat} (h0 : NumberCodec E0 D0 k be val) (ofNat : Nat → α0) (hval : ∀ y, ofNat (val y) = y)
    {D1 : Decoder τ α} {sD1 : τ} {dom1 : α → Prop} {enc1 : α → Except ErrorKind Bytes}
    (h1 : Lossless delim again D1 sD1 dom1 enc1) :
    Lossless true true (andThenDecoder D0 (lengthDecoder D1) fun n => .new sD1 (val n)) (fixInit k, none)
      (fun x => dom1 x ∧ (bytesOf (enc1 x)).length < 256 ^ k)
      (fun x => (enc1 x).map fun b => layout be k b.length ++ b) := by
  have key := Lossless.header (fun x => ofNat (bytesOf (enc1 x)).length) (fun n => LengthState.new sD1 (val n))
    (lossless_number h0) (fun n => Lossless.length (val n) (number_val_lt h0 n) h1) (fun n x _ hx => by
      obtain ⟨b, h2, h3⟩ := hx.2
      simp only [bytesOf_ok h2, h3, hval])
  refine key.weaken (fun x hx => ?_) id id
  obtain ⟨h2, h3, b, h4, h5⟩ := hx
  simp only [bytesOf_ok h4] at h2 h5
  rw [← h5] at h2
  refine ⟨⟨h3, by rwa [bytesOf_ok h4]⟩, ?_⟩
  simp only [h4, bytesOf, ← h5, h2, if_true]
  rfl

/-- The hypotheses of the relay are met by strings with a length prefix, for instance. -/
example : ∃ dom enc,
    Lossless true true (andThenDecoder u8Decoder (lengthDecoder (utf8Decoder remainingBytesDecoder))
      fun n => .new .new n.toNat) (fixInit 1, none) dom enc ∧
    Streamable Plain true false (andThenDecoder u8Decoder (lengthDecoder (utf8Decoder remainingBytesDecoder))
      fun n => .new .new n.toNat) (fixInit 1, none) ∧
    Writes true (mapFromEncoder (tupleEncoder2 u8Encoder.toEncoder utf8Encoder.toEncoder)
      fun x => (UInt8.ofNat (utf8Bytes x).length, x)) (.new, .new) dom enc := by
  refine ⟨_, _, C63_length_prefixed .u8 UInt8.ofNat (fun y => by simp) (.utf8 .remaining),
    .andThen _ (.number true false _ 1) fun n =>
      .length true _ (by have := n.toNat_lt; omega) (.utf8 (.remaining true)), ?_⟩
  refine .weaken (.mapFrom _ (.pair (matched_writes (matched_number .u8 true)) (.utf8 true))) (fun x hx => ⟨⟨trivial, trivial⟩, ?_⟩) id
  have hx : (utf8Bytes x).length < 256 := hx.2
  have h1 : (UInt8.ofNat (utf8Bytes x).length).toNat = (utf8Bytes x).length := by
    rw [UInt8.toNat_ofNat']; omega
  simp only [h1, hx, Nat.pow_one, if_true, Except.bind, Except.map]

/-- Two strings are relayed. -/
example : Relays (andThenDecoder u8Decoder (lengthDecoder (utf8Decoder remainingBytesDecoder))
    fun n => .new .new n.toNat) [1, 97, 2, 98, 99, 7] (Eos.new false) (fixInit 1, none) (⟨[2], 0⟩, none) 5 ["a", "bc"] := by
  refine .next (items := ["a"]) (pos := 2) (n := 3) (.next (items := []) (pos := 0) (n := 2) .new (.last _ _) (s' := (⟨[1], 0⟩, none)) ?_) (.last _ _) ?_
  · exact feed_one.2 ⟨(⟨[1], 0⟩, some ⟨⟨[97], true⟩, 1, 0⟩), rfl, rfl⟩
  · exact feed_one.2 ⟨(⟨[2], 0⟩, some ⟨⟨[98, 99], true⟩, 2, 0⟩), rfl, rfl⟩

/-- A sequence of numbers is lossless when it is decoded in one call … -/
example : ∃ dom enc, Lossless false true (collectDecoder u16beDecoder) ⟨fixInit 2, [], false⟩ dom enc :=
  ⟨_, _, .collect (lossless_number .u16be)⟩

/-- … but (the code deviates) not when the end of the stream arrives in an empty piece: one byte is
consumed that is in no item. -/
theorem C63_collect_fails :
    Schedule [([1], Eos.new false), ([], Eos.new true)] [1] (Eos.new true) ∧
    (feed (collectDecoder u16beDecoder) ⟨fixInit 2, [], false⟩
      [([1], Eos.new false), ([], Eos.new true)]).map (fun r => (r.1, r.2.1)) = some (1, []) ∧
    (encodeIntoBytes (repeatEncoder u16beEncoder.toEncoder) (.new .new) ([] : List UInt16)).1 = .ok [] :=
  ⟨C08_collect_fails.1, C08_collect_fails.2.1, by
    obtain ⟨P, hP⟩ := writes_fresh (WritesWith.repeated (matched_writes (matched_number .u16be true)))
    have hem := fresh_emits hP
    obtain ⟨s1, _, g, _⟩ := (C34_encode_into_bytes hem .new hem.new (x := []) (by simp)).1 _ rfl (by simp)
    rw [g]; rfl⟩

end Bytecodec.Props
