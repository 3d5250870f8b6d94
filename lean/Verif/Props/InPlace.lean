import Verif.Lemmas.InPlaceTuple
/-!
# C74: encoders touch only the bytes they report

In the other files `encode` is given the length of the output buffer and returns the bytes. Here it is given the
buffer, as in Rust. The two models agree, so everything proved with the first holds of the second.
-/
namespace Bytecodec.Props

open Spec

variable {σ α ω : Type}

/-- C74: an encoder, however it is put together, puts the bytes that the other model returns at the front of the
buffer, returns their number and leaves the rest of the buffer as it was. It fails when the other does. -/
theorem C74_in_place {own : (σ α : Type) → BufEncoder σ α → Encoder σ α → Prop}
    (ho : ∀ σ α B E, own σ α B E → InPlace B E) {B : BufEncoder σ α} {E : Encoder σ α} (h : SameProgram own B E) :
    InPlace B E := by
  induction h with
  | own h => exact ho _ _ _ _ h
  | bytes f => exact inPlace_bytes f
  | number f => exact inPlace_number f
  | utf8 => exact inPlace_utf8
  | null => exact inPlace_null
  | padding => exact inPlace_padding
  | monolithic ser => exact inPlace_monolithic ser
  | mapErr f _ ih => exact inPlace_mapErr ih f
  | mapFrom f _ ih => exact inPlace_mapFrom ih f
  | tryMapFrom f _ ih => exact inPlace_tryMapFrom ih f
  | repeated _ ih => exact inPlace_repeat ih
  | optional _ ih => exact inPlace_optional ih
  | length _ ih => exact inPlace_length ih
  | maxBytes _ ih => exact inPlace_maxBytes ih
  | preEncode _ ih => exact inPlace_preEncode ih
  | slice _ ih => exact inPlace_slice ih
  | last _ ih => exact inPlace_last ih
  | pointer _ ih => exact inPlace_pointer ih
  | tuple2 _ _ i0 i1 => exact inPlace_tuple2 i0 i1
  | tuple3 _ _ _ i0 i1 i2 => exact inPlace_tuple3 i0 i1 i2
  | tuple4 _ _ _ _ i0 i1 i2 i3 => exact inPlace_tuple4 i0 i1 i2 i3
  | tuple5 _ _ _ _ _ i0 i1 i2 i3 i4 => exact inPlace_tuple5 i0 i1 i2 i3 i4
  | tuple6 _ _ _ _ _ _ i0 i1 i2 i3 i4 i5 => exact inPlace_tuple6 i0 i1 i2 i3 i4 i5
  | tuple7 _ _ _ _ _ _ _ i0 i1 i2 i3 i4 i5 i6 => exact inPlace_tuple7 i0 i1 i2 i3 i4 i5 i6
  | tuple8 _ _ _ _ _ _ _ _ i0 i1 i2 i3 i4 i5 i6 i7 => exact inPlace_tuple8 i0 i1 i2 i3 i4 i5 i6 i7

/-- C74: in terms of the buffer: after `Ok(n)` the first `n` bytes are those of the other model, and the bytes
after them have not changed. -/
theorem C74_written {B : BufEncoder σ α} {E : Encoder σ α} (h : InPlace B E) {s s' : σ} {buf buf' : Bytes} {e : Eos}
    {n : Nat} (hb : B.encode s buf e = (.ok n, s', buf')) :
    n ≤ buf.length ∧ E.encode s buf.length e = (.ok (buf'.take n), s') ∧ buf'.drop n = buf.drop n := by
  rcases h.elim s buf e with ⟨o, t, h1, h2, h3⟩ | ⟨r, r', t, b, h1, h2, h3, h4⟩
  · rw [hb] at h2
    cases h2
    exact ⟨h1, by rw [h3, List.take_left], by rw [List.drop_left]⟩
  · rw [hb] at h3
    cases h3
    cases h1

/-- C74: so no encoder touches more than it reports, and what the buffer held before makes no difference. -/
theorem C74_tidy {B : BufEncoder σ α} {E : Encoder σ α} (h : InPlace B E) : Tidy B where
  length s buf e := by
    rcases h.elim s buf e with ⟨o, t, h1, h2, h3⟩ | ⟨r, r', t, b, h1, h2, h3, h4⟩
    · rw [h2]; simp; omega
    · rw [h3]; exact h2
  rest s buf e n hn := by
    rcases hb : B.encode s buf e with ⟨r, s', buf'⟩
    rw [hb] at hn
    cases hn
    exact ⟨(C74_written h hb).1, (C74_written h hb).2.2⟩
  same s buf₁ buf₂ e hl := by
    rcases h.elim s buf₁ e with ⟨o, t, h1, h2, h3⟩ | ⟨r, r', t, b, h1, h2, h3, h4⟩
    · rcases h.elim s buf₂ e with ⟨o', t', h1', h2', h3'⟩ | ⟨q, q', t', b', h1', h2', h3', h4'⟩
      · rw [hl, h3'] at h3
        cases h3
        rw [h2, h2']
        refine ⟨rfl, rfl, fun n hn => ?_⟩
        cases hn
        rw [List.take_left, List.take_left]
      · rw [hl, h4'] at h3
        cases h3
        cases h1'
    · rcases h.elim s buf₂ e with ⟨o', t', h1', h2', h3'⟩ | ⟨q, q', t', b', h1', h2', h3', h4'⟩
      · rw [hl, h3'] at h4
        cases h4
        cases h1
      · rw [hl, h4'] at h4
        cases h4
        rw [h3, h3']
        refine ⟨by cases h1 <;> cases h1' <;> rfl, rfl, fun n hn => ?_⟩
        cases hn
        cases h1

/-- C74: an encoder of the user's own that is tidy may be used as a part. -/
theorem C74_own {B : BufEncoder σ α} (h : Tidy B) : InPlace B (outline B) where
  idle _ := rfl
  requiring _ := rfl
  start _ _ := rfl
  encode s buf e := by
    obtain ⟨h1, h2, h3⟩ := h.same s buf (List.replicate buf.length 0) e (by simp)
    have h4 := h.length s buf e
    have h5 := h.rest s buf e
    simp only [outline]
    rcases e1 : B.encode s buf e with ⟨r, s', b⟩
    rcases e2 : B.encode s (List.replicate buf.length 0) e with ⟨r', t, b'⟩
    rw [e1, e2] at h1 h2 h3
    rw [e1] at h4 h5
    simp only at h1 h2 h3 h4 h5
    subst h1
    subst h2
    cases r with
    | ok n =>
      obtain ⟨h6, h7⟩ := h5 n rfl
      have h8 : (b'.take n).length = n := by
        rw [← h3 n rfl, List.length_take]; omega
      have := Written.ok (buf := buf) (s := s') (out := b'.take n) (by omega)
      rw [h8, ← h7, ← h3 n rfl, List.take_append_drop] at this
      simp only [← h3 n rfl]
      exact this
    | err k => exact .fail (.err k) h4
    | panic => exact .fail .panic h4
    | capacity => exact .fail .capacity h4
    | diverge => exact .fail .diverge h4

/-- C74: encoders put together from tidy encoders are tidy. -/
theorem C74_assembled {B : BufEncoder σ α} {E : Encoder σ α}
    (h : SameProgram (fun _ _ B E => Tidy B ∧ E = outline B) B E) : Tidy B :=
  C74_tidy (C74_in_place (fun _ _ B E (h : Tidy B ∧ E = outline B) => h.2 ▸ C74_own h.1) h)

/-- C74: `encode_all` uses one buffer for all rounds; it does the same as with a fresh one for each, whatever the
buffer held at the beginning. -/
theorem C74_encode_all {B : BufEncoder σ α} {E : Encoder σ α} (h : InPlace B E) (W : Writer ω) (s : σ) (w : ω)
    {buf : Bytes} (hl : buf.length = 1024) : encodeAllBuf B W s w buf = encodeAll E W s w :=
  encodeAllBuf_eq h W s w hl

/-- C74: `encode_into_bytes` returns the buffer as a whole. -/
theorem C74_into_bytes {B : BufEncoder σ α} {E : Encoder σ α} (h : InPlace B E) (s : σ) (x : α) :
    encodeIntoBytesBuf B s x = encodeIntoBytes E s x :=
  encodeIntoBytesBuf_eq h s x

/-- C74: `encode_to_write_buf` lets the encoder write into the buffer directly. It does what it does in the other
model; if it fails, the bytes that wait to be flushed are still there and nothing is added to them. -/
theorem C74_write_buf {B : BufEncoder σ α} {E : Encoder σ α} (h : InPlace B E) (s : σ) (b : WriteBuf) :
    (encodeToWriteBufBuf B s b).1 = (encodeToWriteBuf E s b).1 ∧
    (encodeToWriteBufBuf B s b).2.1 = (encodeToWriteBuf E s b).2.1 ∧
    ((encodeToWriteBuf E s b).1 = .ok () → (encodeToWriteBufBuf B s b).2.2 = (encodeToWriteBuf E s b).2.2) ∧
    ((encodeToWriteBuf E s b).1 ≠ .ok () →
      (encodeToWriteBuf E s b).2.2 = b ∧
      (encodeToWriteBufBuf B s b).2.2.inner.take b.tail = b.inner.take b.tail ∧
      (encodeToWriteBufBuf B s b).2.2.inner.length = b.inner.length ∧
      { (encodeToWriteBufBuf B s b).2.2 with inner := b.inner } = b) :=
  encodeToWriteBufBuf_eq h s b

/-! ## A concrete case: a number, then a length-limited text, then a list of bytes -/

/-- A message of three parts. -/
def exampleMessage := tupleBufEncoder3 (fixBufEncoder fun n : UInt8 => .ok [n])
  (lengthBufEncoder utf8BufEncoder) (repeatBufEncoder (maxBytesBufEncoder (bytesBufEncoder (id : Bytes → Bytes))))

/-- The same in the other model. -/
def exampleMessage' := tupleEncoder3 (fixEncoder fun n : UInt8 => .ok [n]).toEncoder
  (lengthEncoder utf8Encoder.toEncoder).toEncoder
  (repeatEncoder (maxBytesEncoder (bytesEncoder (id : Bytes → Bytes)).toEncoder))

theorem exampleMessage_same : SameProgram (fun _ _ _ _ => False) exampleMessage exampleMessage' :=
  .tuple3 (.number _) (.length .utf8) (.repeated (.maxBytes (.bytes _)))

example : Tidy exampleMessage := C74_tidy (C74_in_place (fun _ _ _ _ h => h.elim) exampleMessage_same)

theorem exampleMessage_inPlace : InPlace exampleMessage exampleMessage' :=
  C74_in_place (fun _ _ _ _ h => False.elim h) exampleMessage_same

example (W : Writer ω) (s) (w : ω) : encodeAllBuf exampleMessage W s w (List.replicate 1024 255) =
    encodeAll exampleMessage' W s w :=
  C74_encode_all exampleMessage_inPlace W s w List.length_replicate

example (s) : encodeIntoBytesBuf exampleMessage s (7, "text", [[1], [2, 3]]) =
    encodeIntoBytes exampleMessage' s (7, "text", [[1], [2, 3]]) :=
  C74_into_bytes exampleMessage_inPlace s _

/-- The number does not fit: the call fails, but the two bytes that wait are still there. -/
example : (encodeToWriteBufBuf (bytesBufEncoder (id : Bytes → Bytes)) ⟨some [7, 8], 0⟩
      ⟨[1, 2, 0], 0, 2, .eos, none, []⟩).1 = .err .unexpectedEos ∧
    (encodeToWriteBufBuf (bytesBufEncoder (id : Bytes → Bytes)) ⟨some [7, 8], 0⟩
      ⟨[1, 2, 0], 0, 2, .eos, none, []⟩).2.2.inner = [1, 2, 7] ∧
    (encodeToWriteBufBuf (bytesBufEncoder (id : Bytes → Bytes)) ⟨some [7, 8], 0⟩
      ⟨[1, 2, 0], 0, 2, .eos, none, []⟩).2.2.tail = 2 := by
  decide

/-- Seven bytes of room, two of them are used; the other five keep their contents. -/
example : ((tupleBufEncoder2 (fixBufEncoder fun n : UInt8 => .ok [n]) (bytesBufEncoder (id : Bytes → Bytes))).encode
    (⟨some [7], 0⟩, ⟨some [8], 0⟩) [9, 9, 9, 9, 9, 9, 9] (Eos.new false)).1 = .ok 2 ∧
    ((tupleBufEncoder2 (fixBufEncoder fun n : UInt8 => .ok [n]) (bytesBufEncoder (id : Bytes → Bytes))).encode
    (⟨some [7], 0⟩, ⟨some [8], 0⟩) [9, 9, 9, 9, 9, 9, 9] (Eos.new false)).2.2 = [7, 8, 9, 9, 9, 9, 9] := by
  decide

/-- An encoder that clears the rest of the buffer is not tidy. -/
example : ¬ Tidy (⟨fun s buf _ => (.ok 0, s, buf.map fun _ => 0), fun s _ => (.ok (), s),
    fun _ => .finite 0, fun _ => true⟩ : BufEncoder Unit Unit) := by
  intro h
  have := (h.rest () [1] (Eos.new false) 0 rfl).2
  cases this

end Bytecodec.Props
