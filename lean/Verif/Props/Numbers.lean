import Verif.Lemmas.Frames
import Verif.Lemmas.Buf
/-!
# C11, C12, C13: fixed-width numbers

`NumberCodec` (Spec/Numbers) is the table of all number codecs of the crate with their widths, byte
orders and meanings; every theorem is about all of them.
-/
namespace Bytecodec.Props

open Bytecodec Bytecodec.Spec

variable {α : Type}

/-! ## C11 -/

/-- C11: numbers written with output buffers of any sizes, also with the end of the stream announced at
any time, and read back from any pieces of the bytes, followed by anything, arrive unchanged and in
order; every number takes as many bytes as its type. -/
theorem C11_round_trip {E : SizedEncoder (BytesEncoderState Bytes) α} {D : Decoder CopyableState α}
    {k : Nat} {be : Bool} {val : α → Nat} (h : NumberCodec E D k be val) :
    RoundTrips true true true E.toEncoder .new D (fixInit k) (fun _ => True) (fun _ => k) := by
  refine matched_roundTrips (matched_number h true) _ fun x b _ hb => ?_
  split at hb
  · cases hb; rw [length_layout]
  · cases hb

/-- Two numbers were sent with buffers of one and five bytes. -/
example : ∃ s, Sends true i16leEncoder.toEncoder .new s [-2, 515] [254, 255, 3, 2] ∧
    i16leEncoder.isIdle s = true :=
  ⟨_, .encode (cap := 5) (e := Eos.new true) (bs := [3, 2]) (out := [254, 255])
    (.start (x := 515) (.encode (cap := 5) (e := Eos.new true) (bs := [255]) (out := [254])
      (.encode (cap := 1) (e := Eos.new false) (bs := [254])
        (.start (x := -2) .new rfl rfl) (.inl rfl) rfl) (.inl rfl) rfl) rfl rfl) (.inl rfl) rfl, rfl⟩

/-! ## C12 -/

/-- C12 (writing): under every buffer schedule the encoder emits the base-256 digits of the number
(two's complement for negative ones) in the byte order of its name; `Emits` says that it is told the
exact size too. -/
theorem C12_layout {E : SizedEncoder (BytesEncoderState Bytes) α} {D : Decoder CopyableState α}
    {k : Nat} {be : Bool} {val : α → Nat} (h : NumberCodec E D k be val) :
    EmitsSized true E .new (fun _ => True)
      (fun x => if val x < 256 ^ k then .ok (layout be k (val x)) else .error .invalidInput) := by
  obtain ⟨⟨f, g, rfl, rfl, h1, h2⟩, h3⟩ := isNumber h
  rw [show (fun x => if val x < 256 ^ k then Except.ok (layout be k (val x))
      else Except.error ErrorKind.invalidInput) = f from funext fun x => (h1 x).symm]
  exact fresh_emitsSized ⟨codes_number f true, rfl, rfl⟩ (exact_number f)

/-- C12 (the digits): byte `i` of the little-endian form is `n / 256 ^ i mod 256`, and the big-endian
form is its reverse. -/
theorem C12_digits (k n i : Nat) (hi : i < k) :
    ((layout false k n)[i]?).map UInt8.toNat = some (n / 256 ^ i % 256) ∧
      layout true k n = (layout false k n).reverse := by
  constructor
  · simp [layout, digits, hi]
  · simp [layout]

/-- C12 (reading): any bytes, cut in any way, are read as the numbers stored in them, one after the
other. -/
theorem C12_reading {E : SizedEncoder (BytesEncoderState Bytes) α} {D : Decoder CopyableState α}
    {k : Nat} {be : Bool} {val : α → Nat} (h : NumberCodec E D k be val) (frames : List Bytes)
    (hk : ∀ b ∈ frames, b.length = k) (tail : Bytes) (e : Eos) (he : EosSane e (frames.flatten ++ tail).length) :
    ∃ xs, xs.map val = frames.map (stored be) ∧
      Receives D (fixInit k) (frames.flatten ++ tail) e xs (fun _ => k) := by
  obtain ⟨⟨f, g, rfl, rfl, h1, h2⟩, h3⟩ := isNumber h
  refine ⟨frames.map g, ?_, receives_number g hk tail he⟩
  rw [List.map_map]
  exact List.map_congr_left fun b hb => h2 b (hk b hb)

/-- 515 in the four layouts of 2 and 3 bytes, and -2 as a signed 16-bit number. -/
example : layout true 2 515 = [2, 3] ∧ layout false 2 515 = [3, 2] ∧ layout true 3 515 = [0, 2, 3] ∧
    ((-2 : Int16).toInt % 2 ^ 16).toNat = 65534 ∧ stored false [254, 255] = 65534 := by decide +kernel

/-! ## C13 -/

/-- C13 (the table): the bounds of the odd widths, and that the other codecs accept every value. -/
theorem C13_bounds {E : SizedEncoder (BytesEncoderState Bytes) α} {D : Decoder CopyableState α}
    {k : Nat} {be : Bool} {val : α → Nat} (h : NumberCodec E D k be val) :
    (k = 3 → 256 ^ k = 2 ^ 24) ∧ (k = 5 → 256 ^ k = 2 ^ 40) ∧ (k = 6 → 256 ^ k = 2 ^ 48) ∧
      (k = 7 → 256 ^ k = 2 ^ 56) ∧ (k ∈ [1, 2, 4, 8] → ∀ x, val x < 256 ^ k) := by
  refine ⟨by rintro rfl; decide, by rintro rfl; decide, by rintro rfl; decide, by rintro rfl; decide, ?_⟩
  cases h with
  | u24be | u24le | u40be | u40le | u48be | u48le | u56be | u56le => simp
  | i8 | i16be | i16le | i32be | i32le | i64be | i64le => intro _ x; simp only; omega
  | u8 | u16be | u16le | u32be | u32le | u64be | u64le | f32be | f32le | f64be | f64le =>
    intro _ x
    have := x.toNat_lt
    simp only
    omega

/-- C13 (accepted): an idle encoder accepts every value below the bound. -/
theorem C13_accepted {E : SizedEncoder (BytesEncoderState Bytes) α} {D : Decoder CopyableState α}
    {k : Nat} {be : Bool} {val : α → Nat} (h : NumberCodec E D k be val) (s : BytesEncoderState Bytes) (x : α)
    (hi : E.isIdle s = true) (hx : val x < 256 ^ k) : (E.start s x).1 = .ok () := by
  obtain ⟨⟨f, g, rfl, rfl, h1, h2⟩, h3⟩ := isNumber h
  simp only [fixEncoder, h1, if_pos hx]
  have hi' : s.bytes.isNone = true := hi
  simp only [bytesEncoder, if_pos hi']

/-- C13 (rejected): every other value is rejected in every state, and the encoder is unchanged. -/
theorem C13_rejected {E : SizedEncoder (BytesEncoderState Bytes) α} {D : Decoder CopyableState α}
    {k : Nat} {be : Bool} {val : α → Nat} (h : NumberCodec E D k be val) (s : BytesEncoderState Bytes) (x : α)
    (hx : 256 ^ k ≤ val x) : E.start s x = (.err .invalidInput, s) := by
  obtain ⟨⟨f, g, rfl, rfl, h1, h2⟩, h3⟩ := isNumber h
  simp only [fixEncoder, h1, if_neg (show ¬ val x < 256 ^ k by omega)]

/-- C13 (decoded): whatever the calls before, a decoded value is below the bound. -/
theorem C13_decoded {E : SizedEncoder (BytesEncoderState Bytes) α} {D : Decoder CopyableState α}
    {k : Nat} {be : Bool} {val : α → Nat} (h : NumberCodec E D k be val) {s : CopyableState} {x : α}
    (hs : Reach D (fixInit k) s) (hx : (D.finish s).1 = .ok x) : val x < 256 ^ k := by
  obtain ⟨⟨f, g, rfl, rfl, h1, h2⟩, h3⟩ := isNumber h
  have hinv : s.bytes.length = k ∧ s.offset ≤ s.bytes.length := by
    refine Spec.Reach.inv (D := fixDecoder g) (Inv := fun s => s.bytes.length = k ∧ s.offset ≤ s.bytes.length)
      ⟨by simp [fixInit], by simp [fixInit]⟩ ?_ ?_ hs
    · rintro ⟨B, off⟩ b e ⟨i1, i2⟩ _
      simp only at i1 i2
      have hl : (splice B off (b.take (min b.length (B.length - off)))).length = B.length :=
        splice_len (by rw [List.length_take]; omega)
      simp only [fixDecoder, copyableBytesDecoder]
      rw [if_neg (by omega)]
      split <;> simp only [hl] <;> omega
    · rintro ⟨B, off⟩ ⟨i1, i2⟩
      simp only [fixDecoder, copyableBytesDecoder]
      split <;> simp_all [Res.step]
  have hv : x = g s.bytes := by
    simp only [fixDecoder, copyableBytesDecoder] at hx
    split at hx
    · simpa [Res.step, eq_comm] using hx
    · simp [Res.step] at hx
  rw [hv, h2 _ hinv.1]
  have := stored_lt be s.bytes
  rwa [hinv.1] at this

example : (u24beEncoder.start .new (2 ^ 24 - 1)).1 = .ok () ∧
    (u24beEncoder.start .new (2 ^ 24)).1 = .err .invalidInput := by decide +kernel

example : 256 ^ 3 ≤ UInt32.toNat (2 ^ 24) := by decide +kernel

end Bytecodec.Props
