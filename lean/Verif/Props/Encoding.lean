import Verif.Lemmas.OneShot
import Verif.Lemmas.SafeEnc
import Verif.Lemmas.TupleNested
import Verif.Lemmas.Eager
import Verif.Lemmas.RepeatAny
import Verif.Spec.Io
/-!
# Properties of encoders (C14, C20, C26, C28, C33, C34, C35, C43, C46, C53, C54)

`Emits strict E s₀ dom enc` (`Spec/Encode.lean`) is the contract of an encoder under every buffer
schedule. The theorems about combinators take encoders that satisfy the contract, be they from the
library or written by the user, and show that the combination satisfies it.
-/
namespace Bytecodec.Props

open Spec

variable {σ α β ω : Type}

/-! ## C54: the contract holds for the encoders of the library -/

/-- C54: every encoder assembled from the library (but `Length`, `Slice`, `Last` and `PaddingEncoder`)
keeps the contract; in particular each call fills the buffer unless everything is emitted. -/
theorem C54_contract {strict : Bool} {E : Encoder σ α} {s₀ : σ} {dom enc}
    (h : Writes strict E s₀ dom enc) : Emits strict E s₀ dom enc := by
  obtain ⟨P, hf⟩ := writes_fresh h
  exact fresh_emits hf

/-! ## C14: `BytesEncoder` -/

/-- C14: `BytesEncoder` emits exactly its items under every buffer schedule, fills each buffer as far
as bytes remain, always knows its exact size, and reports `UnexpectedEos` when the stream ends early. -/
theorem C14_schedule (asRef : β → Bytes) :
    EmitsSized true (bytesEncoder asRef) .new (fun _ => True) (fun x => .ok (asRef x)) :=
  fresh_emitsSized ⟨codes_bytes asRef true, rfl, rfl⟩ (exact_bytes asRef)

/-- C14: a second item while busy is rejected and changes nothing, in every state. -/
theorem C14_busy (asRef : β → Bytes) (s : BytesEncoderState β) (x : β)
    (h : (bytesEncoder asRef).isIdle s = false) : (bytesEncoder asRef).start s x = (.err .encoderFull, s) := by
  simp only [bytesEncoder] at h ⊢
  simp [h]

/-- Three bytes through a two-byte buffer. -/
example : EncRun (bytesEncoder (id : Bytes → Bytes)).toEncoder (fun _ => True) (fun x => .ok x) .new
    ⟨some [1, 2, 3], 2⟩ [1, 2, 3] [1, 2] :=
  .encode (cap := 2) (e := Eos.new false) (.start (x := [1, 2, 3]) .new rfl trivial rfl rfl) (by decide) rfl

example : (bytesEncoder (id : Bytes → Bytes)).isIdle ⟨some [1, 2, 3], 2⟩ = false := rfl

/-! ## C20: tuples -/

/-- C20: the output of a tuple encoder under any buffer schedule is the concatenation of the component
encodings. -/
theorem C20_concatenation {strict : Bool} {σ0 α0 σ1 α1 : Type} {E0 : Encoder σ0 α0} {E1 : Encoder σ1 α1}
    {s0 : σ0} {s1 : σ1} {dom0 enc0 dom1 enc1} (h0 : Emits strict E0 s0 dom0 enc0)
    (h1 : Emits strict E1 s1 dom1 enc1) :
    Emits strict (tupleEncoder2 E0 E1) (s0, s1) (fun x => dom0 x.1 ∧ dom1 x.2)
      (fun x => (enc0 x.1).bind fun b0 => (enc1 x.2).bind fun b1 => .ok (b0 ++ b1)) := by
  obtain ⟨a1, a2, a3⟩ := emits_fresh h0
  obtain ⟨b1, b2, b3⟩ := emits_fresh h1
  exact fresh_emits ⟨codes_pair a1 b1, ⟨[], [], a2, b2, rfl⟩, by simp [tupleEncoder2, a3, b3]⟩

/-- C20: and its size is the sum of the sizes. -/
theorem C20_sized {strict : Bool} {σ0 α0 σ1 α1 : Type} {E0 : SizedEncoder σ0 α0} {E1 : SizedEncoder σ1 α1}
    {s0 : σ0} {s1 : σ1} {dom0 enc0 dom1 enc1} (h0 : EmitsSized strict E0 s0 dom0 enc0)
    (h1 : EmitsSized strict E1 s1 dom1 enc1) :
    EmitsSized strict (sizedTupleEncoder2 E0 E1) (s0, s1) (fun x => dom0 x.1 ∧ dom1 x.2)
      (fun x => (enc0 x.1).bind fun b0 => (enc1 x.2).bind fun b1 => .ok (b0 ++ b1)) := by
  obtain ⟨a1, a2, a3⟩ := emits_fresh h0.toEmits
  obtain ⟨b1, b2, b3⟩ := emits_fresh h1.toEmits
  refine fresh_emitsSized ⟨codes_pair a1 b1, ⟨[], [], a2, b2, rfl⟩, ?_⟩
    (exact_pair (emitsSized_exact h0) (emitsSized_exact h1))
  simp [sizedTupleEncoder2, tupleEncoder2, a3, b3]

/-- C20: tuples of arity 3 to 8 are nested pairs. -/
theorem C20_nested {σ0 α0 σ1 α1 σ2 α2 σ3 α3 σ4 α4 σ5 α5 σ6 α6 σ7 α7 : Type}
    (E0 : Encoder σ0 α0) (E1 : Encoder σ1 α1) (E2 : Encoder σ2 α2) (E3 : Encoder σ3 α3)
    (E4 : Encoder σ4 α4) (E5 : Encoder σ5 α5) (E6 : Encoder σ6 α6) (E7 : Encoder σ7 α7) :
    tupleEncoder3 E0 E1 E2 =
      tupleEncoder2 E0 (tupleEncoder2 E1 E2) ∧
    tupleEncoder4 E0 E1 E2 E3 =
      tupleEncoder2 E0 (tupleEncoder2 E1 (tupleEncoder2 E2 E3)) ∧
    tupleEncoder5 E0 E1 E2 E3 E4 =
      tupleEncoder2 E0 (tupleEncoder2 E1 (tupleEncoder2 E2 (tupleEncoder2 E3 E4))) ∧
    tupleEncoder6 E0 E1 E2 E3 E4 E5 =
      tupleEncoder2 E0 (tupleEncoder2 E1 (tupleEncoder2 E2 (tupleEncoder2 E3 (tupleEncoder2 E4 E5)))) ∧
    tupleEncoder7 E0 E1 E2 E3 E4 E5 E6 =
      tupleEncoder2 E0 (tupleEncoder2 E1 (tupleEncoder2 E2 (tupleEncoder2 E3 (tupleEncoder2 E4 (tupleEncoder2 E5 E6))))) ∧
    tupleEncoder8 E0 E1 E2 E3 E4 E5 E6 E7 =
      tupleEncoder2 E0 (tupleEncoder2 E1 (tupleEncoder2 E2 (tupleEncoder2 E3 (tupleEncoder2 E4 (tupleEncoder2 E5 (tupleEncoder2 E6 E7)))))) :=
  ⟨tupleEncoder3_nested _ _ _, tupleEncoder4_nested _ _ _ _, tupleEncoder5_nested _ _ _ _ _,
    tupleEncoder6_nested _ _ _ _ _ _, tupleEncoder7_nested _ _ _ _ _ _ _,
    tupleEncoder8_nested _ _ _ _ _ _ _ _⟩

/-- C20: tuples of arity 3 to 8 are nested pairs also as encoders of known size: `exact_requiring_bytes` of each is the sum
over all its components. -/
theorem C20_sized_nested {σ0 α0 σ1 α1 σ2 α2 σ3 α3 σ4 α4 σ5 α5 σ6 α6 σ7 α7 : Type}
    (E0 : SizedEncoder σ0 α0) (E1 : SizedEncoder σ1 α1) (E2 : SizedEncoder σ2 α2) (E3 : SizedEncoder σ3 α3)
    (E4 : SizedEncoder σ4 α4) (E5 : SizedEncoder σ5 α5) (E6 : SizedEncoder σ6 α6) (E7 : SizedEncoder σ7 α7) :
    sizedTupleEncoder3 E0 E1 E2 =
      sizedTupleEncoder2 E0 (sizedTupleEncoder2 E1 E2) ∧
    sizedTupleEncoder4 E0 E1 E2 E3 =
      sizedTupleEncoder2 E0 (sizedTupleEncoder2 E1 (sizedTupleEncoder2 E2 E3)) ∧
    sizedTupleEncoder5 E0 E1 E2 E3 E4 =
      sizedTupleEncoder2 E0 (sizedTupleEncoder2 E1 (sizedTupleEncoder2 E2 (sizedTupleEncoder2 E3 E4))) ∧
    sizedTupleEncoder6 E0 E1 E2 E3 E4 E5 =
      sizedTupleEncoder2 E0 (sizedTupleEncoder2 E1 (sizedTupleEncoder2 E2 (sizedTupleEncoder2 E3 (sizedTupleEncoder2 E4 E5)))) ∧
    sizedTupleEncoder7 E0 E1 E2 E3 E4 E5 E6 =
      sizedTupleEncoder2 E0 (sizedTupleEncoder2 E1 (sizedTupleEncoder2 E2 (sizedTupleEncoder2 E3 (sizedTupleEncoder2 E4 (sizedTupleEncoder2 E5 E6))))) ∧
    sizedTupleEncoder8 E0 E1 E2 E3 E4 E5 E6 E7 =
      sizedTupleEncoder2 E0 (sizedTupleEncoder2 E1 (sizedTupleEncoder2 E2 (sizedTupleEncoder2 E3 (sizedTupleEncoder2 E4 (sizedTupleEncoder2 E5 (sizedTupleEncoder2 E6 E7)))))) :=
  ⟨sizedTupleEncoder3_nested _ _ _, sizedTupleEncoder4_nested _ _ _ _, sizedTupleEncoder5_nested _ _ _ _ _,
    sizedTupleEncoder6_nested _ _ _ _ _ _, sizedTupleEncoder7_nested _ _ _ _ _ _ _,
    sizedTupleEncoder8_nested _ _ _ _ _ _ _ _⟩

example : (sizedTupleEncoder3 u16beEncoder utf8Encoder (bytesEncoder id)).exact
    ((sizedTupleEncoder3 u16beEncoder utf8Encoder (bytesEncoder id)).start (.new, .new, .new) (1, "hé", [7, 8])).2 =
      7 := by
  decide +kernel

/-- C20, rejection: when the first component rejects, the others are untouched; so when the first
component rejects without changing, the tuple is unchanged. -/
theorem C20_rejected_partial {σ0 α0 σ1 α1 : Type} (E0 : Encoder σ0 α0) (E1 : Encoder σ1 α1)
    (s0 : σ0) (s1 : σ1) (x0 : α0) (x1 : α1) (k : ErrorKind) (h : E0.start s0 x0 = (.err k, s0)) :
    (tupleEncoder2 E0 E1).start (s0, s1) (x0, x1) = (.err k, (s0, s1)) := by
  simp [tupleEncoder2, h, Res.step]

example : u24beEncoder.start .new 0x1000000 = (.err .invalidInput, .new) := by
  simp [u24beEncoder, fixEncoder]

/-- C20, rejection (the code deviates): when the second component rejects, the first one keeps its part
of the rejected tuple: the encoder is not idle, and would emit an orphan byte. -/
theorem C20_rejected_fails :
    let E := tupleEncoder2 u8Encoder.toEncoder u24beEncoder.toEncoder
    let q := E.start (.new, .new) (7, 0x1000000)
    E.isIdle (.new, .new) = true ∧ q.1 = .err .invalidInput ∧ E.isIdle q.2 = false ∧
    (E.encode q.2 10 (Eos.new false)).1 = .ok [7] := by
  decide +kernel

/-- C20, rejection (the code deviates): a tuple handed over while the encoder is busy is rejected with
`EncoderFull`, but if the first component has already been emitted, it takes its part of the new
tuple, and the output of the *accepted* tuple `(1, 2)` becomes `[1, 3, 2]`. -/
theorem C20_busy_fails :
    let E := tupleEncoder2 u8Encoder.toEncoder u8Encoder.toEncoder
    let s1 := (E.start (.new, .new) (1, 2)).2
    let q2 := E.encode s1 1 (Eos.new false)
    let q3 := E.start q2.2 (3, 4)
    (E.start (.new, .new) (1, 2)).1 = .ok () ∧ q2.1 = .ok [1] ∧ q3.1 = .err .encoderFull ∧
    (E.encode q3.2 10 (Eos.new false)).1 = .ok [3, 2] := by
  decide +kernel

/-- A tuple of a number and a string. -/
example : Emits true (tupleEncoder2 u16beEncoder.toEncoder utf8Encoder.toEncoder) (.new, .new)
    (fun _ => True ∧ True) (fun x => (Except.ok (writeBE 2 x.1.toNat)).bind fun b0 =>
      (Except.ok (utf8Bytes x.2)).bind fun b1 => .ok (b0 ++ b1)) :=
  C20_concatenation (C54_contract (.number _ true)) (C54_contract (.utf8 true))

/-! ## C26: `Length` as an encoder -/

/-- C26: an item whose encoding has exactly the declared length is accepted and emitted unchanged under
every buffer schedule; the encoder is idle exactly when everything is emitted, and always knows the
number of bytes left. -/
theorem C26_exact {strict : Bool} {E : Encoder σ α} {s₀ : σ} {dom enc} (h : Emits strict E s₀ dom enc)
    {s : σ} {acc : Bytes} (hr : EncRun E dom enc s₀ s acc acc) (hi : E.isIdle s = true)
    {x : α} {b : Bytes} (hd : dom x) (hx : enc x = .ok b) :
    ∃ s1, (lengthEncoder E).start (.new s b.length) x = (.ok (), s1) ∧
    ∀ {t out}, Drain (lengthEncoder E).toEncoder b.length s1 t out →
      out <+: b ∧ ((lengthEncoder E).isIdle t = true ↔ out = b) ∧
      (lengthEncoder E).exact t = b.length - out.length ∧
      (lengthEncoder E).requiring t = .finite (b.length - out.length) ∧
      (∀ cap e, (e.isReached = true → b.length - out.length ≤ cap) →
        ((lengthEncoder E).encode t cap e).1 = .ok ((b.drop out.length).take cap)) ∧
      (∀ cap e, e.isReached = true → cap < b.length - out.length →
        ((lengthEncoder E).encode t cap e).1 = .err .unexpectedEos) := by
  obtain ⟨hc, _, _⟩ := emits_fresh h
  obtain ⟨i, h1, h2⟩ := hc.startOk ⟨acc, by simpa using hr⟩ hi hd hx
  refine ⟨⟨i, b.length, b.length⟩, by simp [lengthEncoder, LengthState.new, h1, Res.step], ?_⟩
  intro t out hdr
  obtain ⟨rest, hb, q1, q2, q3⟩ := length_drain_exact hc h2 hdr
  obtain ⟨ti, tx, tr⟩ := t
  simp only at q1 q2 q3
  subst q2
  have hbl : b.length = out.length + rest.length := by rw [hb, List.length_append]
  refine ⟨hb ▸ List.prefix_append _ _, ?_, ?_, ?_, ?_, ?_⟩
  · have : rest.length = 0 ↔ out = b := by
      rw [hb, List.length_eq_zero_iff]
      simp
    simpa only [lengthEncoder, beq_iff_eq] using this
  · simp only [lengthEncoder]; omega
  · simp only [lengthEncoder]; congr; omega
  · intro cap e he
    obtain ⟨i', p1, _⟩ := length_encode_exact (x := tx) hc (cap := cap) (e := e) q1
      (by intro hr'; have := he hr'; omega)
    rw [p1, hb, List.drop_left]
  · intro cap e he hcap
    simp only [lengthEncoder]
    rw [if_pos ⟨by omega, he⟩]

/-- C26: an item that is longer than declared never gets out: every schedule emits fewer bytes than
declared (none if none are declared), and the call that offers room for the rest of the declared length
fails with `UnexpectedEos`. -/
theorem C26_longer {E : Encoder σ α} {s₀ : σ} {dom enc} (h : Emits true E s₀ dom enc)
    {s : σ} {acc : Bytes} (hr : EncRun E dom enc s₀ s acc acc) (hi : E.isIdle s = true)
    {x : α} {b : Bytes} {n : Nat} (hd : dom x) (hx : enc x = .ok b) (hn : n < b.length) :
    ∃ s1, (lengthEncoder E).start (.new s n) x = (.ok (), s1) ∧
    ∀ {t out}, Drain (lengthEncoder E).toEncoder n s1 t out →
      out <+: b ∧ (out = [] ∨ out.length < n) ∧
      (∀ cap e, n - out.length ≤ cap → ((lengthEncoder E).encode t cap e).1 = .err .unexpectedEos) ∧
      (∀ cap e, e.isReached = true → ((lengthEncoder E).encode t cap e).1 = .err .unexpectedEos) := by
  obtain ⟨hc, _, _⟩ := emits_fresh h
  obtain ⟨i, h1, h2⟩ := hc.startOk ⟨acc, by simpa using hr⟩ hi hd hx
  refine ⟨⟨i, n, n⟩, by simp [lengthEncoder, LengthState.new, h1, Res.step], ?_⟩
  intro t out hdr
  obtain ⟨rest, hb, q1, q2, q3, q4⟩ := length_drain_long hc h2 hn hdr
  obtain ⟨ti, tx, tr⟩ := t
  simp only at q1 q2 q3 q4
  have hbl : b.length = out.length + rest.length := by rw [hb, List.length_append]
  refine ⟨hb ▸ List.prefix_append _ _, ?_, ?_, ?_⟩
  · rcases q4 with q4 | q4
    · exact .inl q4
    · right; omega
  · intro cap e hcap
    exact (length_encode_long (x := tx) hc (cap := cap) (e := e) q1 (by omega)).2 rfl (by omega)
  · intro cap e he
    by_cases hcap : cap < tr
    · simp only [lengthEncoder]
      rw [if_pos ⟨hcap, he⟩]
    · exact (length_encode_long (x := tx) hc (cap := cap) (e := e) q1 (by omega)).2 rfl (by omega)

/-- C26: an item that is shorter than declared: the call that emits its last byte fails with
`InvalidInput`. -/
theorem C26_shorter {strict : Bool} {E : Encoder σ α} {s₀ : σ} {dom enc} (h : Emits strict E s₀ dom enc)
    {s : σ} {acc : Bytes} (hr : EncRun E dom enc s₀ s acc acc) (hi : E.isIdle s = true)
    {x : α} {b : Bytes} {n : Nat} (hd : dom x) (hx : enc x = .ok b) (hn : b.length < n) :
    ∃ s1, (lengthEncoder E).start (.new s n) x = (.ok (), s1) ∧
    ∀ {t out}, Drain (lengthEncoder E).toEncoder n s1 t out →
      out <+: b ∧ (out = [] ∨ out.length < b.length) ∧
      ∀ cap e, b.length - out.length ≤ cap → (e.isReached = true → n - out.length ≤ cap) →
        ((lengthEncoder E).encode t cap e).1 = .err .invalidInput := by
  obtain ⟨hc, _, _⟩ := emits_fresh h
  obtain ⟨i, h1, h2⟩ := hc.startOk ⟨acc, by simpa using hr⟩ hi hd hx
  refine ⟨⟨i, n, n⟩, by simp [lengthEncoder, LengthState.new, h1, Res.step], ?_⟩
  intro t out hdr
  obtain ⟨rest, hb, q1, q2, q3, q4⟩ := length_drain_short hc h2 hn hdr
  obtain ⟨ti, tx, tr⟩ := t
  simp only at q1 q2 q3 q4
  have hbl : b.length = out.length + rest.length := by rw [hb, List.length_append]
  refine ⟨hb ▸ List.prefix_append _ _, ?_, ?_⟩
  · rcases q4 with q4 | q4
    · exact .inl q4
    · right
      have := List.length_pos_iff.2 q4
      omega
  · intro cap e hcap he
    exact (length_encode_short (x := tx) hc (cap := cap) (e := e) q1 (by omega)
      (by intro hr'; have := he hr'; omega)).2 (by omega)

/-- C26, reuse (the code deviates): after it has emitted its item, a `Length` encoder of positive length
never accepts another one, nor another length. -/
theorem C26_reuse_fails (E : Encoder σ α) (s : LengthState σ) (hn : 0 < s.expected)
    (hi : (lengthEncoder E).isIdle s = true) (x : α) (m : Nat) :
    (lengthEncoder E).start s x = (.err .encoderFull, s) ∧
    s.setExpectedBytes m = (.err .incompleteDecoding, s) := by
  simp only [lengthEncoder, beq_iff_eq] at hi
  constructor
  · simp only [lengthEncoder]
    rw [if_neg (by omega)]
  · simp only [LengthState.setExpectedBytes]
    rw [if_neg (by omega)]

/-- Such a state is reached: one byte declared, one byte emitted. -/
example :
    let E := lengthEncoder u8Encoder.toEncoder
    let s := (E.encode (E.start (.new .new 1) 5).2 10 (Eos.new false)).2
    E.isIdle s = true ∧ s.expected = 1 ∧ (E.start s 6).1 = .err .encoderFull := by
  decide +kernel

/-- C26, no item (the code deviates): a `Length` encoder of positive length without an item is not idle,
asks for the whole length, and fails with `InvalidInput` when it is run. -/
theorem C26_empty_fails :
    let E := lengthEncoder u8Encoder.toEncoder
    E.isIdle (.new .new 1) = false ∧ E.requiring (.new .new 1) = .finite 1 ∧
    (E.encode (.new .new 1) 10 (Eos.new false)).1 = .err .invalidInput := by
  decide +kernel

/-- The hypotheses of the three theorems: two bytes, declared as two, one and three bytes. -/
example : Emits true u16beEncoder.toEncoder .new (fun _ => True) (fun n => .ok (writeBE 2 n.toNat)) ∧
    EncRun u16beEncoder.toEncoder (fun _ => True) (fun n => .ok (writeBE 2 n.toNat)) .new .new [] [] ∧
    u16beEncoder.isIdle .new = true ∧ (writeBE 2 (258 : UInt16).toNat).length = 2 :=
  ⟨C54_contract (.number _ true), .new, rfl, by decide⟩

/-! ## C28: `MaxBytes` as an encoder -/

/-- C28: items of at most `m` bytes pass unchanged under every schedule, one after the other (the
counter starts again with each item). -/
theorem C28_fits_partial {strict : Bool} {E : Encoder σ α} {s₀ : σ} {dom enc} (m : Nat)
    (h : Emits strict E s₀ dom enc) :
    Emits strict (maxBytesEncoder E) (.new s₀ m) (fun x => dom x ∧ (bytesOf (enc x)).length ≤ m) enc := by
  obtain ⟨a1, a2, a3⟩ := emits_fresh h
  exact fresh_emits ⟨codes_maxBytes m a1, ⟨a2, rfl, Nat.zero_le _, fun _ => rfl⟩, a3⟩

/-- C28: an item of more than `m` bytes: no schedule emits more than `m` bytes of it, and the call that
reaches byte `m + 1` fails with `InvalidInput`. -/
theorem C28_longer {strict : Bool} {E : Encoder σ α} {s₀ : σ} {dom enc} (h : Emits strict E s₀ dom enc)
    {s : σ} {acc : Bytes} (hr : EncRun E dom enc s₀ s acc acc) (hi : E.isIdle s = true)
    {x : α} {b : Bytes} {m : Nat} (hd : dom x) (hx : enc x = .ok b) (hm : m < b.length) :
    ∃ s1, (maxBytesEncoder E).start (.new s m) x = (.ok (), s1) ∧
    ∀ {t out}, Drain (maxBytesEncoder E) b.length s1 t out →
      out <+: b ∧ out.length ≤ m ∧ (maxBytesEncoder E).isIdle t = false ∧
      ∀ cap e, (e.isReached = true → b.length - out.length ≤ cap) → m < out.length + cap →
        ((maxBytesEncoder E).encode t cap e).1 = .err .invalidInput := by
  obtain ⟨hc, _, _⟩ := emits_fresh h
  obtain ⟨i, h1, h2⟩ := hc.startOk ⟨acc, by simpa using hr⟩ hi hd hx
  refine ⟨⟨i, 0, m⟩, by simp [maxBytesEncoder, MaxBytesState.new, h1, Res.step], ?_⟩
  intro t out hdr
  obtain ⟨rest, hb, q1, q2, q3, q4⟩ := max_drain_long hc h2 hm hdr
  obtain ⟨ti, tc, tm⟩ := t
  simp only at q1 q2 q3
  subst q2 q3
  have hbl : b.length = out.length + rest.length := by rw [hb, List.length_append]
  refine ⟨hb ▸ List.prefix_append _ _, q4, ?_, ?_⟩
  · cases hti : E.isIdle ti with
    | false => exact hti
    | true =>
      have := hc.idle q1 hti
      subst this
      simp at hbl
      omega
  · intro cap e he hcap
    exact (max_encode_long hc (cap := cap) (e := e) q1 (by omega)
      (by intro hr'; have := he hr'; omega)).2 hcap

/-- C28, the counter after a rejected item (the code deviates): it is not reset, so a short item that
follows a rejected one is rejected as well. -/
theorem C28_restart_fails :
    let E := maxBytesEncoder utf8Encoder.toEncoder
    let s1 := (E.encode (E.start (.new .new 1) "abc").2 10 (Eos.new false)).2
    let q := E.start s1 "a"
    E.isIdle s1 = true ∧ q.1 = .ok () ∧ (E.encode q.2 10 (Eos.new false)).1 = .err .invalidInput := by
  decide +kernel

example : Emits true (maxBytesEncoder utf8Encoder.toEncoder) (.new .new 4)
    (fun x => True ∧ (utf8Bytes x).length ≤ 4) (fun x => .ok (utf8Bytes x)) :=
  C28_fits_partial 4 (C54_contract (.utf8 true))

/-! ## C33: `Last` -/

/-- C33: `last(x)` on an encoder that still owes some bytes (and is idle if it owes none): under every
schedule the output is a prefix of the owed bytes followed by the encoding of `x`; all of it when the
encoder is idle; and every call with a non-empty buffer emits something or ends idle. -/
theorem C33_last {strict : Bool} {E : Encoder σ α} {s₀ : σ} {dom enc} (h : Emits strict E s₀ dom enc)
    {s : σ} {acc em : Bytes} (hr : EncRun E dom enc s₀ s acc em) (hi : em = acc → E.isIdle s = true)
    {x : α} {b : Bytes} (hd : dom x) (hx : enc x = .ok b) {t : LastState σ α} {out : Bytes}
    (hdr : Drain (lastEncoder E) ((acc.drop em.length) ++ b).length (.new s x) t out) :
    out <+: acc.drop em.length ++ b ∧
    ((lastEncoder E).isIdle t = true → out = acc.drop em.length ++ b) ∧
    ∀ cap e, (e.isReached = true → (acc.drop em.length ++ b).length - out.length ≤ cap) →
      ∃ bs t', (lastEncoder E).encode t cap e = (.ok bs, t') ∧
        (0 < cap → (lastEncoder E).isIdle t = false → bs ≠ [] ∨ (lastEncoder E).isIdle t' = true) := by
  have hf := emits_fresh h
  have hin := h.inOrder hr
  obtain ⟨rest, rfl⟩ := hin
  rw [List.drop_left] at hdr ⊢
  have h0 : LastLeft E (Owed E s₀ dom enc) dom enc (.new s x) (rest ++ b) :=
    ⟨rest, b, ⟨em, hr⟩, fun hn => hi (by simp [hn]), hd, hx, rfl⟩
  obtain ⟨left, h1, h2⟩ := last_drain hf.1 h0 hdr
  refine ⟨h1 ▸ List.prefix_append _ _, ?_, ?_⟩
  · intro hidle
    have := last_idle hf.1 h2 hidle
    subst this
    simpa using h1.symm
  · intro cap e he
    obtain ⟨bs, _, t', q1, _, _, _, q5⟩ := last_encode hf.1 (cap := cap) (e := e) h2
      (by intro hr'; have := he hr'; rw [h1] at this; simpa using this)
    exact ⟨bs, t', q1, q5⟩

/-- C33: a `Last` encoder that is idle stays idle, and emits nothing more. -/
theorem C33_stays_idle {strict : Bool} {E : Encoder σ α} {s₀ : σ} {dom enc} (h : Emits strict E s₀ dom enc)
    {s : σ} {acc em : Bytes} (hr : EncRun E dom enc s₀ s acc em) (hi : E.isIdle s = true) (cap : Nat) (e : Eos) :
    ∃ t, (lastEncoder E).encode ⟨s, none⟩ cap e = (.ok [], ⟨t, none⟩) ∧ (lastEncoder E).isIdle ⟨t, none⟩ = true := by
  have hc := h.complete hr hi
  subst hc
  obtain ⟨t, h1, h2⟩ := h.encode (cap := cap) (e := e) hr (by simp)
  refine ⟨t, ?_, ?_⟩
  · simp only [lastEncoder, hi, if_true, h1, Res.step]
    simp
  · simpa [lastEncoder] using h2

/-- C33, sizes: `requiring_bytes` is unknown while the last item is pending, and that of the inner
encoder afterwards. -/
theorem C33_requiring (E : Encoder σ α) (s : LastState σ α) :
    (s.item.isSome = true → (lastEncoder E).requiring s = .unknown) ∧
    (s.item = none → (lastEncoder E).requiring s = E.requiring s.inner) := by
  constructor
  · intro h; simp [lastEncoder, h]
  · intro h; simp [lastEncoder, h]

/-- C33, sizes: `exact_requiring_bytes` is that of the inner encoder, hence right once the last item has been
handed to it. Missing: while the last item is pending, see `C33_exact_fails`. -/
theorem C33_exact_partial {strict : Bool} {E : SizedEncoder σ α} {s₀ : σ} {dom enc} (h : EmitsSized strict E s₀ dom enc)
    {s : σ} {acc em : Bytes} (hr : EncRun E.toEncoder dom enc s₀ s acc em) :
    (sizedLastEncoder E).exact ⟨s, none⟩ = acc.length - em.length ∧
    (sizedLastEncoder E).requiring ⟨s, none⟩ = .finite (acc.length - em.length) :=
  h.sizes hr

/-- C33, sizes (the code deviates): `exact_requiring_bytes` leaves out the pending last item: it says
0 although the encoder is not idle and emits a byte. -/
theorem C33_exact_fails :
    let E := sizedLastEncoder u8Encoder
    let s : LastState (BytesEncoderState Bytes) UInt8 := .new .new 7
    E.exact s = 0 ∧ E.isIdle s = false ∧ (E.encode s 10 (Eos.new false)).1 = .ok [7] := by
  decide +kernel

/-- Pending bytes `[1, 2]`, last item `[3]`. -/
example : EncRun (bytesEncoder (id : Bytes → Bytes)).toEncoder (fun _ => True) (fun x => .ok x) .new
    ⟨some [1, 2], 0⟩ [1, 2] [] ∧
    Drain (lastEncoder (bytesEncoder (id : Bytes → Bytes)).toEncoder) 3 (.new ⟨some [1, 2], 0⟩ [3])
      ⟨⟨none, 1⟩, none⟩ [1, 2, 3] :=
  ⟨.start (x := [1, 2]) .new rfl trivial rfl rfl,
    .encode (out := [1, 2]) (cap := 5) (e := Eos.new false)
      (.encode (out := []) (s' := ⟨⟨none, 2⟩, some [3]⟩) (cap := 5) (e := Eos.new false) .new (by decide) rfl)
      (by decide) rfl⟩

/-! ## C34: `pre_encode` and `encode_into_bytes` -/

/-- C34: `pre_encode` emits the same bytes as the inner encoder under any schedule, and knows its exact
size, also when the inner encoder does not. -/
theorem C34_pre_encode {strict : Bool} {E : Encoder σ α} {s₀ : σ} {dom enc} (h : Emits strict E s₀ dom enc) :
    EmitsSized true (preEncodeEncoder E) (.new s₀) (fun x => dom x ∧ (bytesOf (enc x)).length < 2 ^ 63) enc := by
  obtain ⟨a1, a2, a3⟩ := emits_fresh h
  exact fresh_emitsSized ⟨codes_preEncode a1, ⟨rfl, a2, a3⟩, rfl⟩ (exact_preEncode E _)

/-- C34: `encode_into_bytes` returns exactly the encoding of the item (or its rejection), whether the
size is known in advance or not, and leaves the encoder idle and usable. -/
theorem C34_encode_into_bytes {strict : Bool} {E : Encoder σ α} {s₀ : σ} {dom enc}
    (h : Emits strict E s₀ dom enc) {s : σ} {acc : Bytes} (hr : EncRun E dom enc s₀ s acc acc)
    (hi : E.isIdle s = true) {x : α} (hd : dom x) :
    (∀ b, enc x = .ok b → b.length < 2 ^ 63 → ∃ s' acc', encodeIntoBytes E s x = (.ok b, s') ∧
      E.isIdle s' = true ∧ EncRun E dom enc s₀ s' acc' acc') ∧
    (∀ k, enc x = .error k → (encodeIntoBytes E s x).1 = .err k) := by
  obtain ⟨a1, _, _⟩ := emits_fresh h
  have hp : Owed E s₀ dom enc s [] := ⟨acc, by simpa using hr⟩
  constructor
  · intro b hb hl
    obtain ⟨s', q1, ⟨em, q2⟩, q3⟩ := encodeIntoBytes_ok a1 hp hi hd hb hl
    exact ⟨s', em, q1, q3, by simpa using q2⟩
  · intro k hk
    exact encodeIntoBytes_err a1 hp hi hd hk

/-- A sequence of numbers, whose size is not known in advance, with and without `pre_encode`. -/
example : Emits true (repeatEncoder u16beEncoder.toEncoder) (.new .new)
    (fun xs => ∀ x ∈ xs, True ∧ ∃ b, Except.ok (ε := ErrorKind) (writeBE 2 x.toNat) = .ok b ∧ b ≠ [])
    (fun xs => .ok (xs.flatMap fun x => bytesOf (.ok (writeBE 2 x.toNat)))) :=
  fresh_emits ⟨codes_repeat (codes_number _ true), ⟨rfl, rfl, rfl⟩, rfl⟩

/-! ## C35: `Repeat` -/

/-- C35: `repeat` emits the concatenation of the encodings of the iterator's items under any schedule,
and accepts the next sequence when it is done; for items that encode to at least one byte. -/
theorem C35_concatenation_partial {strict : Bool} {E : Encoder σ α} {s₀ : σ} {dom enc}
    (h : Emits strict E s₀ dom enc) :
    Emits strict (repeatEncoder E) (.new s₀) (fun xs => ∀ x ∈ xs, dom x ∧ ∃ b, enc x = .ok b ∧ b ≠ [])
      (fun xs => .ok (xs.flatMap fun x => bytesOf (enc x))) := by
  obtain ⟨a1, a2, a3⟩ := emits_fresh h
  exact fresh_emits ⟨codes_repeat a1, ⟨rfl, a2, a3⟩, rfl⟩

/-- C35 for the encoders of the library: `repeat` over an assembled encoder. -/
theorem C35_assembled_partial {strict : Bool} {E : Encoder σ α} {s₀ : σ} {dom enc}
    (h : Writes strict E s₀ dom enc) :
    Emits strict (repeatEncoder E) (.new s₀) (fun xs => ∀ x ∈ xs, dom x ∧ ∃ b, enc x = .ok b ∧ b ≠ [])
      (fun xs => .ok (xs.flatMap fun x => bytesOf (enc x))) :=
  C35_concatenation_partial (C54_contract h)

/-- C35, also for items with empty encodings: under every schedule what is emitted is a prefix of the
concatenation, all of it when the encoder is idle, and no call fails. A caller that is not deterred by calls
without output is done after at most as many calls (with a non-empty buffer) as there are bytes and items, and
one more. -/
theorem C35_any_items {strict : Bool} {E : Encoder σ α} {s₀ : σ} {dom enc} (h : Emits strict E s₀ dom enc)
    {xs : List α} (hx : ∀ x ∈ xs, dom x ∧ ∃ b, enc x = .ok b) :
    let all := xs.flatMap fun x => bytesOf (enc x)
    ∃ s1, (repeatEncoder E).start (.new s₀) xs = (.ok (), s1) ∧
      ∀ {n t out}, DrainIn (repeatEncoder E) all.length s1 n t out →
        out <+: all ∧ ((repeatEncoder E).isIdle t = true → out = all) ∧
        (all.length + xs.length < n → (repeatEncoder E).isIdle t = true) ∧
        ∀ cap e, (e.isReached = true → all.length - out.length ≤ cap) →
          ∃ bs t', (repeatEncoder E).encode t cap e = (.ok bs, t') := by
  obtain ⟨a1, a2, a3⟩ := emits_fresh h
  refine ⟨⟨s₀, some xs⟩, rfl, fun {n t out} hd => ?_⟩
  have h0 : RepAny E (Owed E s₀ dom enc) dom enc ⟨s₀, some xs⟩ (xs.flatMap fun x => bytesOf (enc x)) xs.length :=
    ⟨[], a2, fun _ => a3, hx, rfl, rfl⟩
  obtain ⟨q, k, h1, h2, h3⟩ := repAny_drain a1 h0 hd
  refine ⟨⟨q, h1.symm⟩, fun hi => ?_, fun hn => ?_, fun cap e he => ?_⟩
  · obtain ⟨i, items⟩ := t
    cases items with
    | none => obtain ⟨rfl, _⟩ := h2; simpa using h1.symm
    | some ys => cases hi
  · rcases h3 with h3 | h3
    · simp [repeatEncoder, h3]
    · omega
  · have hl := congrArg List.length h1
    rw [List.length_append] at hl
    obtain ⟨bs, _, _, t', r, _⟩ := repAny_encode a1 (cap := cap) (e := e) h2 (by intro hr; have := he hr; omega)
    exact ⟨bs, t', r⟩

/-- Strings, one of them empty. -/
example : Emits true utf8Encoder.toEncoder .new (fun _ => True) (fun x => .ok x.toByteArray.data.toList) ∧
    ∀ x ∈ ["", "a"], True ∧ ∃ b, Except.ok (ε := ErrorKind) x.toByteArray.data.toList = .ok b :=
  ⟨C54_contract (.utf8 true), fun _ _ => ⟨trivial, _, rfl⟩⟩

/-- C35 (the code deviates): an item with an empty encoding makes `repeat` return without emitting
anything, although the encoder is not idle; `encode_all` takes this for a failure. -/
theorem C35_empty_item_fails :
    let E := repeatEncoder utf8Encoder.toEncoder
    let s := (E.start (.new .new) ["", "a"]).2
    (E.encode s 10 (Eos.new false)).1 = .ok [] ∧ E.isIdle (E.encode s 10 (Eos.new false)).2 = false ∧
    (encodeAll E vecWriter s []).map (fun q => q.1) = some (.err .other) := by
  refine ⟨by decide +kernel, by decide +kernel, ?_⟩
  rw [encodeAll]
  decide +kernel

/-! ## C43: `encode_all` -/

/-- C43: `encode_all` terminates. Either it succeeds: then the encoder is idle and the writer has
accepted exactly the pending bytes; or the writer failed: then it has accepted a proper prefix of them. The
writer may accept any part of what it is offered; `loggedWriter W` is `W` with a log of its calls. -/
theorem C43_encode_all {strict : Bool} {E : Encoder σ α} {s₀ : σ} {dom enc} (h : Emits strict E s₀ dom enc)
    {s : σ} {acc em : Bytes} (hr : EncRun E dom enc s₀ s acc em) {W : Writer ω} (hW : HonestWriter W) (w : ω) :
    ∃ res s' w' log, encodeAll E (loggedWriter W) s (w, []) = some (res, s', (w', log)) ∧
      (res = .ok () ∧ E.isIdle s' = true ∧ accepted log = acc.drop em.length ∨
        ∃ k, res = .err k ∧ accepted log <+: acc.drop em.length ∧ accepted log ≠ acc.drop em.length ∧
          ∃ u b, (∃ io, W.write u b = (.error io, w') ∧ k = ErrorKind.ofIo io) ∨
            W.write u b = (.wrote 0, w') ∧ k = .other) := by
  obtain ⟨a1, _, _⟩ := emits_fresh h
  obtain ⟨rest, rfl⟩ := h.inOrder hr
  rw [List.drop_left]
  obtain ⟨res, s', ⟨w', log⟩, q1, q2⟩ := encodeAll_spec a1 (sink_logged hW) rest.length s rest (w, [])
    (Nat.le_refl _) ⟨em, hr⟩
  refine ⟨res, s', w', log, q1, ?_⟩
  rcases q2 with ⟨hr, q3, q4, q5⟩ | ⟨k, pre, hr, q3, q4, u, b, _, q5⟩
  · exact .inl ⟨hr, q3, by simpa [accepted] using q5⟩
  · have : accepted log = pre := by simpa [accepted] using q4
    rw [this]
    refine .inr ⟨k, hr, q3.1, q3.2, u.1, b, ?_⟩
    rcases q5 with ⟨io, q5, q6⟩ | ⟨q5, q6⟩
    · left
      refine ⟨io, ?_, q6⟩
      simp only [loggedWriter, Prod.mk.injEq] at q5
      exact Prod.ext q5.1 q5.2.1
    · right
      refine ⟨?_, q6⟩
      simp only [loggedWriter, Prod.mk.injEq] at q5
      exact Prod.ext q5.1 q5.2.1

/-- C43 for the encoders of the library, on a fresh encoder that was given one item: exactly the bytes of
the item are written, or a prefix of them if the writer fails. -/
theorem C43_assembled {strict : Bool} {E : Encoder σ α} {s₀ s : σ} {dom enc} (h : Writes strict E s₀ dom enc)
    {x : α} {b : Bytes} (hd : dom x) (hx : enc x = .ok b) (hs : E.start s₀ x = (.ok (), s))
    {W : Writer ω} (hW : HonestWriter W) (w : ω) :
    ∃ res s' w' log, encodeAll E (loggedWriter W) s (w, []) = some (res, s', (w', log)) ∧
      (res = .ok () ∧ E.isIdle s' = true ∧ accepted log = b ∨
        ∃ k, res = .err k ∧ accepted log <+: b ∧ accepted log ≠ b) := by
  have hc := C54_contract h
  have hr : EncRun E dom enc s₀ s ([] ++ b) [] := .start .new hc.new hd hx hs
  obtain ⟨res, s', w', log, q1, q2⟩ := C43_encode_all hc hr hW w
  refine ⟨res, s', w', log, q1, ?_⟩
  rcases q2 with q2 | ⟨k, q3, q4, q5, _⟩
  · exact .inl q2
  · exact .inr ⟨k, q3, q4, q5⟩

/-- A text: the hypotheses are met. -/
example : Writes true utf8Encoder.toEncoder .new (fun _ => True) (fun x => .ok (utf8Bytes x)) ∧
    utf8Encoder.start .new "hi" = (.ok (), ⟨some "hi", 0⟩) ∧ HonestWriter vecWriter :=
  ⟨.utf8 true, rfl, by intro w buf n w' h; simp only [vecWriter] at h; cases h; exact Nat.le_refl _⟩

/-- C43: `with_item` on a default encoder takes every item that has an encoding, rejects the others with
their error, and what it returns owes exactly the bytes of the item. -/
theorem C43_with_item {strict : Bool} {E : Encoder σ α} {s₀ : σ} {dom enc} (h : Emits strict E s₀ dom enc)
    {x : α} (hd : dom x) :
    (∀ b, enc x = .ok b → ∃ s, withItem E s₀ x = .ok s ∧ EncRun E dom enc s₀ s b []) ∧
    (∀ k, enc x = .error k → withItem E s₀ x = .err k) := by
  constructor
  · intro b hb
    have ha := h.accepts .new h.new hd hb
    rcases hs : E.start s₀ x with ⟨r, s⟩
    rw [hs] at ha
    cases ha
    refine ⟨s, by rw [withItem, hs], ?_⟩
    exact EncRun.start .new h.new hd hb hs
  · intro k hk
    have ha := h.rejects .new h.new hd hk
    rcases hs : E.start s₀ x with ⟨r, s⟩
    rw [hs] at ha
    cases ha
    rw [withItem, hs]

/-- C43: for any encoder at all, `with_item` is `start_encoding` on the default encoder. -/
theorem C43_with_item_start (E : Encoder σ α) (s₀ : σ) (x : α) :
    (∀ s, withItem E s₀ x = .ok s ↔ E.start s₀ x = (.ok (), s)) ∧
    (∀ k, withItem E s₀ x = .err k ↔ (E.start s₀ x).1 = .err k) ∧
    (withItem E s₀ x = .panic ↔ (E.start s₀ x).1 = .panic) := by
  unfold withItem
  rcases E.start s₀ x with ⟨_ | _ | _ | _ | _, s⟩ <;> simp

example : withItem (fixEncoder (α := Nat) fun x => if x < 256 then .ok [x.toUInt8] else .error .invalidInput).toEncoder
    .new 300 = .err .invalidInput := rfl

/-- C43: into a `Vec`, `encode_all` always succeeds. -/
theorem C43_vec {strict : Bool} {E : Encoder σ α} {s₀ : σ} {dom enc} (h : Emits strict E s₀ dom enc)
    {s : σ} {acc em : Bytes} (hr : EncRun E dom enc s₀ s acc em) (w : Bytes) :
    ∃ s', encodeAll E vecWriter s w = some (.ok (), s', w ++ acc.drop em.length) ∧ E.isIdle s' = true := by
  obtain ⟨a1, _, _⟩ := emits_fresh h
  obtain ⟨rest, rfl⟩ := h.inOrder hr
  rw [List.drop_left]
  obtain ⟨res, s', w', q1, q2⟩ := encodeAll_spec a1 sink_vec rest.length s rest w (Nat.le_refl _) ⟨em, hr⟩
  rcases q2 with ⟨rfl, q3, q4, q5⟩ | ⟨k, pre, hr, q3, q4, hf⟩
  · refine ⟨s', ?_, q3⟩
    simp only [id] at q5
    rw [q1, q5]
  · exact absurd hf vec_never_fails

/-- A writer that accepts one byte per call. -/
example : HonestWriter (⟨fun (w : Bytes) b => (.wrote (min b.length 1), w ++ b.take 1)⟩ : Writer Bytes) := by
  intro w b n w' h
  simp only [Prod.mk.injEq, WriteRes.wrote.injEq] at h
  omega

/-! ## C46: monolithic encoders -/

/-- C46: for every serializer, and every way it cuts its writes, the output under any schedule is the
serialized bytes. -/
theorem C46_schedule_partial (ser : MonolithicSerializer α) :
    Emits false (monolithicEncoder ser) .new (fun x => (ser x).2 = .ok ()) (fun x => .ok (ser x).1.flatten) :=
  fresh_emits ⟨codes_monolithic ser, rfl, rfl⟩

/-- C46, too little room at the end of the stream: it is reported once the item has been serialized,
that is, in any but the first `encode` call of an item. -/
theorem C46_too_short_partial (ser : MonolithicSerializer α) {s : MonoEncState α} {acc em : Bytes}
    (hr : EncRun (monolithicEncoder ser) (fun x => (ser x).2 = .ok ()) (fun x => .ok (ser x).1.flatten) .new s acc em)
    (hs : s.item = none) {cap : Nat} {e : Eos} (he : e.isReached = true)
    (hc : cap < acc.length - em.length) : ((monolithicEncoder ser).encode s cap e).1 = .err .unexpectedEos := by
  obtain ⟨rest, rfl, hp⟩ := encRun_inv (P := MonoLeft ser)
    (show Fresh false (monolithicEncoder ser) .new _ _ (MonoLeft ser) from ⟨codes_monolithic ser, rfl, rfl⟩) hr
  obtain ⟨item, buf⟩ := s
  simp only at hs
  subst hs
  have := (codes_bytes (id : Bytes → Bytes) true).full rfl hp he (cap := cap) (by simpa using hc)
  rcases hq : (bytesEncoder (id : Bytes → Bytes)).encode buf cap e with ⟨r, s'⟩
  rw [hq] at this
  simp only at this
  subst this
  simp only [monolithicEncoder, hq, Res.step]

/-- C46, too little room at the end of the stream (the code deviates): the first call returns `Ok`. -/
theorem C46_too_short_fails :
    let ser : MonolithicSerializer Bytes := fun x => ([x], .ok ())
    let E := monolithicEncoder ser
    let s := (E.start .new [1, 2, 3]).2
    (E.encode s 2 (Eos.new true)).1 = .ok [1, 2] ∧ E.isIdle (E.encode s 2 (Eos.new true)).2 = false := by
  decide +kernel

/-- C46: an error of the serializer is the error of the `encode` call; the item is dropped. -/
theorem C46_serializer_error (ser : MonolithicSerializer α) (s : MonoEncState α) (x : α) (k : ErrorKind)
    (hs : s.item = some x) (hx : (ser x).2 = .err k) (cap : Nat) (e : Eos) :
    (monolithicEncoder ser).encode s cap e = (.err k, { s with item := none }) := by
  simp only [monolithicEncoder, hs, serialize_chain, Res.step, hx]

/-- A serializer that writes its item twice, for the next example. -/
def twice : MonolithicSerializer Bytes := fun x => ([x, x], .ok ())

/-- Two writes, emitted through a buffer of two bytes. -/
example : EncRun (monolithicEncoder twice) (fun x => (twice x).2 = .ok ()) (fun x => .ok (twice x).1.flatten)
    .new ⟨none, ⟨some [3, 1, 2, 3], 0⟩⟩ [1, 2, 3, 1, 2, 3] [1, 2] := by
  have h : EncRun (monolithicEncoder twice) (fun x => (twice x).2 = .ok ()) (fun x => .ok (twice x).1.flatten)
      .new ⟨some [1, 2, 3], .new⟩ ([] ++ [1, 2, 3, 1, 2, 3]) [] :=
    .start (x := [1, 2, 3]) .new rfl rfl rfl rfl
  exact .encode (out := [1, 2]) (cap := 2) (e := Eos.new false) h (by decide)
    (Prod.ext (by decide +kernel) (by simp [monolithicEncoder, twice, serialize_chain, Res.step]; rfl))

/-! ## C53: sizes -/

/-- C53: for every encoder assembled from the library (but `Length`, `Slice`, `Last` and
`PaddingEncoder`), in every use: `requiring_bytes` is exactly the number of bytes still to be emitted,
or unknown; and `Finite(0)` when there is nothing to emit. -/
theorem C53_requiring_partial {strict : Bool} {E : Encoder σ α} {s₀ : σ} {dom enc}
    (h : Writes strict E s₀ dom enc) {s : σ} {acc em : Bytes} (hr : EncRun E dom enc s₀ s acc em) :
    (E.requiring s = .finite (acc.length - em.length) ∨ E.requiring s = .unknown) ∧
    (E.isIdle s = true → E.requiring s = .finite 0) := by
  obtain ⟨P, hf⟩ := writes_fresh h
  have he := fresh_emits hf
  rcases he.requiring hr with h1 | ⟨h1, h2⟩
  · refine ⟨.inl h1, fun hi => ?_⟩
    have := he.complete hr hi
    subst this
    simpa using h1
  · exact ⟨.inr h1, fun hi => by rw [h2] at hi; cases hi⟩

/-- C53: for those that implement `SizedEncode`, both queries always return that number. -/
theorem C53_exact {strict : Bool} {E : SizedEncoder σ α} {s₀ : σ} {dom enc}
    (h : SizedWrites strict E s₀ dom enc) {s : σ} {acc em : Bytes}
    (hr : EncRun E.toEncoder dom enc s₀ s acc em) :
    E.exact s = acc.length - em.length ∧ E.requiring s = .finite (acc.length - em.length) := by
  obtain ⟨P, hf, hx⟩ := sizedWrites_fresh h
  exact (fresh_emitsSized hf hx).sizes hr

/-- C53 (the code deviates): a new `Length` encoder has no item and reports its whole length. -/
theorem C53_length_fails :
    (lengthEncoder u8Encoder.toEncoder).requiring (.new .new 1) = .finite 1 ∧
    ((lengthEncoder u8Encoder.toEncoder).encode (.new .new 1) 10 (Eos.new false)).1 = .err .invalidInput := by
  decide +kernel

/-- A string followed by an optional number, with a limit. -/
example : ∃ dom enc, SizedWrites true
    (sizedMaxBytesEncoder (sizedTupleEncoder2 utf8Encoder (sizedOptionalEncoder u16beEncoder)))
    (.new (.new, .new) 100) dom enc ∧ dom ("abc", some 5) ∧ enc ("abc", some 5) = .ok [97, 98, 99, 0, 5] :=
  ⟨_, _, .maxBytes 100 (.pair (.utf8 true) (.optional (.number _ true))),
    ⟨⟨trivial, fun _ _ => trivial⟩, by decide +kernel⟩, congrArg Except.ok (by decide +kernel)⟩

/-! ## C54: safety and greediness -/

/-- C54: for every encoder assembled from the library without `pre_encode`, whatever the caller did
before: every call returns `Ok` or `Err`, and no `encode` reports more bytes than its buffer has. -/
theorem C54_safe {E : Encoder σ α} {s : σ} (h : AssembledEnc false E s) : SafeEncFrom true E s := by
  obtain ⟨I, h1, h2⟩ := assembledEnc_safe h
  exact encSafe_from h1 h2

/-- C54: also with `pre_encode` no call panics and none overruns its buffer (`pre_encode` may run
forever, or out of memory, when it is given an endless item). -/
theorem C54_no_panic {E : Encoder σ α} {s : σ} (h : AssembledEnc true E s) : SafeEncFrom false E s := by
  obtain ⟨I, h1, h2⟩ := assembledEnc_safe h
  exact encSafe_from h1 h2

/-- C54, greediness spelled out: if the encoder is not idle after a call, the buffer was filled. -/
theorem C54_greedy_partial {strict : Bool} {E : Encoder σ α} {s₀ : σ} {dom enc}
    (h : Writes strict E s₀ dom enc) {s s' : σ} {acc em bs : Bytes} {cap : Nat} {e : Eos}
    (hr : EncRun E dom enc s₀ s acc em) (he : e.isReached = true → acc.length - em.length ≤ cap)
    (hs : E.encode s cap e = (.ok bs, s')) (hi : E.isIdle s' = false) : bs.length = cap := by
  obtain ⟨t, h1, h2⟩ := (C54_contract h).encode hr he
  rw [h1] at hs
  cases hs
  have : ¬ acc.length - em.length ≤ cap := by
    intro hle
    rw [h2.2 hle] at hi
    cases hi
  simp only [List.length_take, List.length_drop]
  omega

/-- C54, greediness in every state a caller can reach, also after errors: encoders assembled without `slice` and
`last` (see below), and with `repeat` only over items that are never empty (see `C35_empty_item_fails`). -/
theorem C54_greedy_always {E : Encoder σ α} {s₀ s s' : σ} (h : Eager E s₀) (hr : EncReach E s₀ s)
    {cap : Nat} {e : Eos} {bs : Bytes} (he : EosSane e cap) (hs : E.encode s cap e = (.ok bs, s'))
    (hi : E.isIdle s' = false) : bs.length = cap := by
  obtain ⟨I, h1, h2⟩ := eager_fills h
  exact h1.fill (h1.reach h2 hr) he hs hi

/-- C54: a sliced encoder leaves room in the buffer only when it is done or suspended, whatever allowances were set. -/
theorem C54_greedy_slice {E : Encoder σ α} {s₀ : σ} {s s' : SliceState σ} (h : Eager E s₀)
    (hr : EncReach E s₀ s.inner) {cap : Nat} {e : Eos} {bs : Bytes} (he : EosSane e cap)
    (hs : (sliceEncoder E).encode s cap e = (.ok bs, s')) (hi : (sliceEncoder E).isIdle s' = false) :
    bs.length = cap ∨ s'.isSuspended = true := by
  obtain ⟨s, n⟩ := s
  simp only [sliceEncoder] at hs
  cases hb : e.back (cap - min cap n) with
  | ok e' =>
    rw [hb] at hs
    simp only at hs
    have he' : EosSane e' (min cap n) := back_sane hb (he.mono (by omega))
    generalize hp : E.encode s (min cap n) e' = p at hs
    obtain ⟨r, t⟩ := p
    cases r <;> simp only [Res.step] at hs <;> try cases hs
    split at hs
    · cases hs
    · cases hs
      have := C54_greedy_always h hr he' hp hi
      simp only [SliceState.isSuspended, beq_iff_eq]
      omega
  | err k => rw [hb] at hs; cases hs
  | panic => rw [hb] at hs; cases hs
  | capacity => rw [hb] at hs; cases hs
  | diverge => rw [hb] at hs; cases hs

/-- C54: `last` leaves room in the buffer only when it is done or when it has just written the rest of a pending
item: once the final item is being written, it fills the buffer. -/
theorem C54_greedy_last {E : Encoder σ α} {s₀ : σ} {s s' : LastState σ α} (h : Eager E s₀)
    (hr : EncReach E s₀ s.inner) (hd : E.isIdle s.inner = true ∨ s.item = none) {cap : Nat} {e : Eos} {bs : Bytes}
    (he : EosSane e cap) (hs : (lastEncoder E).encode s cap e = (.ok bs, s'))
    (hi : (lastEncoder E).isIdle s' = false) : bs.length = cap := by
  have key : ∀ i : σ, EncReach E s₀ i →
      Res.step (E.encode i cap e) (fun j => (⟨j, none⟩ : LastState σ α)) (fun bs j => (.ok bs, ⟨j, none⟩)) = (.ok bs, s') →
      bs.length = cap := by
    intro i hr hs
    generalize hp : E.encode i cap e = p at hs
    obtain ⟨r, t⟩ := p
    cases r <;> simp only [Res.step] at hs <;> cases hs
    exact C54_greedy_always h hr he hp (by simpa [lastEncoder] using hi)
  obtain ⟨i, item⟩ := s
  simp only [lastEncoder] at hs
  cases item with
  | none => split at hs <;> exact key i hr hs
  | some x =>
    rw [if_pos (hd.resolve_right nofun)] at hs
    simp only at hs
    have hr' := EncReach.start x hr
    generalize E.start i x = p at hs hr'
    obtain ⟨r, t⟩ := p
    cases r with
    | ok u => exact key t hr' hs
    | err k => cases hs
    | panic => cases hs
    | capacity => cases hs
    | diverge => cases hs

/-- Frames of two bytes, repeated, in a slice or before the end of the stream. -/
example : Eager (repeatEncoder u16beEncoder.toEncoder) (.new .new) ∧
    Eager (lengthEncoder (repeatEncoder u16beEncoder.toEncoder)).toEncoder (.new (.new .new) 6) := by
  have h : Eager (repeatEncoder u16beEncoder.toEncoder) (.new .new) :=
    .repeated (substantial_number (by intro x b h; cases h; simp [writeBE, writeLE]))
  exact ⟨h, .length 6 (by decide) h⟩

/-- A pair of a text and padding: three bytes of an endless item. -/
example : Eager (tupleEncoder2 utf8Encoder.toEncoder paddingEncoder) (.new, none) ∧
    let E := tupleEncoder2 utf8Encoder.toEncoder paddingEncoder
    let s : BytesEncoderState String × Option UInt8 := (⟨some "a", 0⟩, some 7)
    E.encode s 3 (Eos.new false) = (.ok [97, 7, 7], (⟨none, 1⟩, some 7)) ∧
    E.isIdle (⟨none, 1⟩, some 7) = false :=
  ⟨.pair .utf8 .padding, rfl, rfl⟩

/-- C54, greediness (the code deviates): `Last` returns after the pending bytes even if there is room
for the last item. -/
theorem C54_last_fails :
    let E := lastEncoder u8Encoder.toEncoder
    let s : LastState (BytesEncoderState Bytes) UInt8 := .new ⟨some [1], 0⟩ 2
    (E.encode s 10 (Eos.new false)).1 = .ok [1] ∧ E.isIdle (E.encode s 10 (Eos.new false)).2 = false := by
  decide +kernel

/-- A length-limited, repeated, sliced encoder. -/
example : AssembledEnc false (sliceEncoder (repeatEncoder (tupleEncoder2 utf8Encoder.toEncoder
    (lengthEncoder u16beEncoder.toEncoder).toEncoder))) ⟨.new (.new, .new .new 2), 5⟩ :=
  .slice 5 (.repeated (.pair .utf8 (.length 2 (by decide) (.number _))))

example : ∃ dom enc, Writes true
    (repeatEncoder (tupleEncoder2 utf8Encoder.toEncoder u16beEncoder.toEncoder)) (.new (.new, .new)) dom enc ∧
    enc [("a", 1), ("", 2)] = .ok [97, 0, 1, 0, 2] :=
  ⟨_, _, .repeated (.pair (.utf8 true) (.number _ true)), congrArg Except.ok (by decide +kernel)⟩

end Bytecodec.Props
