import Verif.Model.Tuple
/-!
# Tuples of arity 3 to 8 are nested pairs
(Generated by tools/gen_nested.py.)
-/
namespace Bytecodec

set_option linter.unusedSimpArgs false

variable {σ α : Type}

theorem dec_assoc (x y z : ByteCount) :
    (x.addForDecoding y).addForDecoding z = x.addForDecoding (y.addForDecoding z) := by
  rcases x with (_ | a) | _ | _ <;> rcases y with (_ | b) | _ | _ <;> rcases z with (_ | c) | _ | _ <;>
    simp [ByteCount.addForDecoding] <;> omega

theorem dec_zero (x : ByteCount) : (ByteCount.finite 0).addForDecoding x = x := by
  rcases x with (_ | a) | _ | _ <;> simp [ByteCount.addForDecoding]

theorem enc_assoc (x y z : ByteCount) :
    (x.addForEncoding y).addForEncoding z = x.addForEncoding (y.addForEncoding z) := by
  cases x <;> cases y <;> cases z <;> simp [ByteCount.addForEncoding] <;> omega

theorem enc_zero (x : ByteCount) : (ByteCount.finite 0).addForEncoding x = x := by
  cases x <;> simp [ByteCount.addForEncoding]

/-- Two decoders with the same four methods are equal. -/
theorem Decoder.ext' {D E : Decoder σ α} (h1 : ∀ s b e, D.decode s b e = E.decode s b e)
    (h2 : ∀ s, D.finish s = E.finish s) (h3 : ∀ s, D.requiring s = E.requiring s)
    (h4 : ∀ s, D.isIdle s = E.isIdle s) : D = E := by
  cases D; cases E
  congr
  · funext s b e; exact h1 s b e
  · funext s; exact h2 s
  · funext s; exact h3 s
  · funext s; exact h4 s

/-- Two encoders with the same four methods are equal. -/
theorem Encoder.ext' {D E : Encoder σ α} (h1 : ∀ s b e, D.encode s b e = E.encode s b e)
    (h2 : ∀ s x, D.start s x = E.start s x) (h3 : ∀ s, D.requiring s = E.requiring s)
    (h4 : ∀ s, D.isIdle s = E.isIdle s) : D = E := by
  cases D; cases E
  congr
  · funext s b e; exact h1 s b e
  · funext s x; exact h2 s x
  · funext s; exact h3 s
  · funext s; exact h4 s

/-- Continue with `k` when the macro falls through, otherwise return. -/
def Flow.bind {ω σ τ : Type} (f : Flow ω σ) (w : σ → τ) (k : ω → σ → Flow ω τ) : Flow ω τ :=
  match f with
  | .next o s => k o s
  | .ret r s => .ret r (w s)

/-- The end of the function body: fall through with the offset, or return. -/
def Flow.done {ω σ : Type} : Flow ω σ → Res ω × σ
  | .next o s => (.ok o, s)
  | .ret r s => (r, s)

/-- Shift all offsets. -/
def Flow.shift {σ : Type} (k : Nat) : Flow Nat σ → Flow Nat σ
  | .next o s => .next (k + o) s
  | .ret (.ok n) s => .ret (.ok (k + n)) s
  | .ret r s => .ret r s

theorem Res.step_step {α β γ σ τ υ : Type} (p : Res α × σ) (w : σ → τ) (k : α → σ → Res β × τ)
    (w' : τ → υ) (k' : β → τ → Res γ × υ) :
    Res.step (Res.step p w k) w' k' =
      Res.step p (fun s => w' (w s)) fun a s => Res.step (k a s) w' k' := by
  rcases p with ⟨r, s⟩
  cases r <;> rfl

theorem Res.step_ok_eq {α β σ τ : Type} (a : α) (s : σ) (w : σ → τ) (k : α → σ → Res β × τ) :
    Res.step (.ok a, s) w k = k a s := rfl

theorem tryDecode_shift (D : Decoder σ α) (s : σ) (off k : Nat) (buf : Bytes) (e : Eos)
    (h : off ≤ buf.length) :
    tryDecode D s (off + k) buf e = (tryDecode D s k (buf.drop off) e).shift off := by
  unfold tryDecode
  split
  · rfl
  · simp only [List.length_drop, List.drop_drop]
    by_cases hk : buf.length < off + k
    · rw [if_pos hk, if_pos (by omega)]; rfl
    · rw [if_neg hk, if_neg (by omega)]
      rcases D.decode s (buf.drop (off + k)) e with ⟨r, s'⟩
      cases r with
      | ok n => simp only; split <;> simp [Flow.shift, Nat.add_assoc]
      | _ => rfl

theorem pair_decode {σ0 α0 σ1 α1 : Type} (D0 : Decoder σ0 α0) (D1 : Decoder σ1 α1) (s : σ0 × σ1)
    (buf : Bytes) (e : Eos) :
    (tupleDecoder2 D0 D1).decode s buf e =
      ((tryDecode D0 s.1 0 buf e).bind (fun t => (t, s.2)) fun o t =>
        (tryDecode D1 s.2 o buf e).bind (fun u => (t, u)) fun o' u => .next o' (t, u)).done := by
  simp only [tupleDecoder2]
  rcases tryDecode D0 s.1 0 buf e with ⟨o, t⟩ | ⟨r, t⟩ <;> simp only [Flow.bind, Flow.done]
  rcases tryDecode D1 s.2 o buf e with ⟨o', u⟩ | ⟨r, u⟩ <;> simp only [Flow.bind, Flow.done]

theorem tryDecode_next_isIdle {D : Decoder σ α} {s t : σ} {off o : Nat} {buf : Bytes} {e : Eos}
    (h : tryDecode D s off buf e = .next o t) : D.isIdle t = true := by
  unfold tryDecode at h
  split at h
  · cases h; assumption
  · split at h
    · cases h
    · split at h
      · split at h
        · cases h; assumption
        · cases h
      all_goals cases h

theorem tryDecode_ret_ok {D : Decoder σ α} {s t : σ} {off n : Nat} {buf : Bytes} {e : Eos}
    (h : tryDecode D s off buf e = .ret (.ok n) t) : D.isIdle t = false := by
  unfold tryDecode at h
  split at h
  · cases h
  · split at h
    · cases h
    · split at h
      · split at h
        · cases h
        · next hi => cases h; simpa using hi
      all_goals cases h

/-- The macro applied to a pair is the macro applied to the components in turn. -/
theorem tryDecode_pair {σ0 α0 σ1 α1 : Type} (D0 : Decoder σ0 α0) (D1 : Decoder σ1 α1) (s : σ0 × σ1)
    (off : Nat) (buf : Bytes) (e : Eos) :
    tryDecode (tupleDecoder2 D0 D1) s off buf e =
      (tryDecode D0 s.1 off buf e).bind (fun t => (t, s.2)) fun o t =>
        (tryDecode D1 s.2 o buf e).bind (fun u => (t, u)) fun o' u => .next o' (t, u) := by
  by_cases hoff : buf.length < off
  · by_cases h0 : D0.isIdle s.1 = true
    · by_cases h1 : D1.isIdle s.2 = true
      · simp [tryDecode, h0, h1, Flow.bind, tupleDecoder2]
      · simp [tryDecode, h0, h1, Flow.bind, tupleDecoder2, hoff]
    · simp [tryDecode, h0, Flow.bind, tupleDecoder2, hoff]
  · have hoff' : off ≤ buf.length := by omega
    have e0 := tryDecode_shift D0 s.1 off 0 buf e hoff'
    rw [Nat.add_zero] at e0
    rw [e0]
    by_cases hi : (tupleDecoder2 D0 D1).isIdle s = true
    · have hi' : D0.isIdle s.1 = true ∧ D1.isIdle s.2 = true := by
        simpa [tupleDecoder2] using hi
      simp [tryDecode, hi'.1, hi'.2, Flow.bind, tupleDecoder2, Flow.shift]
    · rcases h0 : tryDecode D0 s.1 0 (buf.drop off) e with ⟨o, t⟩ | ⟨r, t⟩
      · simp only [Flow.bind, Flow.shift]
        rw [tryDecode_shift D1 s.2 off o buf e hoff']
        rcases h1 : tryDecode D1 s.2 o (buf.drop off) e with ⟨o', u⟩ | ⟨r, u⟩
        · rw [tryDecode, if_neg hi, if_neg hoff, pair_decode, h0]
          simp only [Flow.bind, h1]
          simp [Flow.done, Flow.shift, tupleDecoder2, tryDecode_next_isIdle h0, tryDecode_next_isIdle h1]
        · rw [tryDecode, if_neg hi, if_neg hoff, pair_decode, h0]
          simp only [Flow.bind, h1]
          cases r <;> simp [Flow.done, Flow.shift, tupleDecoder2]
          simp [tryDecode_ret_ok h1]
      · rw [tryDecode, if_neg hi, if_neg hoff, pair_decode, h0]
        cases r <;> simp [Flow.bind, Flow.done, Flow.shift, tupleDecoder2]
        simp [tryDecode_ret_ok h0]

/-- Put what was written before in front. -/
def Flow.prepend {σ : Type} (pre : Bytes) : Flow Bytes σ → Flow Bytes σ
  | .next o s => .next (pre ++ o) s
  | .ret (.ok n) s => .ret (.ok (pre ++ n)) s
  | .ret r s => .ret r s

theorem tryEncode_prepend (E : Encoder σ α) (s : σ) (pre out : Bytes) (cap : Nat) (e : Eos)
    (h : pre.length ≤ cap) :
    tryEncode E s (pre ++ out) cap e = (tryEncode E s out (cap - pre.length) e).prepend pre := by
  unfold tryEncode
  split
  · rfl
  · simp only [List.length_append, Nat.sub_sub]
    by_cases hk : cap < pre.length + out.length
    · rw [if_pos hk, if_pos (by omega)]; rfl
    · rw [if_neg hk, if_neg (by omega)]
      rcases E.encode s (cap - (pre.length + out.length)) e with ⟨r, s'⟩
      cases r with
      | ok n => simp only; split <;> simp [Flow.prepend, List.append_assoc]
      | _ => rfl

theorem pair_encode {σ0 α0 σ1 α1 : Type} (E0 : Encoder σ0 α0) (E1 : Encoder σ1 α1) (s : σ0 × σ1)
    (cap : Nat) (e : Eos) :
    (tupleEncoder2 E0 E1).encode s cap e =
      ((tryEncode E0 s.1 [] cap e).bind (fun t => (t, s.2)) fun o t =>
        (tryEncode E1 s.2 o cap e).bind (fun u => (t, u)) fun o' u => .next o' (t, u)).done := by
  simp only [tupleEncoder2]
  rcases tryEncode E0 s.1 [] cap e with ⟨o, t⟩ | ⟨r, t⟩ <;> simp only [Flow.bind, Flow.done]
  rcases tryEncode E1 s.2 o cap e with ⟨o', u⟩ | ⟨r, u⟩ <;> simp only [Flow.bind, Flow.done]

theorem tryEncode_next_isIdle {E : Encoder σ α} {s t : σ} {out o : Bytes} {cap : Nat} {e : Eos}
    (h : tryEncode E s out cap e = .next o t) : E.isIdle t = true := by
  unfold tryEncode at h
  split at h
  · cases h; assumption
  · split at h
    · cases h
    · split at h
      · split at h
        · cases h; assumption
        · cases h
      all_goals cases h

theorem tryEncode_ret_ok {E : Encoder σ α} {s t : σ} {out n : Bytes} {cap : Nat} {e : Eos}
    (h : tryEncode E s out cap e = .ret (.ok n) t) : E.isIdle t = false := by
  unfold tryEncode at h
  split at h
  · cases h
  · split at h
    · cases h
    · split at h
      · split at h
        · cases h
        · next hi => cases h; simpa using hi
      all_goals cases h

theorem tryEncode_pair {σ0 α0 σ1 α1 : Type} (E0 : Encoder σ0 α0) (E1 : Encoder σ1 α1) (s : σ0 × σ1)
    (out : Bytes) (cap : Nat) (e : Eos) :
    tryEncode (tupleEncoder2 E0 E1) s out cap e =
      (tryEncode E0 s.1 out cap e).bind (fun t => (t, s.2)) fun o t =>
        (tryEncode E1 s.2 o cap e).bind (fun u => (t, u)) fun o' u => .next o' (t, u) := by
  by_cases hoff : cap < out.length
  · by_cases h0 : E0.isIdle s.1 = true
    · by_cases h1 : E1.isIdle s.2 = true
      · simp [tryEncode, h0, h1, Flow.bind, tupleEncoder2]
      · simp [tryEncode, h0, h1, Flow.bind, tupleEncoder2, hoff]
    · simp [tryEncode, h0, Flow.bind, tupleEncoder2, hoff]
  · have hoff' : out.length ≤ cap := by omega
    have e0 := tryEncode_prepend E0 s.1 out [] cap e hoff'
    rw [List.append_nil] at e0
    rw [e0]
    by_cases hi : (tupleEncoder2 E0 E1).isIdle s = true
    · have hi' : E0.isIdle s.1 = true ∧ E1.isIdle s.2 = true := by
        simpa [tupleEncoder2] using hi
      simp [tryEncode, hi'.1, hi'.2, Flow.bind, tupleEncoder2, Flow.prepend]
    · rcases h0 : tryEncode E0 s.1 [] (cap - out.length) e with ⟨o, t⟩ | ⟨r, t⟩
      · simp only [Flow.bind, Flow.prepend]
        rw [tryEncode_prepend E1 s.2 out o cap e hoff']
        rcases h1 : tryEncode E1 s.2 o (cap - out.length) e with ⟨o', u⟩ | ⟨r, u⟩
        · rw [tryEncode, if_neg hi, if_neg hoff, pair_encode, h0]
          simp only [Flow.bind, h1]
          simp [Flow.done, Flow.prepend, tupleEncoder2, tryEncode_next_isIdle h0, tryEncode_next_isIdle h1]
        · rw [tryEncode, if_neg hi, if_neg hoff, pair_encode, h0]
          simp only [Flow.bind, h1]
          cases r <;> simp [Flow.done, Flow.prepend, tupleEncoder2]
          simp [tryEncode_ret_ok h1]
      · rw [tryEncode, if_neg hi, if_neg hoff, pair_encode, h0]
        cases r <;> simp [Flow.bind, Flow.done, Flow.prepend, tupleEncoder2]
        simp [tryEncode_ret_ok h0]

theorem tupleDecoder3_nested {σ0 α0 σ1 α1 σ2 α2 : Type}
    (D0 : Decoder σ0 α0) (D1 : Decoder σ1 α1) (D2 : Decoder σ2 α2) :
    tupleDecoder3 D0 D1 D2 = tupleDecoder2 D0 (tupleDecoder2 D1 D2) := by
  refine Decoder.ext' ?_ ?_ ?_ ?_
  · intro s buf e
    rw [pair_decode]
    simp only [tupleDecoder3, tryDecode_pair]
    rcases tryDecode D0 (s.1) 0 buf e with ⟨o0, t0⟩ | ⟨r, t0⟩ <;> simp only [Flow.bind, Flow.done]
    rcases tryDecode D1 (s.2.1) o0 buf e with ⟨o1, t1⟩ | ⟨r, t1⟩ <;> simp only [Flow.bind, Flow.done]
    rcases tryDecode D2 (s.2.2) o1 buf e with ⟨o2, t2⟩ | ⟨r, t2⟩ <;> simp only [Flow.bind, Flow.done]
  · intro s
    simp only [tupleDecoder3, tupleDecoder2, Res.step_step, Res.step_ok_eq]
  · intro s
    simp only [tupleDecoder3, tupleDecoder2, dec_assoc, dec_zero]
  · intro s
    simp only [tupleDecoder3, tupleDecoder2, Bool.and_assoc]

theorem tupleEncoder3_nested {σ0 α0 σ1 α1 σ2 α2 : Type}
    (E0 : Encoder σ0 α0) (E1 : Encoder σ1 α1) (E2 : Encoder σ2 α2) :
    tupleEncoder3 E0 E1 E2 = tupleEncoder2 E0 (tupleEncoder2 E1 E2) := by
  refine Encoder.ext' ?_ ?_ ?_ ?_
  · intro s cap e
    rw [pair_encode]
    simp only [tupleEncoder3, tryEncode_pair]
    rcases tryEncode E0 (s.1) [] cap e with ⟨o0, t0⟩ | ⟨r, t0⟩ <;> simp only [Flow.bind, Flow.done]
    rcases tryEncode E1 (s.2.1) o0 cap e with ⟨o1, t1⟩ | ⟨r, t1⟩ <;> simp only [Flow.bind, Flow.done]
    rcases tryEncode E2 (s.2.2) o1 cap e with ⟨o2, t2⟩ | ⟨r, t2⟩ <;> simp only [Flow.bind, Flow.done]
  · intro s x
    simp only [tupleEncoder3, tupleEncoder2, Res.step_step, Res.step_ok_eq]
  · intro s
    simp only [tupleEncoder3, tupleEncoder2, enc_assoc, enc_zero]
  · intro s
    simp only [tupleEncoder3, tupleEncoder2, Bool.and_assoc]

theorem sizedTupleEncoder3_nested {σ0 α0 σ1 α1 σ2 α2 : Type}
    (E0 : SizedEncoder σ0 α0) (E1 : SizedEncoder σ1 α1) (E2 : SizedEncoder σ2 α2) :
    sizedTupleEncoder3 E0 E1 E2 = sizedTupleEncoder2 E0 (sizedTupleEncoder2 E1 E2) := by
  simp only [sizedTupleEncoder3, sizedTupleEncoder2, tupleEncoder3_nested, SizedEncoder.mk.injEq,
    true_and]
  funext s
  omega

theorem tupleDecoder4_nested {σ0 α0 σ1 α1 σ2 α2 σ3 α3 : Type}
    (D0 : Decoder σ0 α0) (D1 : Decoder σ1 α1) (D2 : Decoder σ2 α2) (D3 : Decoder σ3 α3) :
    tupleDecoder4 D0 D1 D2 D3 = tupleDecoder2 D0 (tupleDecoder2 D1 (tupleDecoder2 D2 D3)) := by
  refine Decoder.ext' ?_ ?_ ?_ ?_
  · intro s buf e
    rw [pair_decode]
    simp only [tupleDecoder4, tryDecode_pair]
    rcases tryDecode D0 (s.1) 0 buf e with ⟨o0, t0⟩ | ⟨r, t0⟩ <;> simp only [Flow.bind, Flow.done]
    rcases tryDecode D1 (s.2.1) o0 buf e with ⟨o1, t1⟩ | ⟨r, t1⟩ <;> simp only [Flow.bind, Flow.done]
    rcases tryDecode D2 (s.2.2.1) o1 buf e with ⟨o2, t2⟩ | ⟨r, t2⟩ <;> simp only [Flow.bind, Flow.done]
    rcases tryDecode D3 (s.2.2.2) o2 buf e with ⟨o3, t3⟩ | ⟨r, t3⟩ <;> simp only [Flow.bind, Flow.done]
  · intro s
    simp only [tupleDecoder4, tupleDecoder2, Res.step_step, Res.step_ok_eq]
  · intro s
    simp only [tupleDecoder4, tupleDecoder2, dec_assoc, dec_zero]
  · intro s
    simp only [tupleDecoder4, tupleDecoder2, Bool.and_assoc]

theorem tupleEncoder4_nested {σ0 α0 σ1 α1 σ2 α2 σ3 α3 : Type}
    (E0 : Encoder σ0 α0) (E1 : Encoder σ1 α1) (E2 : Encoder σ2 α2) (E3 : Encoder σ3 α3) :
    tupleEncoder4 E0 E1 E2 E3 = tupleEncoder2 E0 (tupleEncoder2 E1 (tupleEncoder2 E2 E3)) := by
  refine Encoder.ext' ?_ ?_ ?_ ?_
  · intro s cap e
    rw [pair_encode]
    simp only [tupleEncoder4, tryEncode_pair]
    rcases tryEncode E0 (s.1) [] cap e with ⟨o0, t0⟩ | ⟨r, t0⟩ <;> simp only [Flow.bind, Flow.done]
    rcases tryEncode E1 (s.2.1) o0 cap e with ⟨o1, t1⟩ | ⟨r, t1⟩ <;> simp only [Flow.bind, Flow.done]
    rcases tryEncode E2 (s.2.2.1) o1 cap e with ⟨o2, t2⟩ | ⟨r, t2⟩ <;> simp only [Flow.bind, Flow.done]
    rcases tryEncode E3 (s.2.2.2) o2 cap e with ⟨o3, t3⟩ | ⟨r, t3⟩ <;> simp only [Flow.bind, Flow.done]
  · intro s x
    simp only [tupleEncoder4, tupleEncoder2, Res.step_step, Res.step_ok_eq]
  · intro s
    simp only [tupleEncoder4, tupleEncoder2, enc_assoc, enc_zero]
  · intro s
    simp only [tupleEncoder4, tupleEncoder2, Bool.and_assoc]

theorem sizedTupleEncoder4_nested {σ0 α0 σ1 α1 σ2 α2 σ3 α3 : Type}
    (E0 : SizedEncoder σ0 α0) (E1 : SizedEncoder σ1 α1) (E2 : SizedEncoder σ2 α2) (E3 : SizedEncoder σ3 α3) :
    sizedTupleEncoder4 E0 E1 E2 E3 = sizedTupleEncoder2 E0 (sizedTupleEncoder2 E1 (sizedTupleEncoder2 E2 E3)) := by
  simp only [sizedTupleEncoder4, sizedTupleEncoder2, tupleEncoder4_nested, SizedEncoder.mk.injEq,
    true_and]
  funext s
  omega

theorem tupleDecoder5_nested {σ0 α0 σ1 α1 σ2 α2 σ3 α3 σ4 α4 : Type}
    (D0 : Decoder σ0 α0) (D1 : Decoder σ1 α1) (D2 : Decoder σ2 α2) (D3 : Decoder σ3 α3) (D4 : Decoder σ4 α4) :
    tupleDecoder5 D0 D1 D2 D3 D4 = tupleDecoder2 D0 (tupleDecoder2 D1 (tupleDecoder2 D2 (tupleDecoder2 D3 D4))) := by
  refine Decoder.ext' ?_ ?_ ?_ ?_
  · intro s buf e
    rw [pair_decode]
    simp only [tupleDecoder5, tryDecode_pair]
    rcases tryDecode D0 (s.1) 0 buf e with ⟨o0, t0⟩ | ⟨r, t0⟩ <;> simp only [Flow.bind, Flow.done]
    rcases tryDecode D1 (s.2.1) o0 buf e with ⟨o1, t1⟩ | ⟨r, t1⟩ <;> simp only [Flow.bind, Flow.done]
    rcases tryDecode D2 (s.2.2.1) o1 buf e with ⟨o2, t2⟩ | ⟨r, t2⟩ <;> simp only [Flow.bind, Flow.done]
    rcases tryDecode D3 (s.2.2.2.1) o2 buf e with ⟨o3, t3⟩ | ⟨r, t3⟩ <;> simp only [Flow.bind, Flow.done]
    rcases tryDecode D4 (s.2.2.2.2) o3 buf e with ⟨o4, t4⟩ | ⟨r, t4⟩ <;> simp only [Flow.bind, Flow.done]
  · intro s
    simp only [tupleDecoder5, tupleDecoder2, Res.step_step, Res.step_ok_eq]
  · intro s
    simp only [tupleDecoder5, tupleDecoder2, dec_assoc, dec_zero]
  · intro s
    simp only [tupleDecoder5, tupleDecoder2, Bool.and_assoc]

theorem tupleEncoder5_nested {σ0 α0 σ1 α1 σ2 α2 σ3 α3 σ4 α4 : Type}
    (E0 : Encoder σ0 α0) (E1 : Encoder σ1 α1) (E2 : Encoder σ2 α2) (E3 : Encoder σ3 α3) (E4 : Encoder σ4 α4) :
    tupleEncoder5 E0 E1 E2 E3 E4 = tupleEncoder2 E0 (tupleEncoder2 E1 (tupleEncoder2 E2 (tupleEncoder2 E3 E4))) := by
  refine Encoder.ext' ?_ ?_ ?_ ?_
  · intro s cap e
    rw [pair_encode]
    simp only [tupleEncoder5, tryEncode_pair]
    rcases tryEncode E0 (s.1) [] cap e with ⟨o0, t0⟩ | ⟨r, t0⟩ <;> simp only [Flow.bind, Flow.done]
    rcases tryEncode E1 (s.2.1) o0 cap e with ⟨o1, t1⟩ | ⟨r, t1⟩ <;> simp only [Flow.bind, Flow.done]
    rcases tryEncode E2 (s.2.2.1) o1 cap e with ⟨o2, t2⟩ | ⟨r, t2⟩ <;> simp only [Flow.bind, Flow.done]
    rcases tryEncode E3 (s.2.2.2.1) o2 cap e with ⟨o3, t3⟩ | ⟨r, t3⟩ <;> simp only [Flow.bind, Flow.done]
    rcases tryEncode E4 (s.2.2.2.2) o3 cap e with ⟨o4, t4⟩ | ⟨r, t4⟩ <;> simp only [Flow.bind, Flow.done]
  · intro s x
    simp only [tupleEncoder5, tupleEncoder2, Res.step_step, Res.step_ok_eq]
  · intro s
    simp only [tupleEncoder5, tupleEncoder2, enc_assoc, enc_zero]
  · intro s
    simp only [tupleEncoder5, tupleEncoder2, Bool.and_assoc]

theorem sizedTupleEncoder5_nested {σ0 α0 σ1 α1 σ2 α2 σ3 α3 σ4 α4 : Type}
    (E0 : SizedEncoder σ0 α0) (E1 : SizedEncoder σ1 α1) (E2 : SizedEncoder σ2 α2) (E3 : SizedEncoder σ3 α3) (E4 : SizedEncoder σ4 α4) :
    sizedTupleEncoder5 E0 E1 E2 E3 E4 = sizedTupleEncoder2 E0 (sizedTupleEncoder2 E1 (sizedTupleEncoder2 E2 (sizedTupleEncoder2 E3 E4))) := by
  simp only [sizedTupleEncoder5, sizedTupleEncoder2, tupleEncoder5_nested, SizedEncoder.mk.injEq,
    true_and]
  funext s
  omega

theorem tupleDecoder6_nested {σ0 α0 σ1 α1 σ2 α2 σ3 α3 σ4 α4 σ5 α5 : Type}
    (D0 : Decoder σ0 α0) (D1 : Decoder σ1 α1) (D2 : Decoder σ2 α2) (D3 : Decoder σ3 α3) (D4 : Decoder σ4 α4) (D5 : Decoder σ5 α5) :
    tupleDecoder6 D0 D1 D2 D3 D4 D5 = tupleDecoder2 D0 (tupleDecoder2 D1 (tupleDecoder2 D2 (tupleDecoder2 D3 (tupleDecoder2 D4 D5)))) := by
  refine Decoder.ext' ?_ ?_ ?_ ?_
  · intro s buf e
    rw [pair_decode]
    simp only [tupleDecoder6, tryDecode_pair]
    rcases tryDecode D0 (s.1) 0 buf e with ⟨o0, t0⟩ | ⟨r, t0⟩ <;> simp only [Flow.bind, Flow.done]
    rcases tryDecode D1 (s.2.1) o0 buf e with ⟨o1, t1⟩ | ⟨r, t1⟩ <;> simp only [Flow.bind, Flow.done]
    rcases tryDecode D2 (s.2.2.1) o1 buf e with ⟨o2, t2⟩ | ⟨r, t2⟩ <;> simp only [Flow.bind, Flow.done]
    rcases tryDecode D3 (s.2.2.2.1) o2 buf e with ⟨o3, t3⟩ | ⟨r, t3⟩ <;> simp only [Flow.bind, Flow.done]
    rcases tryDecode D4 (s.2.2.2.2.1) o3 buf e with ⟨o4, t4⟩ | ⟨r, t4⟩ <;> simp only [Flow.bind, Flow.done]
    rcases tryDecode D5 (s.2.2.2.2.2) o4 buf e with ⟨o5, t5⟩ | ⟨r, t5⟩ <;> simp only [Flow.bind, Flow.done]
  · intro s
    simp only [tupleDecoder6, tupleDecoder2, Res.step_step, Res.step_ok_eq]
  · intro s
    simp only [tupleDecoder6, tupleDecoder2, dec_assoc, dec_zero]
  · intro s
    simp only [tupleDecoder6, tupleDecoder2, Bool.and_assoc]

theorem tupleEncoder6_nested {σ0 α0 σ1 α1 σ2 α2 σ3 α3 σ4 α4 σ5 α5 : Type}
    (E0 : Encoder σ0 α0) (E1 : Encoder σ1 α1) (E2 : Encoder σ2 α2) (E3 : Encoder σ3 α3) (E4 : Encoder σ4 α4) (E5 : Encoder σ5 α5) :
    tupleEncoder6 E0 E1 E2 E3 E4 E5 = tupleEncoder2 E0 (tupleEncoder2 E1 (tupleEncoder2 E2 (tupleEncoder2 E3 (tupleEncoder2 E4 E5)))) := by
  refine Encoder.ext' ?_ ?_ ?_ ?_
  · intro s cap e
    rw [pair_encode]
    simp only [tupleEncoder6, tryEncode_pair]
    rcases tryEncode E0 (s.1) [] cap e with ⟨o0, t0⟩ | ⟨r, t0⟩ <;> simp only [Flow.bind, Flow.done]
    rcases tryEncode E1 (s.2.1) o0 cap e with ⟨o1, t1⟩ | ⟨r, t1⟩ <;> simp only [Flow.bind, Flow.done]
    rcases tryEncode E2 (s.2.2.1) o1 cap e with ⟨o2, t2⟩ | ⟨r, t2⟩ <;> simp only [Flow.bind, Flow.done]
    rcases tryEncode E3 (s.2.2.2.1) o2 cap e with ⟨o3, t3⟩ | ⟨r, t3⟩ <;> simp only [Flow.bind, Flow.done]
    rcases tryEncode E4 (s.2.2.2.2.1) o3 cap e with ⟨o4, t4⟩ | ⟨r, t4⟩ <;> simp only [Flow.bind, Flow.done]
    rcases tryEncode E5 (s.2.2.2.2.2) o4 cap e with ⟨o5, t5⟩ | ⟨r, t5⟩ <;> simp only [Flow.bind, Flow.done]
  · intro s x
    simp only [tupleEncoder6, tupleEncoder2, Res.step_step, Res.step_ok_eq]
  · intro s
    simp only [tupleEncoder6, tupleEncoder2, enc_assoc, enc_zero]
  · intro s
    simp only [tupleEncoder6, tupleEncoder2, Bool.and_assoc]

theorem sizedTupleEncoder6_nested {σ0 α0 σ1 α1 σ2 α2 σ3 α3 σ4 α4 σ5 α5 : Type}
    (E0 : SizedEncoder σ0 α0) (E1 : SizedEncoder σ1 α1) (E2 : SizedEncoder σ2 α2) (E3 : SizedEncoder σ3 α3) (E4 : SizedEncoder σ4 α4) (E5 : SizedEncoder σ5 α5) :
    sizedTupleEncoder6 E0 E1 E2 E3 E4 E5 = sizedTupleEncoder2 E0 (sizedTupleEncoder2 E1 (sizedTupleEncoder2 E2 (sizedTupleEncoder2 E3 (sizedTupleEncoder2 E4 E5)))) := by
  simp only [sizedTupleEncoder6, sizedTupleEncoder2, tupleEncoder6_nested, SizedEncoder.mk.injEq,
    true_and]
  funext s
  omega

theorem tupleDecoder7_nested {σ0 α0 σ1 α1 σ2 α2 σ3 α3 σ4 α4 σ5 α5 σ6 α6 : Type}
    (D0 : Decoder σ0 α0) (D1 : Decoder σ1 α1) (D2 : Decoder σ2 α2) (D3 : Decoder σ3 α3) (D4 : Decoder σ4 α4) (D5 : Decoder σ5 α5) (D6 : Decoder σ6 α6) :
    tupleDecoder7 D0 D1 D2 D3 D4 D5 D6 = tupleDecoder2 D0 (tupleDecoder2 D1 (tupleDecoder2 D2 (tupleDecoder2 D3 (tupleDecoder2 D4 (tupleDecoder2 D5 D6))))) := by
  refine Decoder.ext' ?_ ?_ ?_ ?_
  · intro s buf e
    rw [pair_decode]
    simp only [tupleDecoder7, tryDecode_pair]
    rcases tryDecode D0 (s.1) 0 buf e with ⟨o0, t0⟩ | ⟨r, t0⟩ <;> simp only [Flow.bind, Flow.done]
    rcases tryDecode D1 (s.2.1) o0 buf e with ⟨o1, t1⟩ | ⟨r, t1⟩ <;> simp only [Flow.bind, Flow.done]
    rcases tryDecode D2 (s.2.2.1) o1 buf e with ⟨o2, t2⟩ | ⟨r, t2⟩ <;> simp only [Flow.bind, Flow.done]
    rcases tryDecode D3 (s.2.2.2.1) o2 buf e with ⟨o3, t3⟩ | ⟨r, t3⟩ <;> simp only [Flow.bind, Flow.done]
    rcases tryDecode D4 (s.2.2.2.2.1) o3 buf e with ⟨o4, t4⟩ | ⟨r, t4⟩ <;> simp only [Flow.bind, Flow.done]
    rcases tryDecode D5 (s.2.2.2.2.2.1) o4 buf e with ⟨o5, t5⟩ | ⟨r, t5⟩ <;> simp only [Flow.bind, Flow.done]
    rcases tryDecode D6 (s.2.2.2.2.2.2) o5 buf e with ⟨o6, t6⟩ | ⟨r, t6⟩ <;> simp only [Flow.bind, Flow.done]
  · intro s
    simp only [tupleDecoder7, tupleDecoder2, Res.step_step, Res.step_ok_eq]
  · intro s
    simp only [tupleDecoder7, tupleDecoder2, dec_assoc, dec_zero]
  · intro s
    simp only [tupleDecoder7, tupleDecoder2, Bool.and_assoc]

theorem tupleEncoder7_nested {σ0 α0 σ1 α1 σ2 α2 σ3 α3 σ4 α4 σ5 α5 σ6 α6 : Type}
    (E0 : Encoder σ0 α0) (E1 : Encoder σ1 α1) (E2 : Encoder σ2 α2) (E3 : Encoder σ3 α3) (E4 : Encoder σ4 α4) (E5 : Encoder σ5 α5) (E6 : Encoder σ6 α6) :
    tupleEncoder7 E0 E1 E2 E3 E4 E5 E6 = tupleEncoder2 E0 (tupleEncoder2 E1 (tupleEncoder2 E2 (tupleEncoder2 E3 (tupleEncoder2 E4 (tupleEncoder2 E5 E6))))) := by
  refine Encoder.ext' ?_ ?_ ?_ ?_
  · intro s cap e
    rw [pair_encode]
    simp only [tupleEncoder7, tryEncode_pair]
    rcases tryEncode E0 (s.1) [] cap e with ⟨o0, t0⟩ | ⟨r, t0⟩ <;> simp only [Flow.bind, Flow.done]
    rcases tryEncode E1 (s.2.1) o0 cap e with ⟨o1, t1⟩ | ⟨r, t1⟩ <;> simp only [Flow.bind, Flow.done]
    rcases tryEncode E2 (s.2.2.1) o1 cap e with ⟨o2, t2⟩ | ⟨r, t2⟩ <;> simp only [Flow.bind, Flow.done]
    rcases tryEncode E3 (s.2.2.2.1) o2 cap e with ⟨o3, t3⟩ | ⟨r, t3⟩ <;> simp only [Flow.bind, Flow.done]
    rcases tryEncode E4 (s.2.2.2.2.1) o3 cap e with ⟨o4, t4⟩ | ⟨r, t4⟩ <;> simp only [Flow.bind, Flow.done]
    rcases tryEncode E5 (s.2.2.2.2.2.1) o4 cap e with ⟨o5, t5⟩ | ⟨r, t5⟩ <;> simp only [Flow.bind, Flow.done]
    rcases tryEncode E6 (s.2.2.2.2.2.2) o5 cap e with ⟨o6, t6⟩ | ⟨r, t6⟩ <;> simp only [Flow.bind, Flow.done]
  · intro s x
    simp only [tupleEncoder7, tupleEncoder2, Res.step_step, Res.step_ok_eq]
  · intro s
    simp only [tupleEncoder7, tupleEncoder2, enc_assoc, enc_zero]
  · intro s
    simp only [tupleEncoder7, tupleEncoder2, Bool.and_assoc]

theorem sizedTupleEncoder7_nested {σ0 α0 σ1 α1 σ2 α2 σ3 α3 σ4 α4 σ5 α5 σ6 α6 : Type}
    (E0 : SizedEncoder σ0 α0) (E1 : SizedEncoder σ1 α1) (E2 : SizedEncoder σ2 α2) (E3 : SizedEncoder σ3 α3) (E4 : SizedEncoder σ4 α4) (E5 : SizedEncoder σ5 α5) (E6 : SizedEncoder σ6 α6) :
    sizedTupleEncoder7 E0 E1 E2 E3 E4 E5 E6 = sizedTupleEncoder2 E0 (sizedTupleEncoder2 E1 (sizedTupleEncoder2 E2 (sizedTupleEncoder2 E3 (sizedTupleEncoder2 E4 (sizedTupleEncoder2 E5 E6))))) := by
  simp only [sizedTupleEncoder7, sizedTupleEncoder2, tupleEncoder7_nested, SizedEncoder.mk.injEq,
    true_and]
  funext s
  omega

theorem tupleDecoder8_nested {σ0 α0 σ1 α1 σ2 α2 σ3 α3 σ4 α4 σ5 α5 σ6 α6 σ7 α7 : Type}
    (D0 : Decoder σ0 α0) (D1 : Decoder σ1 α1) (D2 : Decoder σ2 α2) (D3 : Decoder σ3 α3) (D4 : Decoder σ4 α4) (D5 : Decoder σ5 α5) (D6 : Decoder σ6 α6) (D7 : Decoder σ7 α7) :
    tupleDecoder8 D0 D1 D2 D3 D4 D5 D6 D7 = tupleDecoder2 D0 (tupleDecoder2 D1 (tupleDecoder2 D2 (tupleDecoder2 D3 (tupleDecoder2 D4 (tupleDecoder2 D5 (tupleDecoder2 D6 D7)))))) := by
  refine Decoder.ext' ?_ ?_ ?_ ?_
  · intro s buf e
    rw [pair_decode]
    simp only [tupleDecoder8, tryDecode_pair]
    rcases tryDecode D0 (s.1) 0 buf e with ⟨o0, t0⟩ | ⟨r, t0⟩ <;> simp only [Flow.bind, Flow.done]
    rcases tryDecode D1 (s.2.1) o0 buf e with ⟨o1, t1⟩ | ⟨r, t1⟩ <;> simp only [Flow.bind, Flow.done]
    rcases tryDecode D2 (s.2.2.1) o1 buf e with ⟨o2, t2⟩ | ⟨r, t2⟩ <;> simp only [Flow.bind, Flow.done]
    rcases tryDecode D3 (s.2.2.2.1) o2 buf e with ⟨o3, t3⟩ | ⟨r, t3⟩ <;> simp only [Flow.bind, Flow.done]
    rcases tryDecode D4 (s.2.2.2.2.1) o3 buf e with ⟨o4, t4⟩ | ⟨r, t4⟩ <;> simp only [Flow.bind, Flow.done]
    rcases tryDecode D5 (s.2.2.2.2.2.1) o4 buf e with ⟨o5, t5⟩ | ⟨r, t5⟩ <;> simp only [Flow.bind, Flow.done]
    rcases tryDecode D6 (s.2.2.2.2.2.2.1) o5 buf e with ⟨o6, t6⟩ | ⟨r, t6⟩ <;> simp only [Flow.bind, Flow.done]
    rcases tryDecode D7 (s.2.2.2.2.2.2.2) o6 buf e with ⟨o7, t7⟩ | ⟨r, t7⟩ <;> simp only [Flow.bind, Flow.done]
  · intro s
    simp only [tupleDecoder8, tupleDecoder2, Res.step_step, Res.step_ok_eq]
  · intro s
    simp only [tupleDecoder8, tupleDecoder2, dec_assoc, dec_zero]
  · intro s
    simp only [tupleDecoder8, tupleDecoder2, Bool.and_assoc]

theorem tupleEncoder8_nested {σ0 α0 σ1 α1 σ2 α2 σ3 α3 σ4 α4 σ5 α5 σ6 α6 σ7 α7 : Type}
    (E0 : Encoder σ0 α0) (E1 : Encoder σ1 α1) (E2 : Encoder σ2 α2) (E3 : Encoder σ3 α3) (E4 : Encoder σ4 α4) (E5 : Encoder σ5 α5) (E6 : Encoder σ6 α6) (E7 : Encoder σ7 α7) :
    tupleEncoder8 E0 E1 E2 E3 E4 E5 E6 E7 = tupleEncoder2 E0 (tupleEncoder2 E1 (tupleEncoder2 E2 (tupleEncoder2 E3 (tupleEncoder2 E4 (tupleEncoder2 E5 (tupleEncoder2 E6 E7)))))) := by
  refine Encoder.ext' ?_ ?_ ?_ ?_
  · intro s cap e
    rw [pair_encode]
    simp only [tupleEncoder8, tryEncode_pair]
    rcases tryEncode E0 (s.1) [] cap e with ⟨o0, t0⟩ | ⟨r, t0⟩ <;> simp only [Flow.bind, Flow.done]
    rcases tryEncode E1 (s.2.1) o0 cap e with ⟨o1, t1⟩ | ⟨r, t1⟩ <;> simp only [Flow.bind, Flow.done]
    rcases tryEncode E2 (s.2.2.1) o1 cap e with ⟨o2, t2⟩ | ⟨r, t2⟩ <;> simp only [Flow.bind, Flow.done]
    rcases tryEncode E3 (s.2.2.2.1) o2 cap e with ⟨o3, t3⟩ | ⟨r, t3⟩ <;> simp only [Flow.bind, Flow.done]
    rcases tryEncode E4 (s.2.2.2.2.1) o3 cap e with ⟨o4, t4⟩ | ⟨r, t4⟩ <;> simp only [Flow.bind, Flow.done]
    rcases tryEncode E5 (s.2.2.2.2.2.1) o4 cap e with ⟨o5, t5⟩ | ⟨r, t5⟩ <;> simp only [Flow.bind, Flow.done]
    rcases tryEncode E6 (s.2.2.2.2.2.2.1) o5 cap e with ⟨o6, t6⟩ | ⟨r, t6⟩ <;> simp only [Flow.bind, Flow.done]
    rcases tryEncode E7 (s.2.2.2.2.2.2.2) o6 cap e with ⟨o7, t7⟩ | ⟨r, t7⟩ <;> simp only [Flow.bind, Flow.done]
  · intro s x
    simp only [tupleEncoder8, tupleEncoder2, Res.step_step, Res.step_ok_eq]
  · intro s
    simp only [tupleEncoder8, tupleEncoder2, enc_assoc, enc_zero]
  · intro s
    simp only [tupleEncoder8, tupleEncoder2, Bool.and_assoc]

theorem sizedTupleEncoder8_nested {σ0 α0 σ1 α1 σ2 α2 σ3 α3 σ4 α4 σ5 α5 σ6 α6 σ7 α7 : Type}
    (E0 : SizedEncoder σ0 α0) (E1 : SizedEncoder σ1 α1) (E2 : SizedEncoder σ2 α2) (E3 : SizedEncoder σ3 α3) (E4 : SizedEncoder σ4 α4) (E5 : SizedEncoder σ5 α5) (E6 : SizedEncoder σ6 α6) (E7 : SizedEncoder σ7 α7) :
    sizedTupleEncoder8 E0 E1 E2 E3 E4 E5 E6 E7 = sizedTupleEncoder2 E0 (sizedTupleEncoder2 E1 (sizedTupleEncoder2 E2 (sizedTupleEncoder2 E3 (sizedTupleEncoder2 E4 (sizedTupleEncoder2 E5 (sizedTupleEncoder2 E6 E7)))))) := by
  simp only [sizedTupleEncoder8, sizedTupleEncoder2, tupleEncoder8_nested, SizedEncoder.mk.injEq,
    true_and]
  funext s
  omega

end Bytecodec
