"""Generate lean/Verif/Lemmas/TupleNested.lean (the arities 3 to 8 follow one pattern)."""
import os
out = '''import Verif.Model.Tuple
/-!
# Tuples of arity 3 to 8 are nested pairs
(Generated by tools/gen_nested.py.)
-/
namespace Bytecodec

set_option linter.unusedSimpArgs false

variable {σ α : Type}

theorem dec_assoc (x y z : ByteCount) :
    (x.addForDecoding y).addForDecoding z = x.addForDecoding (y.addForDecoding z) := by
  rcases x with (_ | a) | _ | _ <;> rcases y with (_ | b) | _ | _ <;> rcases z with (_ | c) | _ | _ <;>
    simp [ByteCount.addForDecoding] <;> omega

theorem dec_zero (x : ByteCount) : (ByteCount.finite 0).addForDecoding x = x := by
  rcases x with (_ | a) | _ | _ <;> simp [ByteCount.addForDecoding]

theorem enc_assoc (x y z : ByteCount) :
    (x.addForEncoding y).addForEncoding z = x.addForEncoding (y.addForEncoding z) := by
  cases x <;> cases y <;> cases z <;> simp [ByteCount.addForEncoding] <;> omega

theorem enc_zero (x : ByteCount) : (ByteCount.finite 0).addForEncoding x = x := by
  cases x <;> simp [ByteCount.addForEncoding]

/-- Two decoders with the same four methods are equal. -/
theorem Decoder.ext' {D E : Decoder σ α} (h1 : ∀ s b e, D.decode s b e = E.decode s b e)
    (h2 : ∀ s, D.finish s = E.finish s) (h3 : ∀ s, D.requiring s = E.requiring s)
    (h4 : ∀ s, D.isIdle s = E.isIdle s) : D = E := by
  cases D; cases E
  congr
  · funext s b e; exact h1 s b e
  · funext s; exact h2 s
  · funext s; exact h3 s
  · funext s; exact h4 s

/-- Two encoders with the same four methods are equal. -/
theorem Encoder.ext' {D E : Encoder σ α} (h1 : ∀ s b e, D.encode s b e = E.encode s b e)
    (h2 : ∀ s x, D.start s x = E.start s x) (h3 : ∀ s, D.requiring s = E.requiring s)
    (h4 : ∀ s, D.isIdle s = E.isIdle s) : D = E := by
  cases D; cases E
  congr
  · funext s b e; exact h1 s b e
  · funext s x; exact h2 s x
  · funext s; exact h3 s
  · funext s; exact h4 s

/-- Continue with `k` when the macro falls through, otherwise return. -/
def Flow.bind {ω σ τ : Type} (f : Flow ω σ) (w : σ → τ) (k : ω → σ → Flow ω τ) : Flow ω τ :=
  match f with
  | .next o s => k o s
  | .ret r s => .ret r (w s)

/-- The end of the function body: fall through with the offset, or return. -/
def Flow.done {ω σ : Type} : Flow ω σ → Res ω × σ
  | .next o s => (.ok o, s)
  | .ret r s => (r, s)

/-- Shift all offsets. -/
def Flow.shift {σ : Type} (k : Nat) : Flow Nat σ → Flow Nat σ
  | .next o s => .next (k + o) s
  | .ret (.ok n) s => .ret (.ok (k + n)) s
  | .ret r s => .ret r s

theorem Res.step_step {α β γ σ τ υ : Type} (p : Res α × σ) (w : σ → τ) (k : α → σ → Res β × τ)
    (w' : τ → υ) (k' : β → τ → Res γ × υ) :
    Res.step (Res.step p w k) w' k' =
      Res.step p (fun s => w' (w s)) fun a s => Res.step (k a s) w' k' := by
  rcases p with ⟨r, s⟩
  cases r <;> rfl

theorem Res.step_ok_eq {α β σ τ : Type} (a : α) (s : σ) (w : σ → τ) (k : α → σ → Res β × τ) :
    Res.step (.ok a, s) w k = k a s := rfl

theorem tryDecode_shift (D : Decoder σ α) (s : σ) (off k : Nat) (buf : Bytes) (e : Eos)
    (h : off ≤ buf.length) :
    tryDecode D s (off + k) buf e = (tryDecode D s k (buf.drop off) e).shift off := by
  unfold tryDecode
  split
  · rfl
  · simp only [List.length_drop, List.drop_drop]
    by_cases hk : buf.length < off + k
    · rw [if_pos hk, if_pos (by omega)]; rfl
    · rw [if_neg hk, if_neg (by omega)]
      rcases D.decode s (buf.drop (off + k)) e with ⟨r, s'⟩
      cases r with
      | ok n => simp only; split <;> simp [Flow.shift, Nat.add_assoc]
      | _ => rfl

theorem pair_decode {σ0 α0 σ1 α1 : Type} (D0 : Decoder σ0 α0) (D1 : Decoder σ1 α1) (s : σ0 × σ1)
    (buf : Bytes) (e : Eos) :
    (tupleDecoder2 D0 D1).decode s buf e =
      ((tryDecode D0 s.1 0 buf e).bind (fun t => (t, s.2)) fun o t =>
        (tryDecode D1 s.2 o buf e).bind (fun u => (t, u)) fun o' u => .next o' (t, u)).done := by
  simp only [tupleDecoder2]
  rcases tryDecode D0 s.1 0 buf e with ⟨o, t⟩ | ⟨r, t⟩ <;> simp only [Flow.bind, Flow.done]
  rcases tryDecode D1 s.2 o buf e with ⟨o', u⟩ | ⟨r, u⟩ <;> simp only [Flow.bind, Flow.done]

theorem tryDecode_next_isIdle {D : Decoder σ α} {s t : σ} {off o : Nat} {buf : Bytes} {e : Eos}
    (h : tryDecode D s off buf e = .next o t) : D.isIdle t = true := by
  unfold tryDecode at h
  split at h
  · cases h; assumption
  · split at h
    · cases h
    · split at h
      · split at h
        · cases h; assumption
        · cases h
      all_goals cases h

theorem tryDecode_ret_ok {D : Decoder σ α} {s t : σ} {off n : Nat} {buf : Bytes} {e : Eos}
    (h : tryDecode D s off buf e = .ret (.ok n) t) : D.isIdle t = false := by
  unfold tryDecode at h
  split at h
  · cases h
  · split at h
    · cases h
    · split at h
      · split at h
        · cases h
        · next hi => cases h; simpa using hi
      all_goals cases h

/-- The macro applied to a pair is the macro applied to the components in turn. -/
theorem tryDecode_pair {σ0 α0 σ1 α1 : Type} (D0 : Decoder σ0 α0) (D1 : Decoder σ1 α1) (s : σ0 × σ1)
    (off : Nat) (buf : Bytes) (e : Eos) :
    tryDecode (tupleDecoder2 D0 D1) s off buf e =
      (tryDecode D0 s.1 off buf e).bind (fun t => (t, s.2)) fun o t =>
        (tryDecode D1 s.2 o buf e).bind (fun u => (t, u)) fun o' u => .next o' (t, u) := by
  by_cases hoff : buf.length < off
  · by_cases h0 : D0.isIdle s.1 = true
    · by_cases h1 : D1.isIdle s.2 = true
      · simp [tryDecode, h0, h1, Flow.bind, tupleDecoder2]
      · simp [tryDecode, h0, h1, Flow.bind, tupleDecoder2, hoff]
    · simp [tryDecode, h0, Flow.bind, tupleDecoder2, hoff]
  · have hoff' : off ≤ buf.length := by omega
    have e0 := tryDecode_shift D0 s.1 off 0 buf e hoff'
    rw [Nat.add_zero] at e0
    rw [e0]
    by_cases hi : (tupleDecoder2 D0 D1).isIdle s = true
    · have hi' : D0.isIdle s.1 = true ∧ D1.isIdle s.2 = true := by
        simpa [tupleDecoder2] using hi
      simp [tryDecode, hi'.1, hi'.2, Flow.bind, tupleDecoder2, Flow.shift]
    · rcases h0 : tryDecode D0 s.1 0 (buf.drop off) e with ⟨o, t⟩ | ⟨r, t⟩
      · simp only [Flow.bind, Flow.shift]
        rw [tryDecode_shift D1 s.2 off o buf e hoff']
        rcases h1 : tryDecode D1 s.2 o (buf.drop off) e with ⟨o', u⟩ | ⟨r, u⟩
        · rw [tryDecode, if_neg hi, if_neg hoff, pair_decode, h0]
          simp only [Flow.bind, h1]
          simp [Flow.done, Flow.shift, tupleDecoder2, tryDecode_next_isIdle h0, tryDecode_next_isIdle h1]
        · rw [tryDecode, if_neg hi, if_neg hoff, pair_decode, h0]
          simp only [Flow.bind, h1]
          cases r <;> simp [Flow.done, Flow.shift, tupleDecoder2]
          simp [tryDecode_ret_ok h1]
      · rw [tryDecode, if_neg hi, if_neg hoff, pair_decode, h0]
        cases r <;> simp [Flow.bind, Flow.done, Flow.shift, tupleDecoder2]
        simp [tryDecode_ret_ok h0]

/-- Put what was written before in front. -/
def Flow.prepend {σ : Type} (pre : Bytes) : Flow Bytes σ → Flow Bytes σ
  | .next o s => .next (pre ++ o) s
  | .ret (.ok n) s => .ret (.ok (pre ++ n)) s
  | .ret r s => .ret r s

theorem tryEncode_prepend (E : Encoder σ α) (s : σ) (pre out : Bytes) (cap : Nat) (e : Eos)
    (h : pre.length ≤ cap) :
    tryEncode E s (pre ++ out) cap e = (tryEncode E s out (cap - pre.length) e).prepend pre := by
  unfold tryEncode
  split
  · rfl
  · simp only [List.length_append, Nat.sub_sub]
    by_cases hk : cap < pre.length + out.length
    · rw [if_pos hk, if_pos (by omega)]; rfl
    · rw [if_neg hk, if_neg (by omega)]
      rcases E.encode s (cap - (pre.length + out.length)) e with ⟨r, s'⟩
      cases r with
      | ok n => simp only; split <;> simp [Flow.prepend, List.append_assoc]
      | _ => rfl

theorem pair_encode {σ0 α0 σ1 α1 : Type} (E0 : Encoder σ0 α0) (E1 : Encoder σ1 α1) (s : σ0 × σ1)
    (cap : Nat) (e : Eos) :
    (tupleEncoder2 E0 E1).encode s cap e =
      ((tryEncode E0 s.1 [] cap e).bind (fun t => (t, s.2)) fun o t =>
        (tryEncode E1 s.2 o cap e).bind (fun u => (t, u)) fun o' u => .next o' (t, u)).done := by
  simp only [tupleEncoder2]
  rcases tryEncode E0 s.1 [] cap e with ⟨o, t⟩ | ⟨r, t⟩ <;> simp only [Flow.bind, Flow.done]
  rcases tryEncode E1 s.2 o cap e with ⟨o', u⟩ | ⟨r, u⟩ <;> simp only [Flow.bind, Flow.done]

theorem tryEncode_next_isIdle {E : Encoder σ α} {s t : σ} {out o : Bytes} {cap : Nat} {e : Eos}
    (h : tryEncode E s out cap e = .next o t) : E.isIdle t = true := by
  unfold tryEncode at h
  split at h
  · cases h; assumption
  · split at h
    · cases h
    · split at h
      · split at h
        · cases h; assumption
        · cases h
      all_goals cases h

theorem tryEncode_ret_ok {E : Encoder σ α} {s t : σ} {out n : Bytes} {cap : Nat} {e : Eos}
    (h : tryEncode E s out cap e = .ret (.ok n) t) : E.isIdle t = false := by
  unfold tryEncode at h
  split at h
  · cases h
  · split at h
    · cases h
    · split at h
      · split at h
        · cases h
        · next hi => cases h; simpa using hi
      all_goals cases h

theorem tryEncode_pair {σ0 α0 σ1 α1 : Type} (E0 : Encoder σ0 α0) (E1 : Encoder σ1 α1) (s : σ0 × σ1)
    (out : Bytes) (cap : Nat) (e : Eos) :
    tryEncode (tupleEncoder2 E0 E1) s out cap e =
      (tryEncode E0 s.1 out cap e).bind (fun t => (t, s.2)) fun o t =>
        (tryEncode E1 s.2 o cap e).bind (fun u => (t, u)) fun o' u => .next o' (t, u) := by
  by_cases hoff : cap < out.length
  · by_cases h0 : E0.isIdle s.1 = true
    · by_cases h1 : E1.isIdle s.2 = true
      · simp [tryEncode, h0, h1, Flow.bind, tupleEncoder2]
      · simp [tryEncode, h0, h1, Flow.bind, tupleEncoder2, hoff]
    · simp [tryEncode, h0, Flow.bind, tupleEncoder2, hoff]
  · have hoff' : out.length ≤ cap := by omega
    have e0 := tryEncode_prepend E0 s.1 out [] cap e hoff'
    rw [List.append_nil] at e0
    rw [e0]
    by_cases hi : (tupleEncoder2 E0 E1).isIdle s = true
    · have hi' : E0.isIdle s.1 = true ∧ E1.isIdle s.2 = true := by
        simpa [tupleEncoder2] using hi
      simp [tryEncode, hi'.1, hi'.2, Flow.bind, tupleEncoder2, Flow.prepend]
    · rcases h0 : tryEncode E0 s.1 [] (cap - out.length) e with ⟨o, t⟩ | ⟨r, t⟩
      · simp only [Flow.bind, Flow.prepend]
        rw [tryEncode_prepend E1 s.2 out o cap e hoff']
        rcases h1 : tryEncode E1 s.2 o (cap - out.length) e with ⟨o', u⟩ | ⟨r, u⟩
        · rw [tryEncode, if_neg hi, if_neg hoff, pair_encode, h0]
          simp only [Flow.bind, h1]
          simp [Flow.done, Flow.prepend, tupleEncoder2, tryEncode_next_isIdle h0, tryEncode_next_isIdle h1]
        · rw [tryEncode, if_neg hi, if_neg hoff, pair_encode, h0]
          simp only [Flow.bind, h1]
          cases r <;> simp [Flow.done, Flow.prepend, tupleEncoder2]
          simp [tryEncode_ret_ok h1]
      · rw [tryEncode, if_neg hi, if_neg hoff, pair_encode, h0]
        cases r <;> simp [Flow.bind, Flow.done, Flow.prepend, tupleEncoder2]
        simp [tryEncode_ret_ok h0]

'''
def nest(op, xs):
    if len(xs) == 2: return f'{op}2 {xs[0]} {xs[1]}'
    return f'{op}2 {xs[0]} ({nest(op, xs[1:])})'
for n in range(3, 9):
    ty = ' '.join(f'σ{i} α{i}' for i in range(n))
    ds = [f'D{i}' for i in range(n)]
    es = [f'E{i}' for i in range(n)]
    db = ' '.join(f'(D{i} : Decoder σ{i} α{i})' for i in range(n))
    eb = ' '.join(f'(E{i} : Encoder σ{i} α{i})' for i in range(n))
    sb = ' '.join(f'(E{i} : SizedEncoder σ{i} α{i})' for i in range(n))
    def proj(i): return 's' + '.2' * i + ('.1' if i < n - 1 else '')
    def cases(fn, X, zero):
        r, off = '', zero
        for i in range(n):
            r += f'    rcases {fn} {X}{i} ({proj(i)}) {off} {"buf" if X=="D" else "cap"} e with ⟨o{i}, t{i}⟩ | ⟨r, t{i}⟩ <;> simp only [Flow.bind, Flow.done]\n'
            off = f'o{i}'
        return r
    inner = '' if n == 3 else f' tupleDecoder{n-1}_nested,'
    out += f'''theorem tupleDecoder{n}_nested {{{ty} : Type}}
    {db} :
    tupleDecoder{n} {' '.join(ds)} = {nest('tupleDecoder', ds)} := by
  refine Decoder.ext' ?_ ?_ ?_ ?_
  · intro s buf e
    rw [pair_decode]
    simp only [tupleDecoder{n}, tryDecode_pair]
{cases('tryDecode','D','0')}  · intro s
    simp only [tupleDecoder{n}, tupleDecoder2, Res.step_step, Res.step_ok_eq]
  · intro s
    simp only [tupleDecoder{n}, tupleDecoder2, dec_assoc, dec_zero]
  · intro s
    simp only [tupleDecoder{n}, tupleDecoder2, Bool.and_assoc]

theorem tupleEncoder{n}_nested {{{ty} : Type}}
    {eb} :
    tupleEncoder{n} {' '.join(es)} = {nest('tupleEncoder', es)} := by
  refine Encoder.ext' ?_ ?_ ?_ ?_
  · intro s cap e
    rw [pair_encode]
    simp only [tupleEncoder{n}, tryEncode_pair]
{cases('tryEncode','E','[]')}  · intro s x
    simp only [tupleEncoder{n}, tupleEncoder2, Res.step_step, Res.step_ok_eq]
  · intro s
    simp only [tupleEncoder{n}, tupleEncoder2, enc_assoc, enc_zero]
  · intro s
    simp only [tupleEncoder{n}, tupleEncoder2, Bool.and_assoc]

theorem sizedTupleEncoder{n}_nested {{{ty} : Type}}
    {sb} :
    sizedTupleEncoder{n} {' '.join(es)} = {nest('sizedTupleEncoder', es)} := by
  simp only [sizedTupleEncoder{n}, sizedTupleEncoder2, tupleEncoder{n}_nested, SizedEncoder.mk.injEq,
    true_and]
  funext s
  omega

'''
out += 'end Bytecodec\n'
open(os.path.join(os.path.dirname(__file__), '..', 'lean', 'Verif', 'Lemmas', 'TupleNested.lean'), 'w').write(out)
