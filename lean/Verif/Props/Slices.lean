import Verif.Model.Access
import Verif.Lemmas.Slice
import Verif.Lemmas.CodesIo
import Verif.Lemmas.Matched
import Verif.Lemmas.Numbers
/-!
# C32: slice
-/
namespace Bytecodec.Props

open Bytecodec Bytecodec.Spec

variable {σ σ0 σ1 α α0 α1 : Type}

/-! ## The allowance -/

/-- C32: since the last `set_consumable_bytes(n)` the decoder has consumed at most `n` bytes, and
`consumable_bytes` is `n` minus what was reported consumed. For every inner decoder and history. -/
theorem C32_allowance_decoder {D : Decoder σ α} {n : Nat} {s : SliceState σ} {c : Nat} (h : SpentDec D n s c) :
    c ≤ n ∧ s.consumableBytes = n - c := by
  show c ≤ n ∧ s.consumable = n - c
  induction h with
  | set s => exact ⟨Nat.zero_le _, rfl⟩
  | decoded _ hd ih =>
    obtain ⟨_, _, _, h1, h2⟩ := slice_decode_ok hd
    omega
  | failed _ hd hr ih =>
    have := slice_decode_failed hd hr
    omega
  | finish _ ih => rw [slice_finish]; exact ih

/-- C32: the same for encoders and the bytes produced. -/
theorem C32_allowance_encoder {E : Encoder σ α} {n : Nat} {s : SliceState σ} {c : Nat} (h : SpentEnc E n s c) :
    c ≤ n ∧ s.consumableBytes = n - c := by
  show c ≤ n ∧ s.consumable = n - c
  induction h with
  | set s => exact ⟨Nat.zero_le _, rfl⟩
  | encoded _ hd ih =>
    obtain ⟨_, _, _, h1, h2⟩ := slice_encode_ok hd
    omega
  | failed _ hd hr ih =>
    have := slice_encode_failed hd hr
    omega
  | start x _ ih => rw [slice_start]; exact ih

/-- C32: `is_suspended` tells when the allowance is used up; then no byte is consumed until it is set again. -/
theorem C32_suspended_decoder {D : Decoder σ α} {n : Nat} {s : SliceState σ} {c : Nat} (h : SpentDec D n s c) :
    (s.isSuspended = true ↔ c = n) ∧
    (s.isSuspended = true → ∀ b e k s', (sliceDecoder D).decode s b e = (.ok k, s') → k = 0) := by
  have hc : c ≤ n ∧ s.consumable = n - c := C32_allowance_decoder h
  have hs : s.isSuspended = true ↔ s.consumable = 0 := by simp [SliceState.isSuspended]
  refine ⟨by rw [hs]; omega, fun hz b e k s' hd => ?_⟩
  have : c + k ≤ n ∧ s'.consumable = n - (c + k) := C32_allowance_decoder (.decoded h hd)
  have := hs.1 hz
  omega

/-- C32: the same for encoders. -/
theorem C32_suspended_encoder {E : Encoder σ α} {n : Nat} {s : SliceState σ} {c : Nat} (h : SpentEnc E n s c) :
    (s.isSuspended = true ↔ c = n) ∧
    (s.isSuspended = true → ∀ cap e bs s', (sliceEncoder E).encode s cap e = (.ok bs, s') → bs = []) := by
  have hc : c ≤ n ∧ s.consumable = n - c := C32_allowance_encoder h
  have hs : s.isSuspended = true ↔ s.consumable = 0 := by simp [SliceState.isSuspended]
  refine ⟨by rw [hs]; omega, fun hz cap e bs s' hd => List.length_eq_zero_iff.1 ?_⟩
  have : c + bs.length ≤ n ∧ s'.consumable = n - (c + bs.length) := C32_allowance_encoder (.encoded h hd)
  have := hs.1 hz
  omega

/-- A number of two bytes with an allowance of one. -/
example : SpentDec u16beDecoder 1 ⟨⟨[7, 0], 1⟩, 0⟩ 1 :=
  .decoded (D := u16beDecoder) (s' := ⟨⟨[7, 0], 1⟩, 0⟩) (c := 0) (m := 1) (s := ⟨fixInit 2, 1⟩)
    (.set ⟨fixInit 2, 0⟩) (b := [7, 8]) (e := Eos.new false) rfl

/-! ## The sliced decoder decodes the same -/

/-- C32: for every sequence of allowances, what the sliced decoder did is what the inner decoder could have
done on the same stream with other chunks: same position, same items, same inner state. -/
theorem C32_decoder {D : Decoder σ α} {stream : Bytes} {e : Eos} {s₀ : σ} (he : EosSane e stream.length)
    {s : SliceState σ} {pos : Nat} {items : List α} (h : SliceRun D stream e s₀ s pos items) :
    DecRun D stream e s₀ s.inner pos items :=
  sliceRun_decRun he h

/-- C32: if the inner decoder receives the messages `msgs` from the stream, the sliced decoder delivers
them in order, for every sequence of allowances. -/
theorem C32_inOrder {D : Decoder σ α} {stream : Bytes} {e : Eos} {s₀ : σ} {msgs : List α} {size : α → Nat}
    (hD : Receives D s₀ stream e msgs size) (he : EosSane e stream.length)
    {s : SliceState σ} {pos : Nat} {items : List α} (h : SliceRun D stream e s₀ s pos items) :
    items.take msgs.length = msgs.take items.length :=
  hD.inOrder (sliceRun_decRun he h)

/-- C32: when idle it hands out the next message. -/
theorem C32_ready {D : Decoder σ α} {stream : Bytes} {e : Eos} {s₀ : σ} {msgs : List α} {size : α → Nat}
    (hD : Receives D s₀ stream e msgs size) (he : EosSane e stream.length)
    {s : SliceState σ} {pos : Nat} {items : List α} (h : SliceRun D stream e s₀ s pos items)
    {x : α} {more : List α} (hm : msgs = items ++ x :: more) (hi : (sliceDecoder D).isIdle s = true) :
    (∃ s', (sliceDecoder D).finish s = (.ok x, s')) ∧ pos = ((items ++ [x]).map size).sum := by
  obtain ⟨⟨t, ht⟩, hp⟩ := hD.ready (sliceRun_decRun he h) hm hi
  exact ⟨⟨_, by rw [slice_finish, ht]⟩, hp⟩

/-- C32: otherwise `decode` succeeds and takes as many of the offered bytes as the allowance permits,
unless it completes the message. -/
theorem C32_going {D : Decoder σ α} {stream : Bytes} {e : Eos} {s₀ : σ} {msgs : List α} {size : α → Nat}
    (hD : Receives D s₀ stream e msgs size) (he : EosSane e stream.length)
    {s : SliceState σ} {pos : Nat} {items : List α} (h : SliceRun D stream e s₀ s pos items)
    {x : α} {more : List α} (hm : msgs = items ++ x :: more) (hi : (sliceDecoder D).isIdle s = false)
    {c : Bytes} {ec : Eos} (ho : Offer stream e pos c ec) :
    ∃ n s', (sliceDecoder D).decode s c ec = (.ok n, s') ∧ n ≤ min c.length s.consumable ∧
      s'.consumable = s.consumable - n ∧
      ((sliceDecoder D).isIdle s' = false → n = min c.length s.consumable) ∧
      pos + n ≤ ((items ++ [x]).map size).sum := by
  obtain ⟨e', hb, ho'⟩ := offer_slice he ho (Nat.min_le_left c.length s.consumable)
  obtain ⟨n, t, hd, hn, hfull, hp⟩ := hD.going (sliceRun_decRun he h) hm hi ho'
  have hl : (c.take (min c.length s.consumable)).length = min c.length s.consumable := by
    rw [List.length_take]; omega
  rw [hl] at hn hfull
  refine ⟨n, ⟨t, s.consumable - n⟩, ?_, hn, rfl, hfull, hp⟩
  simp only [sliceDecoder, hb, hd, Res.step]
  rw [if_neg (by omega)]

/-- C32: given the rest of the stream and an allowance for it, it completes the message. -/
theorem C32_complete {D : Decoder σ α} {stream : Bytes} {e : Eos} {s₀ : σ} {msgs : List α} {size : α → Nat}
    (hD : Receives D s₀ stream e msgs size) (he : EosSane e stream.length)
    {s : SliceState σ} {pos : Nat} {items : List α} (h : SliceRun D stream e s₀ s pos items)
    {x : α} {more : List α} (hm : msgs = items ++ x :: more) (hi : (sliceDecoder D).isIdle s = false)
    (ha : (stream.drop pos).length ≤ s.consumable) :
    (sliceDecoder D).isIdle ((sliceDecoder D).decode s (stream.drop pos) e).2 = true := by
  have hc := hD.complete (sliceRun_decRun he h) hm hi
  have hb : e.back 0 = .ok e := by
    rcases e with ⟨n | _ | _⟩
    · have := he n rfl
      simp only [Eos.back]
      rw [if_pos (by omega)]; rfl
    · rfl
    · rfl
  simp only [sliceDecoder]
  rw [Nat.min_eq_left ha, Nat.sub_self, hb, List.take_of_length_le (Nat.le_refl _)]
  simp only
  rcases hd : D.decode s.inner (stream.drop pos) e with ⟨r, t⟩
  rw [hd] at hc
  cases r <;> simp only [Res.step]
  · split <;> exact hc
  all_goals exact hc

/-! ## The sliced encoder encodes the same -/

/-- C32: for every sequence of allowances, what the sliced encoder did is what the inner encoder could have
done with other buffers: same items accepted, same bytes emitted, same inner state. -/
theorem C32_encoder {E : Encoder σ α} {dom : α → Prop} {enc : α → Except ErrorKind Bytes} {s₀ : σ}
    {s : SliceState σ} {accepted emitted : Bytes} (h : SliceEncRun E dom enc s₀ s accepted emitted) :
    EncRun E dom enc s₀ s.inner accepted emitted :=
  sliceEncRun_encRun h

/-- C32: with an inner encoder that keeps the contract of encoders, the bytes emitted are the encodings of
the accepted items, in order; all of them once the encoder is idle. -/
theorem C32_stream {strict : Bool} {E : Encoder σ α} {dom : α → Prop} {enc : α → Except ErrorKind Bytes} {s₀ : σ}
    (hE : Emits strict E s₀ dom enc) {s : SliceState σ} {accepted emitted : Bytes}
    (h : SliceEncRun E dom enc s₀ s accepted emitted) :
    emitted <+: accepted ∧ ((sliceEncoder E).isIdle s = true → emitted = accepted) :=
  ⟨hE.inOrder (sliceEncRun_encRun h), hE.complete (sliceEncRun_encRun h)⟩

/-- C32: `encode` writes what is owed as far as buffer and allowance permit. -/
theorem C32_encode {strict : Bool} {E : Encoder σ α} {dom : α → Prop} {enc : α → Except ErrorKind Bytes} {s₀ : σ}
    (hE : Emits strict E s₀ dom enc) {s : SliceState σ} {accepted emitted : Bytes}
    (h : SliceEncRun E dom enc s₀ s accepted emitted) {cap : Nat} {e : Eos} (he : EosSane e cap)
    (hr : e.isReached = true → accepted.length - emitted.length ≤ cap) :
    ∃ s', (sliceEncoder E).encode s cap e =
        (.ok ((accepted.drop emitted.length).take (min cap s.consumable)), s') ∧
      ((sliceEncoder E).isIdle s' = true ↔ accepted.length - emitted.length ≤ min cap s.consumable) := by
  have hrun := sliceEncRun_encRun h
  obtain ⟨e', hb⟩ : ∃ e', e.back (cap - min cap s.consumable) = .ok e' := by
    rcases e with ⟨n | _ | _⟩
    · have := he n rfl
      simp only [Eos.back]
      rw [if_pos (by omega)]
      exact ⟨_, rfl⟩
    · exact ⟨_, rfl⟩
    · exact ⟨_, rfl⟩
  obtain ⟨t, ht, hi⟩ := hE.encode hrun (cap := min cap s.consumable) (e := e') (by
    intro h'
    obtain ⟨h1, h2, _⟩ := back_reached hb h'
    have := hr h1
    omega)
  refine ⟨⟨t, s.consumable - ((accepted.drop emitted.length).take (min cap s.consumable)).length⟩, ?_, hi⟩
  simp only [sliceEncoder, hb, ht, Res.step]
  rw [if_neg]
  rw [List.length_take]
  omega

/-- C32: `encode_all` with a sliced encoder writes what is owed as far as the allowance permits. If that is not
everything, it fails, and nothing is lost: the encoder owes exactly the rest. (The writer is a `Vec<u8>`.) -/
theorem C32_encode_all {strict : Bool} {E : Encoder σ α} {dom : α → Prop} {enc : α → Except ErrorKind Bytes} {s₀ : σ}
    (hE : Emits strict E s₀ dom enc) {s : SliceState σ} {accepted emitted : Bytes}
    (h : SliceEncRun E dom enc s₀ s accepted emitted) (out : Bytes) :
    let written := (accepted.drop emitted.length).take s.consumable
    ∃ s', encodeAll (sliceEncoder E) vecWriter s out =
        some (if accepted.length - emitted.length ≤ s.consumable then .ok () else .err .other, s', out ++ written) ∧
      SliceEncRun E dom enc s₀ s' accepted (emitted ++ written) := by
  have key : ∀ n {s : SliceState σ} {emitted : Bytes} (out : Bytes), accepted.length - emitted.length ≤ n →
      SliceEncRun E dom enc s₀ s accepted emitted →
      ∃ s', encodeAll (sliceEncoder E) vecWriter s out =
          some (if accepted.length - emitted.length ≤ s.consumable then .ok () else .err .other, s',
            out ++ (accepted.drop emitted.length).take s.consumable) ∧
        SliceEncRun E dom enc s₀ s' accepted (emitted ++ (accepted.drop emitted.length).take s.consumable) := by
    intro n
    induction n with
    | zero =>
      intro s emitted out hn hrun
      have hnil : accepted.drop emitted.length = [] := List.drop_eq_nil_of_le (by omega)
      rw [encodeAll, if_pos (show accepted.length - emitted.length ≤ s.consumable by omega), hnil]
      by_cases hi : (sliceEncoder E).isIdle s = true
      · rw [if_pos hi]
        exact ⟨s, by simp, by simpa using hrun⟩
      · rw [if_neg hi]
        obtain ⟨s', h1, h2⟩ := C32_encode hE hrun (cap := 1024) (e := Eos.new false) .newFalse (by intro h; cases h)
        have hi' := h2.2 (by omega)
        have hrun' := SliceEncRun.encode hrun (by intro h; cases h) h1
        rw [hnil] at h1 hrun'
        rw [h1]
        simp only [List.take_nil, List.length_nil, Nat.not_lt_zero, if_false]
        rw [writeAll, if_pos (show (([] : Bytes).isEmpty = true) from rfl)]
        simp only [hi', Bool.not_true, Bool.false_and, Bool.false_eq_true, if_false]
        rw [encodeAll, if_pos hi']
        exact ⟨s', by simp, by simpa using hrun'⟩
    | succ n ih =>
      intro s emitted out hn hrun
      rw [encodeAll]
      by_cases hi : (sliceEncoder E).isIdle s = true
      · rw [if_pos hi]
        have := hE.complete (sliceEncRun_encRun hrun) hi
        subst this
        exact ⟨s, by simp, by simpa using hrun⟩
      · rw [if_neg hi]
        obtain ⟨s', h1, h2⟩ := C32_encode hE hrun (cap := 1024) (e := Eos.new false) .newFalse (by intro h; cases h)
        have hrun' := SliceEncRun.encode hrun (by intro h; cases h) h1
        obtain ⟨_, _, _, _, hc⟩ := slice_encode_ok h1
        generalize hw : (accepted.drop emitted.length).take (min 1024 s.consumable) = w at h1 hrun' hc
        have hwl : w.length = min (min 1024 s.consumable) (accepted.length - emitted.length) := by
          rw [← hw, List.length_take, List.length_drop]
        have hwrite : writeAll vecWriter out w = (.ok (), out ++ w) := by
          obtain ⟨r, w', x1, ⟨rfl, x2⟩ | ⟨_, _, _, _, _, hf⟩⟩ := writeAll_spec sink_vec out w
          · simp only [id] at x2
            rw [x1, x2]
          · exact absurd hf vec_never_fails
        rw [h1]
        simp only [if_neg (show ¬ 1024 < w.length by omega), hwrite]
        by_cases hi' : (sliceEncoder E).isIdle s' = true
        · have hle := h2.1 hi'
          simp only [hi', Bool.not_true, Bool.false_and, Bool.false_eq_true, if_false]
          rw [encodeAll, if_pos hi', if_pos (by omega)]
          have e1 : (accepted.drop emitted.length).take s.consumable = w := by
            rw [← hw, List.take_of_length_le (by rw [List.length_drop]; omega),
              List.take_of_length_le (by rw [List.length_drop]; omega)]
          rw [e1]
          exact ⟨s', rfl, hrun'⟩
        · have hgt : ¬ accepted.length - emitted.length ≤ min 1024 s.consumable := fun h => hi' (h2.2 h)
          by_cases hw0 : w = []
          · subst hw0
            have hc0 : s.consumable = 0 := by
              simp only [List.length_nil] at hwl
              omega
            simp only [Bool.not_eq_true] at hi'
            simp only [hi', Bool.not_false, List.isEmpty_nil, Bool.and_self, if_true, hc0, List.take_zero,
              List.append_nil]
            rw [if_neg (by omega)]
            exact ⟨s', rfl, by simpa using hrun'⟩
          · have hpos : 0 < w.length := List.length_pos_iff.2 hw0
            have hne : w.isEmpty = false := by cases w with
              | nil => exact absurd rfl hw0
              | cons _ _ => rfl
            simp only [hne, Bool.and_false, Bool.false_eq_true, if_false]
            obtain ⟨s'', k1, k2⟩ := ih (s := s') (emitted := emitted ++ w) (out ++ w)
              (by rw [List.length_append]; omega) hrun'
            have e1 : w ++ (accepted.drop (emitted ++ w).length).take s'.consumable =
                (accepted.drop emitted.length).take s.consumable := by
              rw [hc, List.length_append, ← List.drop_drop]
              have : w = (accepted.drop emitted.length).take w.length := by
                rw [hwl, ← hw, List.take_eq_take_min, List.length_drop]
              conv => lhs; rw [this]
              rw [List.length_take, List.length_drop, Nat.min_eq_left (by omega), ← List.take_add]
              congr 1
              omega
            have e2 : (accepted.length - (emitted ++ w).length ≤ s'.consumable) ↔
                accepted.length - emitted.length ≤ s.consumable := by
              rw [List.length_append]; omega
            simp only [e2, List.append_assoc, e1] at k1 k2
            exact ⟨s'', k1, k2⟩
  exact key _ out (Nat.le_refl _) h

/-- A string of three bytes and an allowance of two: two bytes, and an error. -/
example : ∃ s', encodeAll (sliceEncoder utf8Encoder.toEncoder) vecWriter
      ((sliceEncoder utf8Encoder.toEncoder).start ((SliceState.new BytesEncoderState.new).setConsumableBytes 2) "abc").2 [] =
    some (.err .other, s', [97, 98]) := by
  obtain ⟨s', h, _⟩ := C32_encode_all (fresh_emits ((writes_fresh (.utf8 true)).choose_spec))
    (SliceEncRun.start (accepted := []) (b := [97, 98, 99]) (x := "abc") (.allow 2 .new) rfl trivial
      (congrArg Except.ok (by decide +kernel)) rfl) []
  exact ⟨s', h⟩

/-- C53 for sliced encoders, whatever the allowances: `requiring_bytes` is that of the inner encoder; `Finite(k)` means that
exactly `k` bytes are still owed, not counting what the allowance permits, and `Finite(0)` is returned when idle. -/
theorem C53_slice {strict : Bool} {E : Encoder σ α} {dom : α → Prop} {enc : α → Except ErrorKind Bytes} {s₀ : σ}
    (hE : Emits strict E s₀ dom enc) {s : SliceState σ} {accepted emitted : Bytes}
    (h : SliceEncRun E dom enc s₀ s accepted emitted) :
    (sliceEncoder E).requiring s = E.requiring s.inner ∧
    ((sliceEncoder E).requiring s = .finite (accepted.length - emitted.length) ∨
      (sliceEncoder E).requiring s = .unknown ∧ (sliceEncoder E).isIdle s = false) :=
  ⟨rfl, hE.requiring (sliceEncRun_encRun h)⟩

/-- C53: a sliced `SizedEncode` encoder knows the exact number of bytes still owed. -/
theorem C53_slice_exact {strict : Bool} {E : SizedEncoder σ α} {dom : α → Prop} {enc : α → Except ErrorKind Bytes} {s₀ : σ}
    (hE : EmitsSized strict E s₀ dom enc) {s : SliceState σ} {accepted emitted : Bytes}
    (h : SliceEncRun E.toEncoder dom enc s₀ s accepted emitted) :
    (sizedSliceEncoder E).exact s = accepted.length - emitted.length ∧
    (sizedSliceEncoder E).requiring s = .finite (accepted.length - emitted.length) :=
  hE.sizes (sliceEncRun_encRun h)

/-- A string of three bytes, of which the allowance of two is used up: one byte is owed. -/
example : ∃ s, SliceEncRun utf8Encoder.toEncoder (fun _ => True) (fun x => .ok (utf8Bytes x)) .new s [97, 98, 99] [97, 98] ∧
    s.isSuspended = true ∧ (sizedSliceEncoder utf8Encoder).exact s = 1 := by
  refine ⟨((sliceEncoder utf8Encoder.toEncoder).encode
      ((sliceEncoder utf8Encoder.toEncoder).start ((SliceState.new BytesEncoderState.new).setConsumableBytes 2) "abc").2 9
      (Eos.new false)).2, ?_, by decide +kernel, by decide +kernel⟩
  refine .encode (emitted := []) (out := [97, 98]) (cap := 9) (e := Eos.new false)
    (.start (accepted := []) (b := [97, 98, 99]) (x := "abc") (.allow 2 .new) rfl trivial (congrArg Except.ok (by decide +kernel)) rfl) ?_ ?_
  · intro h; cases h
  · exact Prod.ext (by decide +kernel) rfl

/-- C32: items are accepted and rejected as by the inner encoder. -/
theorem C32_start (E : Encoder σ α) (s : SliceState σ) (x : α) :
    ((sliceEncoder E).start s x).1 = (E.start s.inner x).1 ∧
    ((sliceEncoder E).start s x).2.inner = (E.start s.inner x).2 := by
  rw [slice_start]; exact ⟨rfl, rfl⟩

/-! ## Demultiplexing -/

/-- C32: two sliced decoders on any interleaving of two channels: each of them does what its inner
decoder could do on its own channel alone; it is never shown a byte of the other channel. What it has
consumed together with what is still to come on its channel is the whole channel. -/
theorem C32_demux {D0 : Decoder σ0 α0} {D1 : Decoder σ1 α1} {s0 : σ0} {s1 : σ1} {segs : List (Bool × Bytes)}
    {t0 t1 tag cur later items0 items1} (h : Demux D0 D1 s0 s1 segs t0 t1 tag cur later items0 items1) :
    (∃ p0, DecRun D0 (channel false segs) (Eos.new false) s0 t0.inner p0 items0 ∧
      (channel false segs).drop p0 = (if tag = false then cur else []) ++ channel false later) ∧
    (∃ p1, DecRun D1 (channel true segs) (Eos.new false) s1 t1.inner p1 items1 ∧
      (channel true segs).drop p1 = (if tag = true then cur else []) ++ channel true later) := by
  obtain ⟨⟨p0, h0, hd0, _⟩, ⟨p1, h1, hd1, _⟩, _, _⟩ := demux_runs h
  exact ⟨⟨p0, h0, hd0⟩, ⟨p1, h1, hd1⟩⟩

/-- C32: so both channels get their messages in order. -/
theorem C32_demux_inOrder {D0 : Decoder σ0 α0} {D1 : Decoder σ1 α1} {s0 : σ0} {s1 : σ1}
    {segs : List (Bool × Bytes)} {msgs0 : List α0} {msgs1 : List α1} {size0 : α0 → Nat} {size1 : α1 → Nat}
    (hD0 : Receives D0 s0 (channel false segs) (Eos.new false) msgs0 size0)
    (hD1 : Receives D1 s1 (channel true segs) (Eos.new false) msgs1 size1)
    {t0 t1 tag cur later items0 items1} (h : Demux D0 D1 s0 s1 segs t0 t1 tag cur later items0 items1) :
    items0.take msgs0.length = msgs0.take items0.length ∧
    items1.take msgs1.length = msgs1.take items1.length := by
  obtain ⟨⟨p0, h0, _⟩, ⟨p1, h1, _⟩, _, _⟩ := demux_runs h
  exact ⟨hD0.inOrder h0, hD1.inOrder h1⟩

/-- C32: the demultiplexer does not get stuck: as long as messages are missing on the channel whose turn
it is, its decoder takes all offered bytes of the current segment unless it completes the message.
(For channel `false`; the other one is the same.) -/
theorem C32_demux_going {D0 : Decoder σ0 α0} {D1 : Decoder σ1 α1} {s0 : σ0} {s1 : σ1}
    {segs : List (Bool × Bytes)} {msgs0 : List α0} {size0 : α0 → Nat}
    (hD0 : Receives D0 s0 (channel false segs) (Eos.new false) msgs0 size0)
    {t0 t1 cur later items0 items1} (h : Demux D0 D1 s0 s1 segs t0 t1 false cur later items0 items1)
    {x : α0} {more : List α0} (hm : msgs0 = items0 ++ x :: more) (hi : (sliceDecoder D0).isIdle t0 = false)
    {c : Bytes} (hc : c <+: cur ++ wire later) :
    ∃ n t0', (sliceDecoder D0).decode t0 c (Eos.new false) = (.ok n, t0') ∧ n ≤ min c.length cur.length ∧
      ((sliceDecoder D0).isIdle t0' = false → n = min c.length cur.length) := by
  obtain ⟨⟨p0, h0, hd0, _⟩, _, hc0, _⟩ := demux_runs h
  have hc0 := hc0 rfl
  obtain ⟨r, hr⟩ := take_prefix hc
  rw [if_pos rfl] at hd0
  obtain ⟨n, t, hd, hn, hfull, _⟩ := hD0.going h0 hm hi (c := c.take (min c.length cur.length))
    (ec := Eos.new false) ⟨r ++ channel false later, by rw [hd0, ← List.append_assoc, hr], .inl rfl⟩
  have hl : (c.take (min c.length cur.length)).length = min c.length cur.length := by
    rw [List.length_take]; omega
  rw [hl] at hn hfull
  refine ⟨n, ⟨t, t0.consumable - n⟩, ?_, hn, hfull⟩
  have hb : (Eos.new false).back (c.length - min c.length t0.consumable) = .ok (Eos.new false) := rfl
  simp only [sliceDecoder, hb]
  rw [hc0, hd]
  simp only [Res.step]
  rw [if_neg (by omega)]

/-- C32: when all segments are used up and every item was taken as soon as it was there, nothing is lost:
at most one message is missing, and one more `decode` call with an empty buffer completes it.
(For channel `false`; messages of at least one byte, nothing else on the channel.) -/
theorem C32_demux_complete {D0 : Decoder σ0 α0} {D1 : Decoder σ1 α1} {s0 : σ0} {s1 : σ1}
    {segs : List (Bool × Bytes)} {msgs0 : List α0} {size0 : α0 → Nat}
    (hD0 : Receives D0 s0 (channel false segs) (Eos.new false) msgs0 size0)
    (hpos : ∀ x ∈ msgs0, 0 < size0 x) (htot : (channel false segs).length = (msgs0.map size0).sum)
    {t0 t1 tag items0 items1} (h : Demux D0 D1 s0 s1 segs t0 t1 tag [] [] items0 items1)
    (hi : (sliceDecoder D0).isIdle t0 = false) {x : α0} {more : List α0} (hm : msgs0 = items0 ++ x :: more) :
    more = [] ∧ (sliceDecoder D0).isIdle ((sliceDecoder D0).decode t0 [] (Eos.new false)).2 = true := by
  obtain ⟨⟨p0, h0, hd0, hp0⟩, _, _, _⟩ := demux_runs h
  have hd : (channel false segs).drop p0 = [] := by rw [hd0]; simp [channel]
  have hlen := congrArg List.length hd
  rw [List.length_drop, List.length_nil] at hlen
  obtain ⟨n, t, _, _, _, hle⟩ := hD0.going h0 hm hi (c := []) (ec := Eos.new false) ⟨[], by rw [hd]; rfl, .inl rfl⟩
  have hc := hD0.complete h0 hm hi
  rw [hd] at hc
  constructor
  · rw [hm] at htot
    simp only [List.map_append, List.map_cons, List.map_nil, List.sum_append, List.sum_cons, List.sum_nil] at htot hle
    cases more with
    | nil => rfl
    | cons y ys =>
      have := hpos y (by rw [hm]; simp)
      simp only [List.map_cons, List.sum_cons] at htot
      omega
  · have hb : (Eos.new false).back 0 = .ok (Eos.new false) := rfl
    simp only [sliceDecoder, List.length_nil, Nat.zero_min, Nat.zero_sub, hb, List.take_nil]
    rcases hq : D0.decode t0.inner [] (Eos.new false) with ⟨r, t⟩
    rw [hq] at hc
    cases r <;> simp only [Res.step]
    · split <;> exact hc
    all_goals exact hc

/-- Channel `false` carries the 16-bit number 258 and channel `true` the number 772, in segments of one
byte. -/
example :
    let segs : List (Bool × Bytes) := [(false, [1]), (true, [3]), (false, [2]), (true, [4])]
    channel false segs = [1, 2] ∧ channel true segs = [3, 4] ∧ wire segs = [1, 3, 2, 4] ∧
    ∃ t0 t1, Demux u16beDecoder u16beDecoder (fixInit 2) (fixInit 2) segs t0 t1 true [] [] [258] [772] := by
  refine ⟨rfl, rfl, rfl, ?_⟩
  have h0 : Demux u16beDecoder u16beDecoder (fixInit 2) (fixInit 2)
    [(false, [1]), (true, [3]), (false, [2]), (true, [4])] _ _ _ _ _ _ _ := .new
  have h1 := Demux.decode0 (.next0 h0) rfl (c := [1, 3, 2, 4]) ⟨[], rfl⟩ rfl
  have h2 := Demux.decode1 (.next1 h1) rfl (c := [3]) ⟨[2, 4], rfl⟩ rfl
  have h3 := Demux.decode0 (.next0 h2) rfl (c := [2, 4]) ⟨[], rfl⟩ rfl
  have h4 := Demux.decode1 (.next1 h3) rfl (c := [4]) ⟨[], rfl⟩ rfl
  exact ⟨_, _, .finish1 (.finish0 h4 rfl rfl) rfl rfl⟩

example : (∃ s, SliceRun u16beDecoder [1, 2, 3] (Eos.new true) (fixInit 2) s 2 [258]) ∧
    EosSane (Eos.new true) [1, 2, 3].length := by
  have h0 : SliceRun u16beDecoder [1, 2, 3] (Eos.new true) (fixInit 2) _ _ _ := .new
  have h1 := SliceRun.decode (.allow 1 h0) rfl (c := [1, 2, 3]) (ec := Eos.new true) ⟨[], rfl, .inr rfl⟩ rfl
  have h2 := SliceRun.decode (.allow 5 h1) rfl (c := [2]) (ec := Eos.new false) ⟨[3], rfl, .inl rfl⟩ rfl
  exact ⟨⟨_, .finish h2 rfl rfl⟩, by intro n h; cases h; decide⟩

/-- Three bytes are emitted with allowances of two and five. -/
example : ∃ s, SliceEncRun (bytesEncoder id).toEncoder (fun _ => True) (fun x => .ok x) .new s [1, 2, 3] [1, 2, 3] := by
  have h0 : SliceEncRun (bytesEncoder id).toEncoder (fun _ => True) (fun x => .ok x) .new _ _ _ := .new
  have h1 := SliceEncRun.start h0 rfl (x := [1, 2, 3]) trivial rfl rfl
  have h2 := SliceEncRun.encode (.allow 2 h1) (cap := 9) (e := Eos.new false) (by intro h; cases h) rfl
  have h3 := SliceEncRun.encode (.allow 5 h2) (cap := 9) (e := Eos.new true) (by decide) rfl
  exact ⟨_, h3⟩

end Bytecodec.Props
