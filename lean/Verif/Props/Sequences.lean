import Verif.Lemmas.Sequence
import Verif.Lemmas.Buf
import Verif.Props.Encoding
import Verif.Props.Chunking
/-!
# C15, C18, C19, C22, C23, C24, C50: frames, strings, sequences

`Receives` (Spec/Stream) is about every run of a receiver; `feed` is the caller's loop on given chunks.
-/
namespace Bytecodec.Props

open Bytecodec Bytecodec.Spec

variable {σ τ α β : Type}

/-! ## C15: `CopyableBytesDecoder` -/

/-- C15: on any stream, cut in any way, the decoder for arrays of `b.length` bytes returns the
consecutive frames of the stream. (`b` is the initial content of the array.) -/
theorem C15_frames (b : Bytes) (frames : List Bytes) (h : ∀ x ∈ frames, x.length = b.length) (tail : Bytes)
    (e : Eos) (he : EosSane e (frames.flatten ++ tail).length) :
    Receives copyableBytesDecoder (.new b) (frames.flatten ++ tail) e frames (fun _ => b.length) :=
  receives_copyable b h tail he

/-- C15: a frame cut short by the end of the stream is reported, in every state. -/
theorem C15_truncated (s : CopyableState) (b : Bytes) (e : Eos) (he : e.isReached = true)
    (h : s.offset + b.length < s.bytes.length) : (copyableBytesDecoder.decode s b e).1 = .err .unexpectedEos := by
  have hl : (splice s.bytes s.offset (b.take (min b.length (s.bytes.length - s.offset)))).length
      = s.bytes.length := splice_len (by rw [List.length_take]; omega)
  simp only [copyableBytesDecoder]
  rw [if_neg (by omega), if_pos ⟨by rw [hl]; omega, he⟩]

example : (∀ x ∈ [[1, 2], [3, 4]], x.length = [(0 : UInt8), 0].length) ∧
    EosSane (Eos.new true) ([[(1 : UInt8), 2], [3, 4]].flatten ++ [5]).length :=
  ⟨by simp, by intro n h; simp only [Eos.new, if_true, ByteCount.finite.injEq] at h; simp; omega⟩

/-! ## C18: UTF-8 -/

/-- C18 (encoding): under every buffer schedule the encoder emits the concatenation of the UTF-8 forms
of the characters (`String.utf8EncodeChar` is the table of RFC 3629). -/
theorem C18_encoder : EmitsSized true utf8Encoder .new (fun _ => True)
    (fun x => .ok (x.toList.flatMap String.utf8EncodeChar)) := by
  simp only [← utf8Bytes_eq]
  exact fresh_emitsSized ⟨codes_utf8 true, rfl, rfl⟩ exact_utf8

/-- C18 (valid): where the inner decoder receives the UTF-8 forms of strings, in whatever pieces, the
decoder receives these strings, and consumes the same bytes. -/
theorem C18_valid {D : Decoder σ Bytes} {s₀ : σ} {stream : Bytes} {e : Eos} {xs : List String}
    {size : Bytes → Nat}
    (h : Receives D s₀ stream e (xs.map fun x => x.toList.flatMap String.utf8EncodeChar) size) :
    Receives (utf8Decoder D) s₀ stream e xs (fun x => size (x.toList.flatMap String.utf8EncodeChar)) := by
  simp only [← utf8Bytes_eq] at h ⊢
  exact receives_utf8 h

/-- C18 (invalid): where the inner decoder receives bytes that are not the UTF-8 form of any character
sequence, in whatever pieces, the decoder reports `InvalidInput` at this item, having returned the
strings before. -/
theorem C18_invalid {D : Decoder σ Bytes} {s₀ : σ} {stream : Bytes} {e : Eos} {xs : List String}
    {bad : Bytes} {more : List Bytes} {size : Bytes → Nat}
    (h : Receives D s₀ stream e ((xs.map fun x => x.toList.flatMap String.utf8EncodeChar) ++ bad :: more) size)
    (hbad : ∀ m : List Char, bad ≠ m.flatMap String.utf8EncodeChar)
    {s : σ} {pos : Nat} {items : List String} (hr : DecRun (utf8Decoder D) stream e s₀ s pos items) :
    items = xs.take items.length ∧ (items = xs →
      ((utf8Decoder D).isIdle s = true → ((utf8Decoder D).finish s).1 = .err .invalidInput) ∧
      ((utf8Decoder D).isIdle s = false →
        (utf8Decoder D).isIdle ((utf8Decoder D).decode s (stream.drop pos) e).2 = true)) := by
  simp only [← utf8Bytes_eq] at h
  have hD := decRun_utf8 hr
  have hio := h.inOrder hD
  refine ⟨?_, ?_⟩
  · rw [List.length_map, List.length_append, List.length_map] at hio
    rcases Nat.lt_or_ge xs.length items.length with hlt | hge
    · exfalso
      have h1 := congrArg (fun l => l[xs.length]?) hio
      simp only [List.getElem?_take] at h1
      rw [if_pos (by simp), if_pos hlt, List.getElem?_append_right (by simp)] at h1
      simp only [List.length_map, Nat.sub_self, List.getElem?_cons_zero, List.getElem?_map] at h1
      cases hx : items[xs.length]? with
      | none => rw [hx] at h1; cases h1
      | some y =>
        rw [hx] at h1
        simp only [Option.map_some, Option.some.injEq] at h1
        exact hbad y.toList (by rw [← h1, utf8Bytes_eq])
    · rw [List.take_of_length_le (by simp; omega), List.take_append_of_le_length (by simp; omega),
        ← List.map_take] at hio
      exact map_utf8_inj hio
  · rintro rfl
    refine ⟨fun hi => ?_, fun hi => h.complete hD rfl hi⟩
    obtain ⟨⟨s', h1⟩, _⟩ := h.ready hD rfl hi
    simp only [utf8Decoder, h1, Res.step]
    rw [fromUtf8_none.2 hbad]

/-- C18 (`Utf8Decoder::default()`, i.e. over `RemainingBytesDecoder`): the inner decoder receives every
byte sequence that fits into memory. So the two theorems above are about all byte sequences and all
ways of cutting them. -/
theorem C18_inner (b : Bytes) (hl : b.length < 2 ^ 63) (e : Eos) (he : e.isReached = true) :
    Receives remainingBytesDecoder .new b e [b] List.length := by
  have := matched_receives (Matched.remaining true) (size := List.length) (msgs := [b]) (tail := []) (e := e)
    (by simpa using hl) ?_ (.inr (by simp)) (.inr ⟨rfl, he⟩)
  · simpa [bytesOf] using this
  · intro n hn
    rw [Eos.isReached, hn] at he
    simp at he
    subst he
    simp [bytesOf]
    omega

/-- `é` cut inside its code point; and a byte that is not UTF-8. -/
example : (feed (utf8Decoder remainingBytesDecoder) .new
      [([0xC3], Eos.new false), ([0xA9], Eos.new true)]).map (fun r => (r.1, r.2.1)) = some (2, "é") ∧
    (feed (utf8Decoder remainingBytesDecoder) .new [([0xC3], Eos.new true)]).isNone = true := by
  decide +kernel

example : ∀ m : List Char, [0xFF] ≠ m.flatMap String.utf8EncodeChar :=
  fromUtf8_none.1 (by decide +kernel)

/-! ## C19: tuples -/

/-- C19: a pair decodes its components in order, the second from where the first stopped; the items are
paired and the sizes add up. (The hypothesis, that the first component does not report more bytes than
it was given, holds for all library decoders by C05.) -/
theorem C19_sequential {σ0 α0 σ1 α1 : Type} {D0 : Decoder σ0 α0} {D1 : Decoder σ1 α1} {s0 s0' : σ0} {s1 s1' : σ1}
    {b : Bytes} {e : Eos} {n : Nat} {x0 : α0} {x1 : α1}
    (hb : ∀ n0 y t, feed D0 s0 [(b, e)] = some (n0, y, t) → n0 ≤ b.length) :
    feed (tupleDecoder2 D0 D1) (s0, s1) [(b, e)] = some (n, (x0, x1), (s0', s1')) ↔
      ∃ n0 n1, n = n0 + n1 ∧ feed D0 s0 [(b, e)] = some (n0, x0, s0') ∧
        feed D1 s1 [(b.drop n0, e)] = some (n1, x1, s1') :=
  feedOne_pair hb

/-- C19, under any chunking (library decoders as in C08). -/
theorem C19_chunked {p q : Bool} {σ0 α0 σ1 α1 : Type} {D0 : Decoder σ0 α0} {D1 : Decoder σ1 α1} {s0 s0' : σ0}
    {s1 s1' : σ1} (h0 : Streamable Plain p q D0 s0) (h1 : Streamable Plain p q D1 s1)
    {chunks : List (Bytes × Eos)} {b : Bytes} {e : Eos} (hc : Schedule chunks b e) (he : EosSane e b.length)
    {n : Nat} {x0 : α0} {x1 : α1} :
    feed (tupleDecoder2 D0 D1) (s0, s1) chunks = some (n, (x0, x1), (s0', s1')) ↔
      ∃ n0 n1, n = n0 + n1 ∧ feed D0 s0 [(b, e)] = some (n0, x0, s0') ∧
        feed D1 s1 [(b.drop n0, e)] = some (n1, x1, s1') := by
  rw [C08_any_two_schedules_partial (.pair h0 h1) hc (.last b e) he]
  exact feedOne_pair fun n0 y t hf => feed_bound h0 hf

/-- C19: a pair is idle iff both components are. -/
theorem C19_idle {σ0 α0 σ1 α1 : Type} (D0 : Decoder σ0 α0) (D1 : Decoder σ1 α1) (s0 : σ0) (s1 : σ1) :
    (tupleDecoder2 D0 D1).isIdle (s0, s1) = true ↔ D0.isIdle s0 = true ∧ D1.isIdle s1 = true := by
  simp [tupleDecoder2]

/-- C19: tuples of arity 3 to 8 are nested pairs. -/
theorem C19_tuple_nested {σ0 α0 σ1 α1 σ2 α2 σ3 α3 σ4 α4 σ5 α5 σ6 α6 σ7 α7 : Type}
    (D0 : Decoder σ0 α0) (D1 : Decoder σ1 α1) (D2 : Decoder σ2 α2) (D3 : Decoder σ3 α3)
    (D4 : Decoder σ4 α4) (D5 : Decoder σ5 α5) (D6 : Decoder σ6 α6) (D7 : Decoder σ7 α7) :
    tupleDecoder3 D0 D1 D2 =
      tupleDecoder2 D0 (tupleDecoder2 D1 D2) ∧
    tupleDecoder4 D0 D1 D2 D3 =
      tupleDecoder2 D0 (tupleDecoder2 D1 (tupleDecoder2 D2 D3)) ∧
    tupleDecoder5 D0 D1 D2 D3 D4 =
      tupleDecoder2 D0 (tupleDecoder2 D1 (tupleDecoder2 D2 (tupleDecoder2 D3 D4))) ∧
    tupleDecoder6 D0 D1 D2 D3 D4 D5 =
      tupleDecoder2 D0 (tupleDecoder2 D1 (tupleDecoder2 D2 (tupleDecoder2 D3 (tupleDecoder2 D4 D5)))) ∧
    tupleDecoder7 D0 D1 D2 D3 D4 D5 D6 =
      tupleDecoder2 D0 (tupleDecoder2 D1 (tupleDecoder2 D2 (tupleDecoder2 D3 (tupleDecoder2 D4 (tupleDecoder2 D5 D6))))) ∧
    tupleDecoder8 D0 D1 D2 D3 D4 D5 D6 D7 =
      tupleDecoder2 D0 (tupleDecoder2 D1 (tupleDecoder2 D2 (tupleDecoder2 D3 (tupleDecoder2 D4 (tupleDecoder2 D5 (tupleDecoder2 D6 D7)))))) :=
  ⟨tupleDecoder3_nested _ _ _, tupleDecoder4_nested _ _ _ _, tupleDecoder5_nested _ _ _ _ _,
    tupleDecoder6_nested _ _ _ _ _ _, tupleDecoder7_nested _ _ _ _ _ _ _,
    tupleDecoder8_nested _ _ _ _ _ _ _ _⟩

example : (feed (tupleDecoder2 u8Decoder u16leDecoder) (fixInit 1, fixInit 2)
    [([7, 1], Eos.new false), ([2, 9], Eos.new true)]).map (fun r => (r.1, r.2.1)) = some (3, (7, 513)) := by
  decide +kernel

/-! ## C22: `and_then` -/

/-- C22: the second decoder is chosen from the first item and starts right after it; the sizes add up;
afterwards the decoder is as new, with the first decoder as the first item left it. -/
theorem C22_sequential {σ0 α0 σ1 α1 : Type} {D0 : Decoder σ0 α0} {D1 : Decoder σ1 α1} {f : α0 → σ1} {s0 : σ0}
    {b : Bytes} {e : Eos} {n : Nat} {x : α1} {s' : σ0 × Option σ1}
    (hb : ∀ n0 y t, feed D0 s0 [(b, e)] = some (n0, y, t) → n0 ≤ b.length) :
    feed (andThenDecoder D0 D1 f) (s0, none) [(b, e)] = some (n, x, s') ↔
      ∃ n0 y n1 s0' s1', n = n0 + n1 ∧ feed D0 s0 [(b, e)] = some (n0, y, s0') ∧
        feed D1 (f y) [(b.drop n0, e)] = some (n1, x, s1') ∧ s' = (s0', none) :=
  feedOne_andThen hb

/-- C22, under any chunking (library decoders as in C08). -/
theorem C22_chunked {p q : Bool} {σ0 α0 σ1 α1 : Type} {D0 : Decoder σ0 α0} {D1 : Decoder σ1 α1} {f : α0 → σ1}
    {s0 : σ0} (h0 : Streamable Plain p q D0 s0) (h1 : ∀ y, Streamable Plain p q D1 (f y))
    {chunks : List (Bytes × Eos)} {b : Bytes} {e : Eos} (hc : Schedule chunks b e) (he : EosSane e b.length)
    {n : Nat} {x : α1} {s' : σ0 × Option σ1} :
    feed (andThenDecoder D0 D1 f) (s0, none) chunks = some (n, x, s') ↔
      ∃ n0 y n1 s0' s1', n = n0 + n1 ∧ feed D0 s0 [(b, e)] = some (n0, y, s0') ∧
        feed D1 (f y) [(b.drop n0, e)] = some (n1, x, s1') ∧ s' = (s0', none) := by
  rw [C08_any_two_schedules_partial (.andThen f h0 h1) hc (.last b e) he]
  exact feedOne_andThen fun n0 y t hf => feed_bound h0 hf

/-- C22 (length-prefixed data): a number codec for the length, any matching pair for the payload. The
sender writes the length of the payload in front of it; the receiver decodes the length and then
decodes the payload with `length(n)`. Every payload that fits the prefix arrives, whatever comes after
it in the stream, any number of times. -/
theorem C22_length_prefixed {strict delim again : Bool} {α0 : Type}
    {E0 : SizedEncoder (BytesEncoderState Bytes) α0} {D0 : Decoder CopyableState α0} {k : Nat} {be : Bool}
    {val : α0 → Nat} (h0 : NumberCodec E0 D0 k be val) (ofNat : Nat → α0)
    (hval : ∀ n, n < 256 ^ k → val (ofNat n) = n)
    {E1 : Encoder σ α} {sE1 : σ} {D1 : Decoder τ α} {sD1 : τ} {dom1 : α → Prop}
    {enc1 : α → Except ErrorKind Bytes} (h1 : Matched strict delim again E1 sE1 D1 sD1 dom1 enc1) :
    let E := mapFromEncoder (tupleEncoder2 E0.toEncoder E1) fun x => (ofNat (bytesOf (enc1 x)).length, x)
    let D := andThenDecoder D0 (lengthDecoder D1) fun n => .new sD1 (val n)
    let dom := fun x => dom1 x ∧ (bytesOf (enc1 x)).length < 256 ^ k
    Emits strict E (.new, sE1) dom (fun x => (enc1 x).map fun b => layout be k b.length ++ b) ∧
    RoundTrips strict true true E (.new, sE1) D (fixInit k, none) dom
      (fun x => k + (bytesOf (enc1 x)).length) := by
  intro E D dom
  have key : Matched strict true true E (.new, sE1) D (fixInit k, none) dom
      (fun x => (enc1 x).map fun b => layout be k b.length ++ b) := by
    have m := Matched.header (fun x => ofNat (bytesOf (enc1 x)).length)
      (fun n => LengthState.new sD1 (val n)) (matched_number h0 strict)
      (WritesWith.weaken (strict' := strict) (dom' := dom) (enc' := enc1) (matched_writes h1)
        (fun x hx => ⟨hx.1, rfl⟩) id)
      (fun n => Matched.weaken (strict' := strict) (delim' := true) (again' := again)
        (dom' := fun x => dom x ∧ True ∧ ofNat (bytesOf (enc1 x)).length = n) (enc' := enc1)
        (Matched.length (val n) (number_val_lt h0 n) h1)
        (fun x hx => ⟨⟨hx.1.1, by rw [← hx.2.2, hval _ hx.1.2]⟩, rfl⟩) id id id)
    refine m.weaken (fun x hx => ⟨⟨trivial, hx⟩, ?_⟩) id id id
    rw [hval _ hx.2, if_pos hx.2]
    cases hex : enc1 x with
    | error e => rfl
    | ok b => rfl
  refine ⟨matched_emits key, matched_roundTrips key _ fun x b hx hb => ?_⟩
  cases hex : enc1 x with
  | error e => rw [hex] at hb; cases hb
  | ok b' =>
    rw [hex] at hb
    cases hb
    simp [bytesOf, length_layout]

/-- Strings with a two-byte length. -/
example : (∀ n, n < 256 ^ 2 → (UInt16.ofNat n).toNat = n) ∧
    Matched true false true utf8Encoder.toEncoder .new (utf8Decoder remainingBytesDecoder) .new
      (fun x => (utf8Bytes x).length < 2 ^ 63) (fun x => .ok (utf8Bytes x)) :=
  ⟨fun n h => by rw [UInt16.toNat_ofNat', Nat.mod_eq_of_lt (by omega)],
    .utf8 true (fun _ _ => rfl) (.remaining true)⟩

/-! ## C23: `collect` -/

/-- C23: on a stream that consists of items of the format `wire`, each of at least one byte, cut in any
way, `collect` returns exactly these items, and can be used again. -/
theorem C23_items {q : Bool} {D : Decoder σ α} {s : σ} {F : σ → Prop} {wire : α → Bytes → Prop}
    (hs : Streamable (fun _ => True) true q D s) (hR : Reads true true D F wire) (hF : F s) :
    Repeatedly (collectDecoder D) ⟨s, [], false⟩ (fun chunks n xs => ∃ bs e, Many wire xs bs ∧ n = bs.length ∧
      Schedule chunks bs e ∧ EosSane e bs.length ∧ e.isReached = true) := by
  obtain ⟨I, hI, hIs⟩ := streamable_splits hs
  refine ⟨fun t => t.items = [] ∧ t.eos = false ∧ I t.inner ∧ F t.inner, ⟨rfl, rfl, hIs, hF⟩, ?_⟩
  rintro ⟨i, items, eos⟩ ⟨hit, heo, hIi, hFi⟩ chunks n xs ⟨bs, e, hm, rfl, hc, he, hr⟩
  simp only at hit heo hIi hFi
  subst hit heo
  obtain ⟨i', h1, h2⟩ := many_runs hR hm (tail := []) hFi (by simpa using he)
  rw [List.append_nil] at h1
  have h3 := runs_collect (s := ⟨i, [], false⟩) h1 rfl hr
  have hit : Item (collectDecoder D) ⟨i, [], false⟩ bs e bs.length ⟨i', xs, true⟩ xs ⟨i', [], false⟩ :=
    (item_busy rfl).2 ⟨by simpa using h3, rfl, rfl⟩
  obtain ⟨J, hJ, hJs⟩ := streamable_splits
    (Streamable.collect (ok := fun _ => True) trivial (.inr trivial) hs)
  refine ⟨_, splits_feed (splits_collect hI) hc hIi hit, rfl, rfl, h1.inv hI.steps hIi, h2⟩

/-- Two-byte numbers meet the hypotheses. -/
example : ∃ F wire, Streamable (fun _ => True) true true u16beDecoder (fixInit 2) ∧
    Reads true true u16beDecoder F wire ∧ F (fixInit 2) ∧ Many wire [513, 7] [2, 1, 0, 7] := by
  refine ⟨_, _, .number _ _ _ 2, reads_number _ 2, ⟨rfl, rfl⟩,
    .cons (b := [2, 1]) (bs := [0, 7]) ⟨by decide +kernel, rfl⟩ (by simp)
      (.cons (b := [0, 7]) ⟨by decide +kernel, rfl⟩ (by simp) .nil)⟩

/-- C23: sequences of items round trip. -/
theorem C23_round_trip {strict : Bool} {E : Encoder σ α} {sE : σ} {D : Decoder τ α} {sD : τ} {dom enc}
    (h : Matched strict true true E sE D sD dom enc) :
    RoundTrips strict false true (repeatEncoder E) (.new sE) (collectDecoder D) ⟨sD, [], false⟩
      (fun xs => ∀ x ∈ xs, dom x ∧ ∃ b, enc x = .ok b ∧ b ≠ [])
      (fun xs => (xs.map fun x => (bytesOf (enc x)).length).sum) := by
  refine matched_roundTrips (.collect h) _ fun xs b _ hb => ?_
  cases hb
  rw [List.length_flatMap]

/-- C23 (partial): if the stream ends inside an item (`cut` is what is there of it: the inner decoder
does not accept it at the end of the stream), then no way of cutting the stream makes `collect` return
something, except when the end of the stream is announced in an empty chunk: see
`C23_truncated_fails`. -/
theorem C23_truncated_partial {q : Bool} {D : Decoder σ α} {s : σ} {F : σ → Prop} {wire : α → Bytes → Prop}
    (hs : Streamable WithCollect true q D s) (hR : Reads true true D F wire) (hF : F s)
    {xs : List α} {bs cut : Bytes} (hm : Many wire xs bs) (hcut : cut ≠ []) {e : Eos}
    (hbad : ∀ t, F t → ∃ k t', D.decode t cut e = (.err k, t')) (hidle : ∀ t, F t → D.isIdle t = false)
    {chunks : List (Bytes × Eos)} (hc : Schedule chunks (bs ++ cut) e)
    (hlast : ∀ c, chunks.getLast? = some c → c.1 ≠ []) (he : EosSane e (bs ++ cut).length) :
    feed (collectDecoder D) ⟨s, [], false⟩ chunks = none := by
  cases hf : feed (collectDecoder D) ⟨s, [], false⟩ chunks with
  | none => rfl
  | some r =>
    exfalso
    obtain ⟨n, x, s'⟩ := r
    have h1 := C08_join_collect_any_partial hs hc hlast he hf
    obtain ⟨t, ht⟩ := feed_one.1 h1
    rw [item_busy rfl] at ht
    obtain ⟨k1, k2, k3⟩ := ht
    obtain ⟨h2, _, _, _⟩ := collect_done rfl k1 k2
    obtain ⟨i', h3, h4⟩ := many_runs hR hm (tail := cut) hF he
    have h5 : ∃ k, ∃ i'' items, collectLoop D (bs ++ cut) e 0 s [] = some (.ret (.err k) i'' items) := by
      have gen : ∀ {b : Bytes} {i i' : σ} {ys : List α} {m : Nat}, Runs D e b i ys m i' →
          ∀ {off items}, (bs ++ cut).drop off = b → off ≤ (bs ++ cut).length →
          off + m = bs.length → F i' →
          ∃ k i'' items', collectLoop D (bs ++ cut) e off i items = some (.ret (.err k) i'' items') := by
        intro b i i' ys m hruns
        induction hruns with
        | stop b i =>
          intro off items hb ho hm hF'
          have : off = bs.length := by omega
          subst this
          obtain ⟨k, t', hk⟩ := hbad i hF'
          have hlt : bs.length < (bs ++ cut).length := by
            have := List.length_pos_iff.2 hcut
            simp; omega
          refine ⟨k, t', items, ?_⟩
          rw [collectLoop, if_pos hlt, tryDecode, if_neg (by simp [hidle i hF']), if_neg (by omega),
            List.drop_left, hk]
        | @step b i t i1 i2 y ys m1 m2 hne hit hm1 _ ih =>
          intro off items hb ho hm hF'
          subst hb
          have hlt : off < (bs ++ cut).length := by
            have := List.length_pos_iff.2 hne
            rw [List.length_drop] at this
            omega
          rw [List.length_drop] at hm1
          rw [collectLoop, if_pos hlt, (tryDecode_at ho).2 ⟨Nat.le_add_right off m1, by
            rw [Nat.add_sub_cancel_left]; exact hit.1⟩]
          simp only
          rw [hit.2]
          simp only
          exact ih (by rw [List.drop_drop]) (by omega) (by omega) hF'
      exact gen h3 (by simp) (by omega) (by omega) h4
    obtain ⟨k, i'', items, h5⟩ := h5
    rw [h5] at h2
    cases h2

/-- One item and a half. -/
example : ∃ F wire, Reads true true u16beDecoder F wire ∧ F (fixInit 2) ∧ Many wire [513] [2, 1] ∧
    (∀ t, F t → ∃ k t', u16beDecoder.decode t [7] (Eos.new true) = (.err k, t')) ∧
    (∀ t, F t → u16beDecoder.isIdle t = false) := by
  refine ⟨_, _, reads_number _ 2, ⟨rfl, rfl⟩, .cons (b := [2, 1]) ⟨by decide +kernel, rfl⟩ (by simp) .nil, ?_, ?_⟩
  · rintro ⟨B, off⟩ ⟨rfl, hB⟩
    simp only at hB
    have := C15_truncated ⟨B, 0⟩ [7] (Eos.new true) rfl (by simp [hB])
    exact ⟨_, _, Prod.ext this rfl⟩
  · rintro ⟨B, off⟩ ⟨rfl, hB⟩
    simp only at hB
    simp [u16beDecoder, fixDecoder, copyableBytesDecoder, hB]

/-- C23 (the code deviates): when the end of the stream is announced in an empty chunk, `collect`
drops a truncated item silently. -/
theorem C23_truncated_fails :
    Schedule [([1], Eos.new false), ([], Eos.new true)] [1] (Eos.new true) ∧
    (feed (collectDecoder u16beDecoder) ⟨fixInit 2, [], false⟩
      [([1], Eos.new false), ([], Eos.new true)]).map (fun r => (r.1, r.2.1)) = some (1, []) :=
  ⟨C08_collect_fails.1, C08_collect_fails.2.1⟩

/-- C23 (the code deviates): items of zero bytes make `collect` loop forever on any non-empty buffer. -/
theorem C23_empty_items_fails (b : UInt8) (bs : Bytes) (e : Eos) :
    ((collectDecoder nullDecoder).decode ⟨(), [], false⟩ (b :: bs) e).1 = .diverge := by
  have h : ∀ off s items r, collectLoop nullDecoder (b :: bs) e off s items = some r → off = 0 → False := by
    apply collectLoop.partial_correctness nullDecoder (b :: bs) e
    intro loop ih off s items r h ho
    subst ho
    rw [if_pos (by simp)] at h
    simp only [tryDecode, nullDecoder, if_true] at h
    exact ih _ _ _ _ h rfl
  simp only [collectDecoder]
  cases hl : collectLoop nullDecoder (b :: bs) e 0 () [] with
  | none => rfl
  | some r => exact (h _ _ _ _ hl rfl).elim

/-! ## C24: `collectn` -/

/-- C24: from items of the format `wire`, each of at least one byte, followed by anything, cut in any
way, `collectn(n)` returns exactly the first `n` and consumes exactly their bytes; afterwards
`set_remaining_items` makes it ready for the next sequence. -/
theorem C24_items_partial {q : Bool} {D : Decoder σ α} {s : σ} {F : σ → Prop} {wire : α → Bytes → Prop}
    (hs : Streamable (fun _ => True) true q D s) (hR : Reads true true D F wire) (hF : F s) :
    ∃ G : σ → Prop, G s ∧ ∀ i, G i → ∀ {xs bs tail e chunks}, Many wire xs bs → EosSane e (bs ++ tail).length →
      Schedule chunks (bs ++ tail) e →
      ∃ i', feed (collectNDecoder D) (.new i xs.length) chunks = some (bs.length, xs, ⟨i', 0, []⟩) ∧ G i' ∧
        ∀ m, (⟨i', 0, []⟩ : CollectNState σ α).setRemainingItems m = .new i' m := by
  obtain ⟨I, hI, hIs⟩ := streamable_splits hs
  refine ⟨fun i => I i ∧ F i, ⟨hIs, hF⟩, ?_⟩
  rintro i ⟨hIi, hFi⟩ xs bs tail e chunks hm he hc
  obtain ⟨i', h1, h2⟩ := many_runs hR hm (tail := tail) hFi he
  have h3 := runs_collectN (s := ⟨i, xs.length, []⟩) h1 rfl
  refine ⟨i', ?_, ⟨h1.inv hI.steps hIi, h2⟩, fun m => rfl⟩
  have hit : Item (collectNDecoder D) (.new i xs.length) (bs ++ tail) e bs.length ⟨i', 0, xs⟩ xs ⟨i', 0, []⟩ := by
    cases hxs : xs with
    | cons y ys =>
      have hb : (collectNDecoder D).isIdle (.new i xs.length) = false := by
        rw [hxs]; simp [collectNDecoder, CollectNState.new]
      rw [hxs] at hb h3
      exact (item_busy hb).2 ⟨by simpa [CollectNState.new] using h3, by simp [collectNDecoder],
        by simp [collectNDecoder]⟩
    | nil =>
      subst hxs
      cases hm
      cases h1
      exact (item_quiet (by simp [collectNDecoder, CollectNState.new])).2
        ⟨rfl, rfl, by simp [collectNDecoder, CollectNState.new]⟩
  exact splits_feed (splits_collectN true hI) hc hIi hit

/-- C24: `n = 0` consumes nothing and yields the empty list. -/
theorem C24_zero (D : Decoder σ α) (s : σ) (b : Bytes) (e : Eos) :
    (collectNDecoder D).isIdle (.new s 0) = true ∧
    (collectNDecoder D).decode (.new s 0) b e = (.ok 0, .new s 0) ∧
    (collectNDecoder D).finish (.new s 0) = (.ok [], .new s 0) := by
  simp [collectNDecoder, CollectNState.new, collectNLoop]

/-- C24: if the stream ends after fewer than `n` items, the outcome is `UnexpectedEos`, however the
bytes are cut. -/
theorem C24_too_few {q : Bool} {D : Decoder σ α} {s : σ} {F : σ → Prop} {wire : α → Bytes → Prop}
    (hs : Streamable (fun _ => True) true q D s) (hR : Reads true true D F wire) (hF : F s)
    {xs : List α} {bs : Bytes} (hm : Many wire xs bs) {e : Eos} (he : EosSane e bs.length)
    (hr : e.isReached = true) {chunks : List (Bytes × Eos)} (hc : Schedule chunks bs e) {n : Nat}
    (hn : xs.length < n) : feedErr (collectNDecoder D) (.new s n) chunks = some .unexpectedEos := by
  obtain ⟨I, hI, hIs⟩ := streamable_splits hs
  obtain ⟨i', h1, h2⟩ := many_runs hR hm (tail := []) hF (by simpa using he)
  rw [List.append_nil] at h1
  exact feedErr_collectN hI hc hr hIs h1 hn

example : (feed (collectNDecoder u16beDecoder) (.new (fixInit 2) 2)
      [([0, 1, 0], Eos.new false), ([2, 9], Eos.new true)]).map (fun r => (r.1, r.2.1)) = some (4, [1, 2]) ∧
    feedErr (collectNDecoder u16beDecoder) (.new (fixInit 2) 2) [([0, 1], Eos.new false), ([], Eos.new true)]
      = some .unexpectedEos := by
  decide +kernel

/-- C24 (the code deviates): an item of zero bytes is not decoded from an empty buffer; at the end of
the stream `collectn(1)` reports `UnexpectedEos` although nothing is missing. -/
theorem C24_empty_items_fails :
    ((nullDecoder.decode () [] (Eos.new true)).1 = .ok 0 ∧ nullDecoder.isIdle () = true) ∧
    ((collectNDecoder nullDecoder).decode (.new () 1) [] (Eos.new true)).1 = .err .unexpectedEos := by
  decide +kernel

/-! ## C50: `decode_from_bytes` -/

/-- C50: it returns `x` iff one `decode` call at the end of the stream consumes all bytes and the
item is `x`. -/
theorem C50_exact (D : Decoder σ α) (s : σ) (b : Bytes) (x : α) :
    (decodeFromBytes D s b).1 = .ok x ↔
      ∃ s', D.decode s b (Eos.new true) = (.ok b.length, s') ∧ (D.finish s').1 = .ok x := by
  simp only [decodeFromBytes]
  rcases D.decode s b (Eos.new true) with ⟨r, s'⟩
  cases r with
  | ok n =>
    simp only [Res.step]
    split
    · next h => subst h; simp
    · next h => simp [h]
  | _ => simp [Res.step]

/-- C50: bytes left over give `InvalidInput`. -/
theorem C50_trailing (D : Decoder σ α) (s s' : σ) (b : Bytes) (n : Nat)
    (h : D.decode s b (Eos.new true) = (.ok n, s')) (hn : n < b.length) :
    (decodeFromBytes D s b).1 = .err .invalidInput := by
  rw [decodeFromBytes, h]
  simp only [Res.step]
  rw [if_neg (by omega)]

/-- C50: it inverts `encode_into_bytes` for every matching pair, for items that fit into memory. -/
theorem C50_inverse {strict delim again : Bool} {E : Encoder σ α} {sE : σ} {D : Decoder τ α} {sD : τ}
    {dom enc} (h : Matched strict delim again E sE D sD dom enc) {x : α} (hd : dom x) {b : Bytes}
    (hb : enc x = .ok b) (hl : b.length < 2 ^ 63) :
    (encodeIntoBytes E sE x).1 = .ok b ∧ (decodeFromBytes D sD b).1 = .ok x := by
  have hE := matched_emits h
  obtain ⟨s', _, h1, _, _⟩ := (C34_encode_into_bytes hE (.new) hE.new hd).1 b hb hl
  obtain ⟨t, h2⟩ := matched_fromBytes h hd hb (by omega)
  exact ⟨by rw [h1], by rw [h2]⟩

example : (encodeIntoBytes (tupleEncoder2 u8Encoder.toEncoder utf8Encoder.toEncoder) (.new, .new) (7, "hé")).1
      = .ok [7, 104, 0xC3, 0xA9] ∧
    (decodeFromBytes (tupleDecoder2 u8Decoder (utf8Decoder remainingBytesDecoder)) (fixInit 1, .new)
      [7, 104, 0xC3, 0xA9]).1 = .ok (7, "hé") ∧
    (decodeFromBytes u8Decoder (fixInit 1) [7, 8]).1 = .err .invalidInput := by
  decide +kernel

end Bytecodec.Props
