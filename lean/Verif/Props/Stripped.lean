import Verif.Lemmas.StrippedEnc
import Verif.Props.Lossless
/-!
# C86: limits and checks only ever reject

`Stripped` (Spec/Stripped) takes any number of `max_bytes`, checks and conversions of errors out of a codec, at any
depth. What the codec accepts, it answers as if they were not there.
-/
namespace Bytecodec.Props

open Bytecodec Bytecodec.Spec

variable {σ τ α : Type}

/-! ## Decoders -/

/-- C86: as long as every call succeeds, a caller cannot tell whether the limits and checks are there: the answers are
the same without them, and so is everything `is_idle` and `requiring_bytes` say. -/
theorem C86_calls {D : Decoder σ α} {s : σ} {D' : Decoder τ α} {s' : τ} (h : Stripped D s D' s') (calls : List Call)
    (hok : ∀ o ∈ observe D s calls, o.answer.isOk = true) :
    D'.isIdle s' = D.isIdle s ∧ D'.requiring s' = D.requiring s ∧ observe D' s' calls = observe D s calls := by
  obtain ⟨R, hk, hr⟩ := stripped_kept h
  exact ⟨(hk.idle hr).symm, (hk.req hr).symm, hk.observe hr calls hok⟩

/-- C86: an item accepted, whatever the pieces it came in, is the item without limits and checks, from the same bytes. -/
theorem C86_item {D : Decoder σ α} {s : σ} {D' : Decoder τ α} {s' : τ} (h : Stripped D s D' s')
    {chunks : List (Bytes × Eos)} {n : Nat} {x : α} {t : σ} (hf : feed D s chunks = some (n, x, t)) :
    ∃ t', feed D' s' chunks = some (n, x, t') := by
  obtain ⟨R, hk, hr⟩ := stripped_kept h
  obtain ⟨t', h1, _⟩ := hk.feed chunks hr hf
  exact ⟨t', h1⟩

/-- C86: if the decoder without the limits can be fed in pieces (C07), then the sizes of the pieces decide only whether
the decoder with the limits accepts (C08 says that they do), not what it makes of the bytes. -/
theorem C86_schedules {p q : Bool} {D : Decoder σ α} {s : σ} {D' : Decoder τ α} {s' : τ} (h : Stripped D s D' s')
    (hp : Streamable Plain p q D' s') {chunks chunks' : List (Bytes × Eos)} {b : Bytes} {e : Eos}
    (hc : Schedule chunks b e) (hc' : Schedule chunks' b e) (he : EosSane e b.length)
    {n n' : Nat} {x x' : α} {t t' : σ} (hf : feed D s chunks = some (n, x, t))
    (hf' : feed D s chunks' = some (n', x', t')) :
    n' = n ∧ x' = x ∧ ∃ u, feed D' s' [(b, e)] = some (n, x, u) := by
  obtain ⟨u, hu⟩ := C86_item h hf
  obtain ⟨u', hu'⟩ := C86_item h hf'
  have h1 := C08_join_partial hp hc he hu
  have h2 := C08_join_partial hp hc' he hu'
  rw [h1] at h2
  cases h2
  exact ⟨rfl, rfl, _, h1⟩

/-- C86: the same for `decode_from_bytes`. -/
theorem C86_from_bytes {D : Decoder σ α} {s : σ} {D' : Decoder τ α} {s' : τ} (h : Stripped D s D' s')
    {b : Bytes} {x : α} (hf : (decodeFromBytes D s b).1 = .ok x) : (decodeFromBytes D' s' b).1 = .ok x := by
  obtain ⟨R, hk, hr⟩ := stripped_kept h
  obtain ⟨t', h1, _⟩ := hk.decodeFromBytes hr b x (decodeFromBytes D s b).2 (by rw [← hf])
  rw [h1]

/-- C86: the same for `decode_exact`, which also leaves the reader where it would be. -/
theorem C86_exact {ρ : Type} {D : Decoder σ α} {s : σ} {D' : Decoder τ α} {s' : τ} (h : Stripped D s D' s')
    (Rd : Reader ρ) {r r' : ρ} {x : α} {t : σ} (hf : decodeExact D Rd s r = some (.ok x, t, r')) :
    ∃ t', decodeExact D' Rd s' r = some (.ok x, t', r') := by
  obtain ⟨R, hk, hr⟩ := stripped_kept h
  obtain ⟨t', h1, _⟩ := hk.decodeExact Rd _ _ _ hf _ hr _ _ _ rfl
  exact ⟨t', h1⟩

/-- C86: a lossless decoder (C63) stays lossless under limits and checks: encoding an item that came through them, in
pieces of any sizes, gives back exactly the bytes consumed. -/
theorem C86_lossless {υ : Type} {delim again strict p q : Bool} {D : Decoder σ α} {s : σ} {D' : Decoder τ α} {s' : τ}
    (hs : Stripped D s D' s') {dom : α → Prop} {enc : α → Except ErrorKind Bytes}
    (h : Lossless delim again D' s' dom enc) (hp : Streamable Plain p q D' s')
    {E : Encoder υ α} {sE : υ} (hE : Writes strict E sE dom enc)
    {chunks : List (Bytes × Eos)} {b : Bytes} {e : Eos} (hc : Schedule chunks b e) (he : EosSane e b.length)
    {n : Nat} {x : α} {t : σ} (hf : feed D s chunks = some (n, x, t)) :
    n ≤ b.length ∧ dom x ∧ enc x = .ok (b.take n) ∧
      (n < 2 ^ 63 → (encodeIntoBytes E sE x).1 = .ok (b.take n)) := by
  obtain ⟨u, hu⟩ := C86_item hs hf
  exact C63_chunked_partial h hp hE hc he hu

/-- C86: a relay (C63) with limits and checks, at any depth of its decoder: what it has taken from the stream it can
send on, and it emits exactly the part of the stream it consumed. -/
theorem C86_relay {υ : Type} {delim strict p q : Bool} {D : Decoder σ α} {s : σ} {D' : Decoder τ α} {s' : τ}
    (hs : Stripped D s D' s') {dom : α → Prop} {enc : α → Except ErrorKind Bytes}
    (h : Lossless delim true D' s' dom enc) (hp : Streamable Plain p q D' s')
    {E : Encoder υ α} {sE : υ} (hE : Writes strict E sE dom enc)
    {stream : Bytes} {e : Eos} (he : EosSane e stream.length) {u : σ} {pos : Nat} {items : List α}
    (hr : Relays D stream e s u pos items) :
    (∀ {t sent out}, Sends strict E sE t sent out → (∀ x ∈ sent, x ∈ items) → E.isIdle t = true →
      ∀ x ∈ items, (E.start t x).1 = .ok ()) ∧
    ∀ {t out}, Sends strict E sE t items out → E.isIdle t = true → out = stream.take pos := by
  obtain ⟨R, hk, hR⟩ := stripped_kept hs
  have key : ∃ u', R u u' ∧ Relays D' stream e s' u' pos items := by
    clear he h hp
    induction hr with
    | new => exact ⟨_, hR, .new⟩
    | next _ hc hf ih =>
      obtain ⟨u', h1, h2⟩ := ih
      obtain ⟨t', h3, h4⟩ := hk.feed _ h1 hf
      exact ⟨t', h4, .next h2 hc h3⟩
  obtain ⟨_, _, h1⟩ := key
  exact C63_relay_partial h hp hE he h1

/-! ## Encoders -/

/-- C86: as long as every call succeeds, the encoder writes the same bytes without its limits and checks. -/
theorem C86_encoder_calls {E : Encoder σ α} {s : σ} {E' : Encoder τ α} {s' : τ} (h : StrippedE E s E' s')
    (calls : List (ECall α)) (hok : ∀ o ∈ observeE E s calls, o.answer.isOk = true) :
    E'.isIdle s' = E.isIdle s ∧ E'.requiring s' = E.requiring s ∧ observeE E' s' calls = observeE E s calls := by
  obtain ⟨R, hk, hr⟩ := strippedE_kept h
  exact ⟨(hk.idle hr).symm, (hk.req hr).symm, hk.observe hr calls hok⟩

/-- C86: the same for `encode_into_bytes`. -/
theorem C86_encode_into_bytes {E : Encoder σ α} {s : σ} {E' : Encoder τ α} {s' : τ} (h : StrippedE E s E' s')
    {x : α} {b : Bytes} (hf : (encodeIntoBytes E s x).1 = .ok b) : (encodeIntoBytes E' s' x).1 = .ok b := by
  obtain ⟨R, hk, hr⟩ := strippedE_kept h
  obtain ⟨t', h1, _⟩ := hk.encodeIntoBytes hr x b (encodeIntoBytes E s x).2 (by rw [← hf])
  rw [h1]

/-- C86: the same for `start_encoding` followed by `encode_all`, whatever the writer. -/
theorem C86_encode_all {ω : Type} {E : Encoder σ α} {s : σ} {E' : Encoder τ α} {s' : τ} (h : StrippedE E s E' s')
    (W : Writer ω) {x : α} {w w' : ω} {t u : σ} (hst : E.start s x = (.ok (), t))
    (hf : encodeAll E W t w = some (.ok (), u, w')) :
    ∃ t' u', E'.start s' x = (.ok (), t') ∧ encodeAll E' W t' w = some (.ok (), u', w') := by
  obtain ⟨R, hk, hr⟩ := strippedE_kept h
  obtain ⟨t', h1, h2⟩ := hk.start hr _ _ _ hst
  obtain ⟨u', h3, _⟩ := hk.encodeAll W _ _ _ hf _ h2 _ _ _ rfl
  exact ⟨t', u', h1, h3⟩

/-! ## Examples -/

/-- A port number, for instance: a check in a pair under a limit. -/
example : Stripped
    (maxBytesDecoder (tupleDecoder2 (tryMapDecoder u16beDecoder fun n => if n = 0 then .error .invalidInput else .ok n)
      (maxBytesDecoder remainingBytesDecoder))) (.new (fixInit 2, .new .new 4) 5)
    (tupleDecoder2 u16beDecoder remainingBytesDecoder) (fixInit 2, .new) := by
  refine .maxBytes 5 (.pair (.check _ (fun x y h => ?_) .same) (.maxBytes 4 .same))
  split at h
  · cases h
  · exact (Except.ok.inj h).symm

/-- Both schedules are accepted, and the same bytes in one piece are not. -/
example :
    (feed (maxBytesDecoder u16beDecoder) (.new (fixInit 2) 2)
      [([1], Eos.new false), ([2], Eos.new false), ([3], Eos.new false)]).map (fun r => (r.1, r.2.1)) = some (2, 258) ∧
    (feed (maxBytesDecoder u16beDecoder) (.new (fixInit 2) 2)
      [([1, 2], Eos.new false), ([3], Eos.new false)]).map (fun r => (r.1, r.2.1)) = some (2, 258) ∧
    (feed (maxBytesDecoder u16beDecoder) (.new (fixInit 2) 2) [([1, 2, 3], Eos.new false)]).isNone = true ∧
    Streamable Plain true false u16beDecoder (fixInit 2) :=
  ⟨by decide +kernel, by decide +kernel, by decide +kernel, .number true false _ 2⟩

/-- Every call succeeds. -/
example : ∀ o ∈ observe (maxBytesDecoder u16beDecoder) (.new (fixInit 2) 2)
    [.decode [1] (Eos.new false), .decode [2] (Eos.new false), .finish], o.answer.isOk = true := by
  intro o ho
  simp only [observe, List.mem_cons, List.not_mem_nil, or_false] at ho
  rcases ho with rfl | rfl | rfl <;> rfl

/-- A limited encoder that accepts the item and writes it. -/
example : StrippedE (maxBytesEncoder (tryMapFromEncoder u16beEncoder.toEncoder
      fun n => if n = 0 then .error .invalidInput else .ok n)) (.new .new 2) u16beEncoder.toEncoder .new ∧
    (encodeIntoBytes (maxBytesEncoder (tryMapFromEncoder u16beEncoder.toEncoder
      fun n => if n = 0 then .error .invalidInput else .ok n)) (.new .new 2) 258).1 = .ok [1, 2] := by
  refine ⟨.maxBytes 2 (.check _ (fun x y h => ?_) .same), rfl⟩
  split at h
  · cases h
  · exact (Except.ok.inj h).symm

/-- A relay through a limit, which takes the number because it comes in two pieces. -/
example : Stripped (maxBytesDecoder u16beDecoder) (.new (fixInit 2) 2) u16beDecoder (fixInit 2) ∧
    ∃ u, Relays (maxBytesDecoder u16beDecoder) [1, 2, 3] (Eos.new false) (.new (fixInit 2) 2) u 2 [258] := by
  refine ⟨.maxBytes 2 .same, ?_⟩
  have hc : Schedule [([1], Eos.new false), ([2], Eos.new false), ([3], Eos.new false)] [1, 2, 3] (Eos.new false) :=
    .cons [1] _ (.inl rfl) (.cons [2] _ (.inl rfl) (.last [3] _))
  have hm : (feed (maxBytesDecoder u16beDecoder) (.new (fixInit 2) 2)
      [([1], Eos.new false), ([2], Eos.new false), ([3], Eos.new false)]).map (fun r => (r.1, r.2.1)) =
      some (2, 258) := by decide +kernel
  cases hf : feed (maxBytesDecoder u16beDecoder) (.new (fixInit 2) 2)
      [([1], Eos.new false), ([2], Eos.new false), ([3], Eos.new false)] with
  | none => rw [hf] at hm; cases hm
  | some r =>
    obtain ⟨n, x, u⟩ := r
    rw [hf] at hm
    cases hm
    exact ⟨u, .next .new hc hf⟩

end Bytecodec.Props
