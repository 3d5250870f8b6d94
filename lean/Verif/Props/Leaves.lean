import Verif.Lemmas.Tally
import Verif.Lemmas.Sequence
import Verif.Props.Chunking
/-!
# C16, C17, C36, C47: leaf codecs
-/
namespace Bytecodec.Props

open Bytecodec Bytecodec.Spec

variable {σ α β : Type}

/-! ## C16: `BytesDecoder` -/

/-- C16: it fills its buffer `b` with exactly the next `b.length` bytes of the stream, cut in any way. -/
theorem C16_item (b stream : Bytes) (e : Eos) (h : b.length ≤ stream.length) (he : EosSane e stream.length) :
    Receives bytesDecoder (.new b) stream e [stream.take b.length] (fun _ => b.length) := by
  have hl : (stream.take b.length).length = b.length := by rw [List.length_take]; omega
  have := matched_receives (Matched.bytes true b) (size := fun _ => b.length) (msgs := [stream.take b.length])
    (tail := stream.drop b.length) (e := e)
    (by intro x hx; rw [List.mem_singleton] at hx; subst hx; exact ⟨hl, _, rfl, hl.symm⟩)
    (by simpa [bytesOf] using he) (.inr (by simp)) (.inl rfl)
  simpa [bytesOf] using this

/-- C16: once the item is taken, every `decode` and `finish_decoding` fails with `DecoderTerminated`,
whatever was called in between. -/
theorem C16_terminated {s s' t : BytesDecoderState} {x : Bytes} (h : bytesDecoder.finish s = (.ok x, s'))
    (ht : Reach bytesDecoder s' t) (b : Bytes) (e : Eos) :
    (bytesDecoder.decode t b e).1 = .err .decoderTerminated ∧
    (bytesDecoder.finish t).1 = .err .decoderTerminated := by
  have h0 : s'.bytes = none := by
    simp only [bytesDecoder] at h
    split at h
    · cases h
    · rcases hb : s.bytes with _ | b
      · rw [hb] at h; cases h
      · rw [hb] at h; cases h; rfl
  have hi : t.bytes = none := by
    refine Spec.Reach.inv (D := bytesDecoder) (Inv := fun t => t.bytes = none) h0 ?_ ?_ ht
    · intro s b e hs _
      simp only [bytesDecoder, hs]
    · intro s hs
      simp [bytesDecoder, hs, BytesDecoderState.exact]
  constructor
  · simp only [bytesDecoder, hi]
  · simp [bytesDecoder, hi, BytesDecoderState.exact]

/-- C16: `set_bytes` re-arms it, in every state. -/
theorem C16_setBytes (s : BytesDecoderState) (b : Bytes) : s.setBytes b = .new b := rfl

example : (feed bytesDecoder (.new [0, 0]) [([7], Eos.new false), ([8, 9], Eos.new false)]).map
      (fun r => (r.1, r.2.1)) = some (2, [7, 8]) ∧
    (feed bytesDecoder (.new [0, 0]) [([7], Eos.new false), ([8, 9], Eos.new false)]).map
      (fun r => (bytesDecoder.decode r.2.2 [9] (Eos.new false)).1) = some (.err .decoderTerminated) := by
  decide +kernel

/-! ## C17: `RemainingBytesDecoder` -/

/-- C17: it returns the concatenation of everything before the end of the stream, cut in any way, and
then starts afresh. -/
theorem C17_concat {chunks : List (Bytes × Eos)} {b : Bytes} {e : Eos} (hc : Schedule chunks b e)
    (he : e.isReached = true) (hl : b.length < 2 ^ 63) :
    feed remainingBytesDecoder .new chunks = some (b.length, b, .new) := by
  have hr : e.remaining = .finite 0 := by
    rcases e with ⟨_ | _ | _⟩ <;> simp_all [Eos.isReached]
  have hs : EosSane e b.length := by
    intro n hn; rw [hr] at hn; cases hn; omega
  rw [C08_any_two_schedules_partial (.remaining true) hc (.last b e) hs]
  rw [feed_one]
  refine ⟨⟨b, true⟩, (item_busy rfl).2 ⟨?_, rfl, rfl⟩⟩
  have : e.remainingBytes.toU64 = some 0 := by rw [Eos.remainingBytes, hr]; rfl
  simp only [remainingBytesDecoder, RemainingState.new, this]
  simp
  rw [if_neg (by omega), if_neg (by omega), he]

/-- C17: every byte offered before the end is consumed, unless the announced size is too large. -/
theorem C17_takes_all (s : RemainingState) (b : Bytes) (e : Eos) (he : EosSane e b.length)
    (hi : remainingBytesDecoder.isIdle s = false) :
    (remainingBytesDecoder.decode s b e).1 = .ok b.length ∨
    (remainingBytesDecoder.decode s b e).1 = .capacity := by
  simp only [remainingBytesDecoder] at hi ⊢
  rw [if_neg (by simp [hi])]
  rcases hr : e.remaining with n | _ | _ <;> simp only [Eos.remainingBytes, hr, ByteCount.toU64]
  · have := he n hr
    rw [if_neg (by omega)]
    split <;> simp
  · simp
  · simp

/-- C17: the capacity panic occurs exactly when the bytes consumed for this item, the bytes offered and
the announced rest together exceed `isize::MAX`. -/
theorem C17_capacity {s : RemainingState} {c f : Nat} (h : Tally remainingBytesDecoder noSet .new s c f)
    {b : Bytes} {e : Eos} (he : EosSane e b.length) :
    (remainingBytesDecoder.decode s b e).1 = .capacity ↔
      remainingBytesDecoder.isIdle s = false ∧ ∃ r, e.remaining = .finite r ∧ 2 ^ 63 ≤ c + b.length + r := by
  have hc := tally_remaining h
  simp only [remainingBytesDecoder]
  cases hs : s.eos
  · rcases hr : e.remaining with n | _ | _ <;> simp only [Eos.remainingBytes, hr, ByteCount.toU64]
    · have := he n hr
      rw [if_neg (by simp), if_neg (by omega)]
      constructor
      · intro h
        split at h
        · exact ⟨trivial, n, rfl, by omega⟩
        · cases h
      · rintro ⟨_, r, hr', hle⟩
        cases hr'
        rw [if_pos (by omega)]
    · simp
    · simp
  · simp

example : Schedule [([1], Eos.new false), ([], ⟨.finite 2⟩), ([2, 3], Eos.new true)] [1, 2, 3] (Eos.new true) :=
  .cons [1] _ (.inl rfl) (.cons [] _ (.inr rfl) (.last [2, 3] _))

/-- A hostile announcement. -/
example : (remainingBytesDecoder.decode .new [] ⟨.finite (2 ^ 63)⟩).1 = .capacity ∧
    EosSane ⟨.finite (2 ^ 63)⟩ ([] : Bytes).length :=
  ⟨by decide +kernel, by intro n h; cases h; decide⟩

/-! ## C36: padding -/

/-- C36 (encoder): after `start_encoding(b)` every buffer is filled completely with `b`, until and
including the first buffer that comes with the end of the stream. Only then the encoder is idle; after
that it writes nothing. -/
theorem C36_encoder (b : UInt8) (bufs : List (Nat × Eos)) (hb : ∀ p ∈ bufs, p.2.isReached = false)
    (cap : Nat) (e : Eos) (he : e.isReached = true) (cap' : Nat) (e' : Eos) :
    observeE paddingEncoder none
      ([.start b] ++ bufs.map (fun p => .encode p.1 p.2) ++ [.encode cap e, .encode cap' e']) =
    [⟨.start (.ok ()), false, .infinite⟩] ++
      bufs.map (fun p => ⟨.encode (.ok (List.replicate p.1 b)), false, .infinite⟩) ++
      [⟨.encode (.ok (List.replicate cap b)), true, .finite 0⟩, ⟨.encode (.ok []), true, .finite 0⟩] := by
  rw [List.append_assoc, List.append_assoc]
  simp only [List.cons_append, List.nil_append, observeE]
  congr 1
  show observeE paddingEncoder (some b) _ = _
  induction bufs with
  | nil =>
    have h1 : paddingEncoder.encode (some b) cap e = (.ok (List.replicate cap b), none) := by
      simp only [paddingEncoder, he, if_true]
    simp only [List.map_nil, List.nil_append, observeE, ecallState, ecallAnswer, h1]
    rfl
  | cons p ps ih =>
    have h1 : paddingEncoder.encode (some b) p.1 p.2 = (.ok (List.replicate p.1 b), some b) := by
      simp only [paddingEncoder, hb p List.mem_cons_self]
      rfl
    simp only [List.map_cons, List.cons_append, observeE, ecallState, ecallAnswer, h1]
    rw [ih fun q hq => hb q (List.mem_cons_of_mem _ hq)]
    rfl

/-- C36 (encoder): a second item is refused while the first is being written. -/
theorem C36_busy (b b' : UInt8) : paddingEncoder.start (some b) b' = (.err .encoderFull, some b) := rfl

/-- What the padding decoder accepts. -/
def isPadding (expected : Option UInt8) (b : Bytes) : Prop :=
  ∀ x, expected = some x → ∀ y ∈ b, y = x

/-- C36 (decoder): it accepts exactly the streams made of the expected byte (any stream if none is
set), cut in any way, consumes all bytes, and is as new afterwards. -/
theorem C36_accepted {chunks : List (Bytes × Eos)} {b : Bytes} {e : Eos} (hc : Schedule chunks b e)
    (he : e.isReached = true) (hl : b.length < 2 ^ 64) (expected : Option UInt8) :
    (isPadding expected b → feed paddingDecoder (.new expected) chunks = some (b.length, (), .new expected)) ∧
    (¬ isPadding expected b → feed paddingDecoder (.new expected) chunks = none) := by
  have hr : e.remaining = .finite 0 := by
    rcases e with ⟨_ | _ | _⟩ <;> simp_all [Eos.isReached]
  have hs : EosSane e b.length := by
    intro n hn; rw [hr] at hn; cases hn; omega
  have key : ∀ r, feed paddingDecoder (.new expected) chunks = some r ↔
      isPadding expected b ∧ r = (b.length, (), .new expected) := by
    rintro ⟨n, ⟨⟩, t⟩
    rw [C08_any_two_schedules_partial (.padding true expected) hc (.last b e) hs, feed_one]
    constructor
    · rintro ⟨t', ht⟩
      rw [item_busy rfl] at ht
      obtain ⟨h1, h2, h3⟩ := ht
      cases expected with
      | none =>
        simp only [paddingDecoder, PaddingState.new] at h1
        cases h1
        simp only [paddingDecoder, he, if_true] at h3
        cases h3
        exact ⟨by simp [isPadding], rfl⟩
      | some x =>
        simp only [paddingDecoder, PaddingState.new] at h1
        by_cases ha : b.all (fun y => y == x) = true
        · rw [if_neg (by simp), if_pos ha] at h1
          cases h1
          simp only [paddingDecoder, he, if_true] at h3
          cases h3
          refine ⟨?_, rfl⟩
          rintro x' hx y hy
          cases hx
          simpa using List.all_eq_true.1 ha y hy
        · rw [if_neg (by simp), if_neg ha] at h1
          cases h1
    · rintro ⟨hp, hr'⟩
      cases hr'
      refine ⟨⟨expected, true⟩, (item_busy rfl).2 ⟨?_, rfl, rfl⟩⟩
      cases expected with
      | none => simp [paddingDecoder, PaddingState.new, he]
      | some x =>
        have ha : b.all (fun y => y == x) = true :=
          List.all_eq_true.2 fun y hy => by simpa using hp x rfl y hy
        simp only [paddingDecoder, PaddingState.new]
        rw [if_neg (by simp), if_pos ha, he]
  refine ⟨fun hp => (key _).2 ⟨hp, rfl⟩, fun hp => ?_⟩
  cases hf : feed paddingDecoder (.new expected) chunks with
  | none => rfl
  | some r => exact (hp ((key r).1 hf).1).elim

/-- C36 (decoder): `set_expected_byte` is about the bytes to come: whether the end of the padding has been reached, and
the item, stay; from then on, and for the next item, the new byte is expected. -/
theorem C36_set (s : PaddingState) (expected : Option UInt8) :
    let s' := s.setExpectedByte expected
    paddingDecoder.isIdle s' = paddingDecoder.isIdle s ∧ paddingDecoder.requiring s' = paddingDecoder.requiring s ∧
    (paddingDecoder.finish s').1 = (paddingDecoder.finish s).1 ∧
    (paddingDecoder.isIdle s = true → (paddingDecoder.finish s').2 = .new expected ∧
      ∀ b e, paddingDecoder.decode s' b e = (.ok 0, s')) ∧
    (paddingDecoder.isIdle s = false → ∀ b e,
      (isPadding expected b → (paddingDecoder.decode s' b e).1 = .ok b.length) ∧
      (¬ isPadding expected b → paddingDecoder.decode s' b e = (.err .invalidInput, s'))) := by
  obtain ⟨x, eos⟩ := s
  cases eos with
  | true =>
    refine ⟨rfl, rfl, rfl, fun _ => ⟨rfl, fun _ _ => rfl⟩, fun h => by cases h⟩
  | false =>
    refine ⟨rfl, rfl, rfl, fun h => (by cases h), fun _ b e => ?_⟩
    cases expected with
    | none => exact ⟨fun _ => rfl, fun h => (h (by simp [isPadding])).elim⟩
    | some y =>
      have all : isPadding (some y) b ↔ b.all (fun z => z == y) = true := by
        rw [List.all_eq_true]
        simp [isPadding]
      refine ⟨fun h => ?_, fun h => ?_⟩
      · simp only [paddingDecoder, PaddingState.setExpectedByte]
        rw [if_neg (by simp), if_pos (all.1 h)]
      · simp only [paddingDecoder, PaddingState.setExpectedByte]
        rw [if_neg (by simp), if_neg (fun g => h (all.2 g))]

/-- C36 (decoder): a stream with another byte is rejected as `InvalidInput`, however it is cut. -/
theorem C36_rejected {chunks : List (Bytes × Eos)} {b : Bytes} {e : Eos} (hc : Schedule chunks b e)
    (x : UInt8) (hb : ∃ y ∈ b, y ≠ x) :
    feedErr paddingDecoder (.new (some x)) chunks = some .invalidInput := by
  have all : ∀ {b : Bytes}, (∃ y ∈ b, y ≠ x) ↔ b.all (fun y => y == x) ≠ true := by
    intro b
    rw [Ne, List.all_eq_true]
    simp
  induction hc with
  | last b e =>
    simp only [feedErr, paddingDecoder, PaddingState.new]
    rw [if_neg (by simp), if_neg (by simp), if_neg (all.1 hb)]
  | @cons chunks rest e c ec hec hs ih =>
    simp only [feedErr, paddingDecoder, PaddingState.new]
    rw [if_neg (by simp), if_neg (by simp)]
    by_cases ha : c.all (fun y => y == x) = true
    · rw [if_pos ha]
      simp only [if_true]
      have hrest : ∃ y ∈ rest, y ≠ x := by
        obtain ⟨y, hy, hne⟩ := hb
        rcases List.mem_append.1 hy with h | h
        · have := List.all_eq_true.1 ha y h
          simp at this
          exact (hne this).elim
        · exact ⟨y, h, hne⟩
      have hne : ec.isReached = false := by
        rcases hec with rfl | rfl
        · rfl
        · cases hk : (eosShift e rest.length).isReached with
          | false => rfl
          | true =>
            have := (eosShift_reached hk).1
            obtain ⟨y, hy, _⟩ := hrest
            have := List.length_pos_of_mem hy
            omega
      rw [hne]
      exact ih hrest
    · rw [if_neg ha]

example : isPadding (some 0) [0, 0, 0] ∧ ¬ isPadding (some 0) [0, 1] ∧ isPadding none [0, 1] := by
  refine ⟨by simp [isPadding], fun h => ?_, by simp [isPadding]⟩
  have := h 0 rfl 1 (by simp)
  simp at this

/-! ## C47: the monolithic decoder -/

/-- C47: whatever the chunks before the end of the stream are, nothing is parsed until the end of the
stream; then the parser reads the concatenation of all chunks (as the chain of what was gathered before
and the last chunk). The item is its result, and of the last chunk the bytes it read are consumed; an
error is its error. After an item the decoder is as new. -/
theorem C47_once_partial (parse : MonolithicParser α) (pre : List (Bytes × Eos)) (hp : ∀ c ∈ pre, c.2.isReached = false)
    (b : Bytes) (e : Eos) (he : e.isReached = true) :
    (∀ x n, parse (pre.flatMap Prod.fst) b = (.ok x, n) →
      feed (monolithicDecoder parse) .new (pre ++ [(b, e)]) =
        some ((pre.flatMap Prod.fst).length + min (n - (pre.flatMap Prod.fst).length) b.length, x, .new)) ∧
    (∀ k n, parse (pre.flatMap Prod.fst) b = (.err k, n) →
      feed (monolithicDecoder parse) .new (pre ++ [(b, e)]) = none ∧
      feedErr (monolithicDecoder parse) .new (pre ++ [(b, e)]) = some k) := by
  have step : ∀ (gathered c : Bytes) (ec : Eos), ec.isReached = false →
      (monolithicDecoder parse).decode ⟨none, gathered⟩ c ec = (.ok c.length, ⟨none, gathered ++ c⟩) := by
    intro g c ec h
    simp only [monolithicDecoder]
    rw [if_neg (by simp [h])]
  have idle : ∀ g, (monolithicDecoder parse).isIdle ⟨none, g⟩ = false := fun g => rfl
  have gen : ∀ gathered,
      (∀ x n, parse (gathered ++ pre.flatMap Prod.fst) b = (.ok x, n) →
        feed (monolithicDecoder parse) ⟨none, gathered⟩ (pre ++ [(b, e)]) =
          some ((pre.flatMap Prod.fst).length +
            min (n - (gathered ++ pre.flatMap Prod.fst).length) b.length, x, .new)) ∧
      (∀ k n, parse (gathered ++ pre.flatMap Prod.fst) b = (.err k, n) →
        feed (monolithicDecoder parse) ⟨none, gathered⟩ (pre ++ [(b, e)]) = none ∧
        feedErr (monolithicDecoder parse) ⟨none, gathered⟩ (pre ++ [(b, e)]) = some k) := by
    induction pre with
    | nil =>
      intro g
      simp only [List.flatMap_nil, List.append_nil, List.nil_append]
      constructor
      · intro x n h
        refine feed_one.2 ⟨⟨some x, []⟩, (item_busy (idle g)).2
          ⟨by simp [monolithicDecoder, he, h], rfl, rfl⟩⟩
      · intro k n h
        have hd : (monolithicDecoder parse).decode ⟨none, g⟩ b e = (.err k, ⟨none, g⟩) := by
          simp only [monolithicDecoder, he, if_true, h]
        constructor
        · rw [feed.eq_def, if_neg (by simp [idle g])]
          simp only [hd]
        · simp only [feedErr]
          rw [if_neg (by simp [idle g])]
          simp only [hd]
    | cons c cs ih =>
      intro g
      obtain ⟨c, ec⟩ := c
      have hec : ec.isReached = false := hp (c, ec) List.mem_cons_self
      obtain ⟨i1, i2⟩ := ih (fun d hd => hp d (List.mem_cons_of_mem _ hd)) (g ++ c)
      rw [List.append_assoc] at i1 i2
      simp only [List.flatMap_cons, List.cons_append]
      have hf : feed (monolithicDecoder parse) ⟨none, g⟩ ((c, ec) :: (cs ++ [(b, e)])) =
          (feed (monolithicDecoder parse) ⟨none, g ++ c⟩ (cs ++ [(b, e)])).map
            fun (m, x, t) => (c.length + m, x, t) := by
        rw [feed.eq_def, if_neg (by simp [idle g])]
        simp only [step g c ec hec]
        rw [if_pos (.inr trivial)]
      constructor
      · intro x n h
        rw [hf, i1 x n h]
        simp [Nat.add_assoc]
      · intro k n h
        obtain ⟨h1, h2⟩ := i2 k n h
        refine ⟨by rw [hf, h1]; rfl, ?_⟩
        simp only [feedErr]
        rw [if_neg (by simp [idle g])]
        simp only [step g c ec hec, if_true]
        exact h2
  exact gen []

/-- C47: a parser that reads its whole input and does not care where the two halves of the reader meet
(JSON) is run on the concatenation; all bytes are consumed. -/
theorem C47_concat {parse : MonolithicParser α} (hw : WholeParser parse) {chunks : List (Bytes × Eos)} {b : Bytes}
    {e : Eos} (hc : Schedule chunks b e) (he : e.isReached = true) (hl : b.length < 2 ^ 64) (x : α) (n : Nat)
    (t : MonoDecState α) :
    feed (monolithicDecoder parse) .new chunks = some (n, x, t) ↔
      (parse [] b).1 = .ok x ∧ n = b.length ∧ t = .new := by
  have hr : e.remaining = .finite 0 := by
    rcases e with ⟨_ | _ | _⟩ <;> simp_all [Eos.isReached]
  have hs : EosSane e b.length := by
    intro n hn; rw [hr] at hn; cases hn; omega
  rw [C08_any_two_schedules_partial (.monolithic true parse hw) hc (.last b e) hs, feed_one]
  constructor
  · rintro ⟨t', ht⟩
    rw [item_busy rfl] at ht
    obtain ⟨h1, h2, h3⟩ := ht
    simp only [monolithicDecoder, MonoDecState.new, he, if_true] at h1
    rcases hq : parse [] b with ⟨r, m⟩
    rw [hq] at h1
    cases r with
    | ok y =>
      simp only at h1
      cases h1
      simp only [monolithicDecoder] at h3
      cases h3
      have := hw.whole [] b x (by rw [hq])
      rw [hq] at this
      simp at this
      exact ⟨rfl, by simp [this], rfl⟩
    | _ => cases h1
  · rintro ⟨h1, rfl, rfl⟩
    refine ⟨⟨some x, []⟩, (item_busy rfl).2 ⟨?_, rfl, rfl⟩⟩
    have h2 := hw.whole [] b x h1
    rcases hq : parse [] b with ⟨r, m⟩
    rw [hq] at h1 h2
    simp only at h1 h2
    subst h1 h2
    simp [monolithicDecoder, MonoDecState.new, he, hq]

/-- A parser that wants exactly the bytes `[1, 2]`. -/
def onlyOneTwo : MonolithicParser Unit := fun a b =>
  if a ++ b = [1, 2] then (.ok (), a.length + b.length) else (.err .invalidInput, a.length + b.length)

example : WholeParser onlyOneTwo := by
  constructor
  · intro a b c
    simp [onlyOneTwo, List.append_assoc, Nat.add_assoc]
  · intro a b x h
    simp only [onlyOneTwo]
    split <;> rfl

example : (∀ c ∈ [([(1 : UInt8)], Eos.new false)], c.2.isReached = false) ∧
    onlyOneTwo ([([(1 : UInt8)], Eos.new false)].flatMap Prod.fst) [2] = (.ok (), 2) := by
  decide +kernel

/-- C47 (the code deviates): after a parse error the bytes gathered so far stay in the decoder and are
put in front of the next stream. Here a well-formed second stream is rejected. -/
theorem C47_error_fails :
    let D := monolithicDecoder onlyOneTwo
    let s1 := (D.decode .new [9] (Eos.new false)).2
    let p2 := D.decode s1 [] (Eos.new true)
    p2.1 = .err .invalidInput ∧
    (D.decode .new [1, 2] (Eos.new true)).1 = .ok 2 ∧
    (D.decode p2.2 [1, 2] (Eos.new true)).1 = .err .invalidInput := by
  decide +kernel

end Bytecodec.Props
