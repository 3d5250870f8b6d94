import Verif.Lemmas.Join
/-!
# C07, C08: decoding does not depend on how the bytes are cut into chunks
-/
namespace Bytecodec.Props

open Bytecodec Bytecodec.Spec

variable {σ α : Type}

/-! ## C07 -/

/-- C07 (every streamable decoder): if one call on a contiguous buffer produces an item, then every
way of cutting the buffer produces the same item, consumes the same number of bytes and leaves the
decoder in the same state. -/
theorem C07_chunking_partial {p q : Bool} {D : Decoder σ α} {s : σ} (h : Streamable (fun _ => True) p q D s)
    {b : Bytes} {e : Eos} {r : Nat × α × σ} (hr : feed D s [(b, e)] = some r)
    {chunks : List (Bytes × Eos)} (hc : Schedule chunks b e) : feed D s chunks = some r := by
  obtain ⟨I, hI, hs⟩ := streamable_splits h
  obtain ⟨t, ht⟩ := feed_one.1 hr
  exact splits_feed hI hc hs ht

/-- A length-prefixed UTF-8 string followed by a 16-bit number. -/
example : Streamable (fun _ => True) true false
    (tupleDecoder2 (andThenDecoder u8Decoder (lengthDecoder (utf8Decoder remainingBytesDecoder))
      (fun n => .new .new n.toNat)) u16beDecoder) ((fixInit 1, none), fixInit 2) :=
  .pair (.andThen _ (.number true false _ 1) fun n =>
    .length true _ (by have := n.toNat_lt; omega) (.utf8 (.remaining true))) (.number true false _ 2)

/-- The run of that decoder on `2 'h' 'i' 1 0` with a byte of something else behind. -/
example : (feed (tupleDecoder2 (andThenDecoder u8Decoder (lengthDecoder (utf8Decoder remainingBytesDecoder))
      (fun n => .new .new n.toNat)) u16beDecoder) ((fixInit 1, none), fixInit 2)
    [([2, 104, 105, 1, 0, 77], Eos.new false)]).map (fun r => (r.1, r.2.1.2)) = some (5, 256) := by
  decide +kernel

example : Schedule [([2, 104], Eos.new false), ([], ⟨.finite 4⟩), ([105, 1, 0, 77], Eos.new true)]
    [2, 104, 105, 1, 0, 77] (Eos.new true) :=
  .cons [2, 104] _ (.inl rfl) (.cons [] _ (.inr rfl) (.last _ _))

/-- C07 (the code deviates): `collectn(1)` over a decoder that reads to the end of the stream
succeeds on one buffer, and fails when the end of the stream is announced with an empty buffer. -/
theorem C07_collectN_remaining_fails :
    (feed (collectNDecoder remainingBytesDecoder) (.new .new 1) [([7], Eos.new true)]).map
      (fun r => (r.1, r.2.1)) = some (1, [[7]]) ∧
      Schedule [([7], Eos.new false), ([], Eos.new true)] [7] (Eos.new true) ∧
      (feed (collectNDecoder remainingBytesDecoder) (.new .new 1)
        [([7], Eos.new false), ([], Eos.new true)]).isNone = true :=
  ⟨by decide +kernel, .cons [7] _ (.inl rfl) (.last _ _), by decide +kernel⟩

/-- C07 (the code deviates): a monolithic decoder whose parser does not read everything consumes a
different number of bytes when the input comes in two chunks. The parser here reads one byte. -/
theorem C07_monolithic_trailing_fails :
    let parse : MonolithicParser Nat := fun a b =>
      match a ++ b with | [] => (.err .unexpectedEos, 0) | x :: _ => (.ok x.toNat, 1)
    (feed (monolithicDecoder parse) .new [([7, 8], Eos.new true)]).map (·.1) = some 1 ∧
      Schedule [([7, 8], Eos.new false), ([], Eos.new true)] [7, 8] (Eos.new true) ∧
      (feed (monolithicDecoder parse) .new [([7, 8], Eos.new false), ([], Eos.new true)]).map (·.1)
        = some 2 :=
  ⟨by decide +kernel, .cons [7, 8] _ (.inl rfl) (.last _ _), by decide +kernel⟩

/-! ## C08 -/

/-- Every building block but `max_bytes` and `collect`. -/
def Plain (sh : Shape) : Prop := sh ≠ .maxBytes ∧ sh ≠ .collect ∧ sh ≠ .collectLax

/-- Every building block but `max_bytes`; `collect` only over decoders without `length` and
`maybe_eos`. -/
def WithCollect (sh : Shape) : Prop := sh ≠ .maxBytes ∧ sh ≠ .collectLax

/-- C08 (every streamable decoder built without `max_bytes` and `collect`): if the chunks yield an
item then so does one call on the concatenation: the same item, the same number of bytes, the same
state. -/
theorem C08_join_partial {p q : Bool} {D : Decoder σ α} {s : σ} (h : Streamable Plain p q D s)
    {chunks : List (Bytes × Eos)} {b : Bytes} {e : Eos} (hc : Schedule chunks b e)
    (he : EosSane e b.length) {r : Nat × α × σ} (hr : feed D s chunks = some r) :
    feed D s [(b, e)] = some r := by
  obtain ⟨I, hI, hs⟩ := streamable_joins (c := true) (fun h => h.1 rfl) (fun h => h.2.2 rfl)
    (fun _ h => h.2.1 rfl) h
  obtain ⟨t, ht⟩ := joins_feed hI hc (.inl ⟨rfl, rfl⟩) hs he hr
  exact feed_one.2 ⟨t, ht⟩

/-- C07 and C08 together: for these decoders the outcome is the same for any two ways of cutting the
same bytes. -/
theorem C08_any_two_schedules_partial {p q : Bool} {D : Decoder σ α} {s : σ} (h : Streamable Plain p q D s)
    {chunks chunks' : List (Bytes × Eos)} {b : Bytes} {e : Eos} (hc : Schedule chunks b e)
    (hc' : Schedule chunks' b e) (he : EosSane e b.length) : feed D s chunks = feed D s chunks' := by
  obtain ⟨I, hI, hs⟩ := streamable_splits h
  have key : ∀ {c1 c2 : List (Bytes × Eos)} {r}, Schedule c1 b e → Schedule c2 b e →
      feed D s c1 = some r → feed D s c2 = some r := by
    intro c1 c2 r h1 h2 hr
    obtain ⟨t, ht⟩ := feed_one.1 (C08_join_partial h h1 he hr)
    exact splits_feed hI h2 hs ht
  cases h1 : feed D s chunks with
  | some r => exact (key hc hc' h1).symm
  | none =>
    cases h2 : feed D s chunks' with
    | none => rfl
    | some r => rw [key hc' hc h2] at h1; cases h1

/-- C08 (with `collect`): the same, provided the end of the stream does not arrive in an empty
chunk. -/
theorem C08_join_collect_partial {p q : Bool} {D : Decoder σ α} {s : σ}
    (h : Streamable WithCollect p q D s) {chunks : List (Bytes × Eos)} {b : Bytes} {e : Eos}
    (hc : Schedule chunks b e) (hlast : ∀ c, chunks.getLast? = some c → c.1 ≠ [])
    (he : EosSane e b.length) {r : Nat × α × σ} (hr : feed D s chunks = some r) :
    feed D s [(b, e)] = some r := by
  obtain ⟨I, hI, hs⟩ := streamable_joins (c := false) (fun h => h.1 rfl) (fun h => h.2 rfl)
    (fun h => by cases h) h
  obtain ⟨t, ht⟩ := joins_feed hI hc (.inr hlast) hs he hr
  exact feed_one.2 ⟨t, ht⟩

/-- C08 (`collect` at the top, over any such decoder): the same. -/
theorem C08_join_collect_any_partial {p q : Bool} {D : Decoder σ α} {s : σ}
    (h : Streamable WithCollect p q D s) {chunks : List (Bytes × Eos)} {b : Bytes} {e : Eos}
    (hc : Schedule chunks b e) (hlast : ∀ c, chunks.getLast? = some c → c.1 ≠ [])
    (he : EosSane e b.length) {r : Nat × List α × CollectState σ α}
    (hr : feed (collectDecoder D) ⟨s, [], false⟩ chunks = some r) :
    feed (collectDecoder D) ⟨s, [], false⟩ [(b, e)] = some r := by
  obtain ⟨I, hI, hs⟩ := streamable_joins (c := false) (fun h => h.1 rfl) (fun h => h.2 rfl)
    (fun h => by cases h) h
  obtain ⟨t, ht⟩ := joins_feed (joins_collect false hI (fun h => by cases h)) hc (.inr hlast) hs he hr
  exact feed_one.2 ⟨t, ht⟩

/-- The decoder of the example above is covered, with an optional trailing field. -/
example : Streamable Plain true false
    (tupleDecoder2 (andThenDecoder u8Decoder (lengthDecoder (utf8Decoder remainingBytesDecoder))
      (fun n => .new .new n.toNat)) (omittableDecoder (peekableDecoder u16beDecoder)))
      ((fixInit 1, none), ⟨⟨fixInit 2, none⟩, false⟩) :=
  .pair (.andThen _ (.number true false _ 1) fun n =>
    .length true _ (by have := n.toNat_lt; omega) (.utf8 (.remaining true)))
    (.omittable _ (.peekable (.number true false _ 2)))

example : Streamable WithCollect false true (collectDecoder u16beDecoder) ⟨fixInit 2, [], false⟩ :=
  .collect (by simp [WithCollect]) (.inl rfl) (.number true true _ 2)

example : (feed (tupleDecoder2 (andThenDecoder u8Decoder (lengthDecoder (utf8Decoder remainingBytesDecoder))
      (fun n => .new .new n.toNat)) u16beDecoder) ((fixInit 1, none), fixInit 2)
    [([2, 104], Eos.new false), ([], ⟨.finite 4⟩), ([105, 1, 0, 77], Eos.new true)]).map
      (fun r => (r.1, r.2.1.2)) = some (5, 256) := by
  decide +kernel

/-- C08 (the code deviates): `max_bytes(1)` of a one-byte number succeeds when the bytes come one by
one, and fails when two are offered at once. -/
theorem C08_maxBytes_fails :
    Schedule [([1], Eos.new false), ([2], Eos.new false)] [1, 2] (Eos.new false) ∧
    (feed (maxBytesDecoder u8Decoder) (.new (fixInit 1) 1)
      [([1], Eos.new false), ([2], Eos.new false)]).map (fun r => (r.1, r.2.1)) = some (1, 1) ∧
    (feed (maxBytesDecoder u8Decoder) (.new (fixInit 1) 1) [([1, 2], Eos.new false)]).isNone = true :=
  ⟨.cons [1] _ (.inl rfl) (.last _ _), by decide +kernel, by decide +kernel⟩

/-- C08 (the code deviates): `collect` of 16-bit numbers succeeds on one byte when the end of the
stream is announced in an empty chunk, and fails otherwise. -/
theorem C08_collect_fails :
    Schedule [([1], Eos.new false), ([], Eos.new true)] [1] (Eos.new true) ∧
    (feed (collectDecoder u16beDecoder) ⟨fixInit 2, [], false⟩
      [([1], Eos.new false), ([], Eos.new true)]).map (fun r => (r.1, r.2.1)) = some (1, []) ∧
    feed (collectDecoder u16beDecoder) ⟨fixInit 2, [], false⟩ [([1], Eos.new true)] = none := by
  refine ⟨.cons [1] _ (.inl rfl) (.last _ _), ?_, ?_⟩
  · have h1 : (collectDecoder u16beDecoder).decode ⟨fixInit 2, [], false⟩ [1] (Eos.new false)
        = (.ok 1, ⟨⟨[1, 0], 1⟩, [], false⟩) := by
      simp only [collectDecoder]; unfold collectLoop; rfl
    have h2 : (collectDecoder u16beDecoder).decode ⟨⟨[1, 0], 1⟩, [], false⟩ [] (Eos.new true)
        = (.ok 0, ⟨⟨[1, 0], 1⟩, [], true⟩) := by
      simp only [collectDecoder]; unfold collectLoop; rfl
    rw [feed, if_neg (by simp [collectDecoder])]
    simp only [h1]
    rw [if_pos (by simp), feed, if_neg (by simp [collectDecoder])]
    simp only [h2]
    rw [if_pos (by simp [collectDecoder]), feed_idle rfl]
    rfl
  · have h3 : (collectDecoder u16beDecoder).decode ⟨fixInit 2, [], false⟩ [1] (Eos.new true)
        = (.err .unexpectedEos, ⟨⟨[1, 0], 1⟩, [], false⟩) := by
      simp only [collectDecoder]; unfold collectLoop; rfl
    rw [feed, if_neg (by simp [collectDecoder])]
    simp only [h3]

end Bytecodec.Props
