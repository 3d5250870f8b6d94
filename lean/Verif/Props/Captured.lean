import Verif.Spec.Captured
import Verif.Lemmas.Interchange
import Verif.Props.Chunking
import Verif.Props.Sequences
import Verif.Props.Own
/-!
# C76: closures may capture values

`dependDecoder` and `keepDecoder` are the programs of `Spec/Captured.lean`: the functions of the body make use of the
header.
-/
namespace Bytecodec.Props

open Spec

variable {σ σ0 α0 σ1 α α1 σ2 α2 : Type}

/-! ## A captured value changes nothing -/

/-- C76: a decoder whose functions have captured a value answers every sequence of calls as the decoder in
which the value is written out. -/
theorem C76_alike {ε : Type} (F : ε → Decoder σ α) (x : ε) (s : σ) :
    Alike (capturedDecoder F) (x, s) (F x) s :=
  (sim_capture F x).alike rfl

private theorem feed_captured {ε : Type} {F : ε → Decoder σ α} {v : ε} {s : σ} {b : Bytes} {e : Eos} {n : Nat} {x : α}
    {t : ε × σ} : feed (capturedDecoder F) (v, s) [(b, e)] = some (n, x, t) ↔
      feed (F v) s [(b, e)] = some (n, x, t.2) ∧ t.1 = v := by
  rw [feed_one, feed_one]
  constructor
  · rintro ⟨u, hu⟩
    obtain ⟨h1, _, h2⟩ := item_captured.1 hu
    exact ⟨⟨_, h1⟩, h2⟩
  · rintro ⟨⟨u, hu⟩, h⟩
    exact ⟨(v, u), item_captured.2 ⟨hu, rfl, h⟩⟩

private theorem feed_mapped {β : Type} {D : Decoder σ α} {f : α → β} {s t : σ} {b : Bytes} {e : Eos} {n : Nat} {y : β} :
    feed (mapDecoder D f) s [(b, e)] = some (n, y, t) ↔ ∃ x, feed D s [(b, e)] = some (n, x, t) ∧ f x = y := by
  have ht : ∀ s n u, tryDecode (mapDecoder D f) s 0 b e = .next n u ↔ tryDecode D s 0 b e = .next n u := fun _ _ _ => Iff.rfl
  simp only [feed_one]
  constructor
  · rintro ⟨u, h1, h2⟩
    obtain ⟨x, u', h3, h4⟩ := step_ok h2
    cases h4
    exact ⟨x, ⟨u, h1, h3⟩, rfl⟩
  · rintro ⟨x, ⟨u, h1, h2⟩, rfl⟩
    exact ⟨u, h1, by simp [mapDecoder, h2, Res.step]⟩

/-! ## What comes out -/

/-- C76: the body is decoded right behind the header, by the functions that know this very header; the sizes add
up; afterwards the decoder is as new and the captured header is gone. -/
theorem C76_depend {D0 : Decoder σ0 α0} {F : α0 → Decoder σ1 α1} {f : α0 → σ1} {s0 : σ0}
    {b : Bytes} {e : Eos} {n : Nat} {x : α1} {s' : σ0 × Option (α0 × σ1)}
    (hb : ∀ n0 y t, feed D0 s0 [(b, e)] = some (n0, y, t) → n0 ≤ b.length) :
    feed (dependDecoder D0 F f) (s0, none) [(b, e)] = some (n, x, s') ↔
      ∃ n0 y n1 s0' s1', n = n0 + n1 ∧ feed D0 s0 [(b, e)] = some (n0, y, s0') ∧
        feed (F y) (f y) [(b.drop n0, e)] = some (n1, x, s1') ∧ s' = (s0', none) := by
  rw [dependDecoder, feedOne_andThen hb]
  constructor
  · rintro ⟨n0, y, n1, s0', s1', h1, h2, h3, h4⟩
    exact ⟨n0, y, n1, s0', s1'.2, h1, h2, (feed_captured.1 h3).1, h4⟩
  · rintro ⟨n0, y, n1, s0', s1', h1, h2, h3, h4⟩
    exact ⟨n0, y, n1, s0', (y, s1'), h1, h2, feed_captured.2 ⟨h3, rfl⟩, h4⟩

/-- C76: the same however the stream is cut (decoders as in C08). -/
theorem C76_depend_chunked {p q : Bool} {D0 : Decoder σ0 α0} {F : α0 → Decoder σ1 α1} {f : α0 → σ1}
    {s0 : σ0} (h0 : Streamable Plain p q D0 s0) (h1 : ∀ y, Streamable Plain p q (F y) (f y))
    {chunks : List (Bytes × Eos)} {b : Bytes} {e : Eos} (hc : Schedule chunks b e) (he : EosSane e b.length)
    {n : Nat} {x : α1} {s' : σ0 × Option (α0 × σ1)} :
    feed (dependDecoder D0 F f) (s0, none) chunks = some (n, x, s') ↔
      ∃ n0 y n1 s0' s1', n = n0 + n1 ∧ feed D0 s0 [(b, e)] = some (n0, y, s0') ∧
        feed (F y) (f y) [(b.drop n0, e)] = some (n1, x, s1') ∧ s' = (s0', none) := by
  rw [C08_any_two_schedules_partial (D := dependDecoder D0 F f)
    (.andThen _ h0 fun y => .captured F y (h1 y)) hc (.last b e) he]
  exact C76_depend fun n0 y t hf => feed_bound h0 hf

/-- C76: the header and the body come out together, however the stream is cut. -/
theorem C76_keep {p q : Bool} {D0 : Decoder σ0 α0} {D1 : Decoder σ1 α1} {f : α0 → σ1}
    {s0 : σ0} (h0 : Streamable Plain p q D0 s0) (h1 : ∀ y, Streamable Plain p q D1 (f y))
    {chunks : List (Bytes × Eos)} {b : Bytes} {e : Eos} (hc : Schedule chunks b e) (he : EosSane e b.length)
    {n : Nat} {x0 : α0} {x1 : α1} {s' : σ0 × Option (α0 × σ1)} :
    feed (keepDecoder D0 D1 f) (s0, none) chunks = some (n, (x0, x1), s') ↔
      ∃ n0 n1 s0' s1', n = n0 + n1 ∧ feed D0 s0 [(b, e)] = some (n0, x0, s0') ∧
        feed D1 (f x0) [(b.drop n0, e)] = some (n1, x1, s1') ∧ s' = (s0', none) := by
  rw [keepDecoder, C76_depend_chunked h0 (fun y => .map _ (h1 y)) hc he]
  constructor
  · rintro ⟨n0, y, n1, s0', s1', h1, h2, h3, h4⟩
    obtain ⟨x, h3, h5⟩ := feed_mapped.1 h3
    cases h5
    exact ⟨n0, n1, s0', s1', h1, h2, h3, h4⟩
  · rintro ⟨n0, n1, s0', s1', h1, h2, h3, h4⟩
    exact ⟨n0, x0, n1, s0', s1', h1, h2, feed_mapped.2 ⟨x1, h3, rfl⟩, h4⟩

/-- C76: with a body that does not depend on the header this decodes the items of the pair of both decoders. -/
theorem C76_pair {p q : Bool} {D0 : Decoder σ0 α0} {D1 : Decoder σ1 α1} {s0 : σ0} {s1 : σ1}
    (h0 : Streamable Plain p q D0 s0) (h1 : Streamable Plain p q D1 s1)
    {chunks : List (Bytes × Eos)} {b : Bytes} {e : Eos} (hc : Schedule chunks b e) (he : EosSane e b.length)
    {n : Nat} {x : α0 × α1} :
    (∃ s', feed (keepDecoder D0 D1 fun _ => s1) (s0, none) chunks = some (n, x, s')) ↔
      ∃ s', feed (tupleDecoder2 D0 D1) (s0, s1) chunks = some (n, x, s') := by
  obtain ⟨x0, x1⟩ := x
  rw [C08_any_two_schedules_partial (.pair h0 h1) hc (.last b e) he]
  constructor
  · rintro ⟨s', h⟩
    obtain ⟨n0, n1, s0', s1', h2, h3, h4, _⟩ := (C76_keep h0 (fun _ => h1) hc he).1 h
    exact ⟨(s0', s1'), (feedOne_pair fun _ _ _ hf => feed_bound h0 hf).2 ⟨n0, n1, h2, h3, h4⟩⟩
  · rintro ⟨⟨s0', s1'⟩, h⟩
    obtain ⟨n0, n1, h2, h3, h4⟩ := (feedOne_pair fun _ _ _ hf => feed_bound h0 hf).1 h
    exact ⟨(s0', none), (C76_keep h0 (fun _ => h1) hc he).2 ⟨n0, n1, s0', s1', h2, h3, h4, rfl⟩⟩

/-- C76: `(a.and_then(|x| b(x))).and_then(|y| c(y))` and `a.and_then(|x| b(x).and_then(|y| c(y)))` decode the
same items from the same bytes, however the stream is cut; `b` and `c` may use what their closures captured. -/
theorem C76_assoc {p q : Bool} {D0 : Decoder σ0 α0} {F : α0 → Decoder σ1 α1} {G : α1 → Decoder σ2 α2}
    {f : α0 → σ1} {g : α1 → σ2} {s0 : σ0} (h0 : Streamable Plain p q D0 s0)
    (h1 : ∀ x, Streamable Plain p q (F x) (f x)) (h2 : ∀ y, Streamable Plain p q (G y) (g y))
    {chunks : List (Bytes × Eos)} {b : Bytes} {e : Eos} (hc : Schedule chunks b e) (he : EosSane e b.length)
    {n : Nat} {x : α2} {s0' : σ0} :
    feed (dependDecoder (dependDecoder D0 F f) G g) ((s0, none), none) chunks = some (n, x, ((s0', none), none)) ↔
    feed (dependDecoder D0 (fun x => dependDecoder (F x) G g) (fun x => (f x, none))) (s0, none) chunks =
      some (n, x, (s0', none)) := by
  have hF : Streamable Plain p q (dependDecoder D0 F f) (s0, none) := .andThen _ h0 fun y => .captured F y (h1 y)
  have hG : ∀ x, Streamable Plain p q (dependDecoder (F x) G g) (f x, none) :=
    fun x => .andThen _ (h1 x) fun y => .captured G y (h2 y)
  have bd : ∀ {b n y t}, feed D0 s0 [(b, e)] = some (n, y, t) → n ≤ b.length := fun hf => feed_bound h0 hf
  rw [C76_depend_chunked hF h2 hc he, C76_depend_chunked h0 hG hc he]
  constructor
  · rintro ⟨n0, y, n1, t, s2', rfl, k1, k2, k3⟩
    cases k3
    obtain ⟨m0, x0, m1, t0, t1, rfl, k4, k5, k6⟩ := (C76_depend fun _ _ _ => bd).1 k1
    cases k6
    refine ⟨m0, x0, m1 + n1, s0', (t1, none), by omega, k4, ?_, rfl⟩
    rw [C76_depend fun _ _ _ hf => feed_bound (h1 x0) hf]
    exact ⟨m1, y, n1, t1, s2', rfl, k5, by rwa [List.drop_drop], rfl⟩
  · rintro ⟨m0, x0, k, t0, t, rfl, k1, k2, k3⟩
    cases k3
    obtain ⟨m1, y, n1, t1, s2', rfl, k4, k5, k6⟩ := (C76_depend fun _ _ _ hf => feed_bound (h1 x0) hf).1 k2
    refine ⟨m0 + m1, y, n1, (s0', none), s2', by omega, ?_, by rwa [List.drop_drop] at k5, rfl⟩
    exact (C76_depend fun _ _ _ => bd).2 ⟨m0, x0, m1, s0', t1, rfl, k1, k4, rfl⟩

/-! ## The contracts -/

/-- C76: no call panics, runs forever or reports more bytes than it was given, and an item can only be taken
from an idle decoder. -/
theorem C76_safe {D0 : Decoder σ0 α0} {F : α0 → Decoder σ1 α1} {f : α0 → σ1} {s0 : σ0}
    (h0 : Assembled (fun _ => True) D0 s0) (h1 : ∀ x, Assembled (fun _ => True) (F x) (f x)) :
    SafeFrom (dependDecoder D0 F f) (s0, none) ∧ FinishGuarded (dependDecoder D0 F f) (s0, none) :=
  have h : Assembled (fun _ => True) (dependDecoder D0 F f) (s0, none) :=
    .andThen _ trivial h0 fun x => .captured F x (h1 x)
  ⟨assembled_safe h, assembled_guard h⟩

/-- C76: an idle decoder is left alone by `decode`. -/
theorem C76_idle (D0 : Decoder σ0 α0) (F : α0 → Decoder σ1 α1) (f : α0 → σ1) (s0 : σ0) :
    IdleStable (dependDecoder D0 F f) (s0, none) :=
  idle_andThen

/-- C76: at the end of the stream `decode` completes the item or fails (with the exceptions of C09). -/
theorem C76_eos {ok : Shape → Prop} (hok : ok = fun sh => sh ≠ .length ∧ sh ≠ .slice ∧ sh ≠ .maybeEos)
    {D0 : Decoder σ0 α0} {F : α0 → Decoder σ1 α1} {f : α0 → σ1} {s0 : σ0}
    (h0 : Assembled ok D0 s0) (h1 : ∀ x, Assembled ok (F x) (f x)) :
    EosStrict (dependDecoder D0 F f) (s0, none) := by
  subst hok
  exact parts_eos (by simp) (by simp) (by simp) (fun _ _ _ _ h => h.elim)
    (AssembledWith.andThen _ (by simp) h0 fun x => .captured F x (h1 x))

/-- C76: `decode` fails with the kinds of C57 only, whatever was captured. -/
theorem C76_kinds {len : Bool} {K : ErrorKind → Prop} {D0 : Decoder σ0 α0} {F : α0 → Decoder σ1 α1} (f : α0 → σ1)
    (h0 : Raising len K D0) (h1 : ∀ x, Raising len K (F x)) :
    (∀ s b e k s', (dependDecoder D0 F f).decode s b e = (.err k, s') → DecodeKind len K e k) ∧
    (∀ s k s', (dependDecoder D0 F f).finish s = (.err k, s') →
      FinishKind len K ((dependDecoder D0 F f).isIdle s) k) :=
  C72_kinds (own := fun _ _ _ => False) (fun _ _ _ h => h.elim)
    (RaisingWith.andThen _ h0 (.captured F h1))

/-- C76: after each item the decoder is as new: what was captured does not leak into the next item. -/
theorem C76_reuse {D0 : Decoder σ0 α0} (F : α0 → Decoder σ1 α1) (f : α0 → σ1) {s0 : σ0} (h0 : Reusable D0 s0) :
    AsNew (dependDecoder D0 F f) (s0, none) :=
  C72_reuse (own := fun _ _ _ _ => False) (fun _ _ _ _ h => h.elim) (ReusableWith.andThen _ _ h0)

/-! ## Round trips -/

private theorem keep_encoder (E0 : Encoder σ0 α0) (E1 : Encoder σ1 α1) :
    mapFromEncoder (tupleEncoder2 E0 (mapFromEncoder E1 Prod.snd)) (fun p : α0 × α1 => (p.1, p)) =
      tupleEncoder2 E0 E1 := rfl

/-- C76: what `(head, body)` writes is read by `head.and_then(|x| body(x).map(move |y| (x, y)))`, which may choose
the decoder of the body by the header: every message arrives with its own header, however the bytes are
cut, any number of times. -/
theorem C76_round_trip {strict delim again again1 : Bool} {τ0 τ1 : Type} {E0 : Encoder τ0 α0} {sE0 : τ0}
    {D0 : Decoder σ0 α0} {s0 : σ0} {dom0 enc0} (h0 : Matched strict true again E0 sE0 D0 s0 dom0 enc0)
    {E1 : Encoder τ1 α1} {sE1 : τ1} {D1 : Decoder σ1 α1} {f : α0 → σ1} {dom enc1} {dom1 : α0 → α1 → Prop}
    (hw : Writes strict E1 sE1 dom enc1) (hd : ∀ k x, dom1 k x → dom x)
    (h1 : ∀ k, Matched strict delim again1 E1 sE1 D1 (f k) (dom1 k) enc1) :
    RoundTrips strict delim again (tupleEncoder2 E0 E1) (sE0, sE1) (keepDecoder D0 D1 f) (s0, none)
      (fun p => dom0 p.1 ∧ dom1 p.1 p.2) (fun p => (bytesOf (enc0 p.1)).length + (bytesOf (enc1 p.2)).length) := by
  have m : Matched strict delim again (tupleEncoder2 E0 E1) (sE0, sE1) (keepDecoder D0 D1 f) (s0, none)
      (fun p => dom0 p.1 ∧ dom1 p.1 p.2)
      (fun p => (enc0 p.1).bind fun b0 => (enc1 p.2).bind fun b1 => .ok (b0 ++ b1)) := by
    rw [← keep_encoder]
    refine Matched.header (again1 := again1) (E1 := mapFromEncoder E1 Prod.snd) (enc1 := fun p => enc1 p.2)
      (dom1 := fun p => dom1 p.1 p.2) (D1 := capturedDecoder fun x => mapDecoder D1 fun y => (x, y))
      (fun p => p.1) (fun x => (x, f x)) h0 ?_ fun k => ?_
    · exact .weaken (WritesWith.mapFrom Prod.snd hw) (fun p hp => ⟨hd _ _ hp, rfl⟩) id
    · refine .captured (fun x => mapDecoder D1 fun y => (x, y)) k ?_
      refine .mapOn (enc := enc1) Prod.snd (fun y => (k, y)) ?_ (h1 k)
      rintro ⟨k', y⟩ ⟨h2, _, rfl⟩
      exact ⟨h2, rfl⟩
  have hz : ∀ (p : α0 × α1) b, (dom0 p.1 ∧ dom1 p.1 p.2) →
      ((enc0 p.1).bind fun b0 => (enc1 p.2).bind fun b1 => .ok (b0 ++ b1)) = .ok b →
      (bytesOf (enc0 p.1)).length + (bytesOf (enc1 p.2)).length = b.length := by
    intro p b hp hb
    obtain ⟨b0, e0, hb⟩ := bind_ok hb
    obtain ⟨b1, e1, hb⟩ := bind_ok hb
    cases hb
    simp [bytesOf_ok e0, bytesOf_ok e1]
  intro s msgs out k1 k2 k3 k4 tail e k5 k6
  exact matched_roundTrips m _ hz k1 k2 k3 k4 tail e k5 k6

/-- A two-byte tag and a one-byte number; and the same with a body that is chosen by the tag. -/
example : RoundTrips true true true (tupleEncoder2 u16beEncoder.toEncoder u8Encoder.toEncoder) (.new, .new)
    (keepDecoder u16beDecoder u8Decoder fun _ => fixInit 1) (fixInit 2, none) (fun _ => True ∧ True) (fun p =>
      (bytesOf (if p.1.toNat < 256 ^ 2 then .ok (layout true 2 p.1.toNat) else .error .invalidInput)).length +
      (bytesOf (if p.2.toNat < 256 ^ 1 then .ok (layout true 1 p.2.toNat) else .error .invalidInput)).length) :=
  C76_round_trip (dom := fun _ => True) (dom1 := fun _ _ => True) (matched_number .u16be true)
    (matched_writes (matched_number .u8 true)) (fun _ _ _ => trivial) fun _ => matched_number .u8 true

/-- C76 (tag, length, value): the receiver decodes the tag and the length, then the value with `length(n)`, and
returns the value with the tag its closure has captured. Every message arrives with its own tag, whatever
comes behind it, any number of times. -/
theorem C76_tag_length_value {strict delim again : Bool} {τ : Type} {α' : Type}
    {Et : SizedEncoder (BytesEncoderState Bytes) α0} {Dt : Decoder CopyableState α0} {j : Nat} {be' : Bool}
    {tag : α0 → Nat} (ht : NumberCodec Et Dt j be' tag)
    {El : SizedEncoder (BytesEncoderState Bytes) α'} {Dl : Decoder CopyableState α'} {k : Nat} {be : Bool}
    {val : α' → Nat} (hl : NumberCodec El Dl k be val) (ofNat : Nat → α')
    (hval : ∀ n, n < 256 ^ k → val (ofNat n) = n)
    {E1 : Encoder τ α} {sE1 : τ} {D1 : Decoder σ α} {sD1 : σ} {dom1 : α → Prop}
    {enc1 : α → Except ErrorKind Bytes} (h1 : Matched strict delim again E1 sE1 D1 sD1 dom1 enc1) :
    let E := mapFromEncoder (tupleEncoder2 (tupleEncoder2 Et.toEncoder El.toEncoder) E1)
      fun p : α0 × α => ((p.1, ofNat (bytesOf (enc1 p.2)).length), p.2)
    let D := dependDecoder (tupleDecoder2 Dt Dl) (fun h => mapDecoder (lengthDecoder D1) fun y => (h.1, y))
      fun h => LengthState.new sD1 (val h.2)
    RoundTrips strict true true E ((.new, .new), sE1) D ((fixInit j, fixInit k), none)
      (fun p => tag p.1 < 256 ^ j ∧ dom1 p.2 ∧ (bytesOf (enc1 p.2)).length < 256 ^ k)
      (fun p => j + k + (bytesOf (enc1 p.2)).length) := by
  intro E D
  have h0 := Matched.pair (matched_number ht strict) (matched_number hl strict)
  have m := Matched.header (again1 := again) (E1 := mapFromEncoder E1 (Prod.snd : α0 × α → α)) (enc1 := fun p => enc1 p.2)
    (dom1 := fun p => tag p.1 < 256 ^ j ∧ dom1 p.2 ∧ (bytesOf (enc1 p.2)).length < 256 ^ k)
    (D1 := capturedDecoder fun h => mapDecoder (lengthDecoder D1) fun y => (h.1, y))
    (fun p => (p.1, ofNat (bytesOf (enc1 p.2)).length)) (fun h => (h, LengthState.new sD1 (val h.2))) h0
    (.weaken (WritesWith.mapFrom Prod.snd (matched_writes h1)) (fun p hp => ⟨hp.2.1, rfl⟩) id)
    (fun h => .captured (fun h : α0 × α' => mapDecoder (lengthDecoder D1) fun y => (h.1, y)) h
      (.mapOn Prod.snd (fun y => (h.1, y)) (by
        rintro ⟨t, y⟩ ⟨hp, _, rfl⟩
        exact ⟨⟨hp.2.1, by simp only [hval _ hp.2.2]⟩, rfl⟩) (Matched.length (val h.2) (number_val_lt hl h.2) h1)))
  have hz : ∀ (p : α0 × α) b, (tag p.1 < 256 ^ j ∧ dom1 p.2 ∧ (bytesOf (enc1 p.2)).length < 256 ^ k) →
      (enc1 p.2).map (fun b => layout be' j (tag p.1) ++ layout be k b.length ++ b) = .ok b →
      j + k + (bytesOf (enc1 p.2)).length = b.length := by
    intro p b hp hb
    cases hex : enc1 p.2 with
    | error e => rw [hex] at hb; cases hb
    | ok b' =>
      rw [hex] at hb
      cases hb
      simp [bytesOf, length_layout, Nat.add_assoc]
  intro s msgs out k1 k2 k3 k4 tail e k5 k6
  refine matched_roundTrips (m.weaken (enc' := fun p => (enc1 p.2).map
    fun b => layout be' j (tag p.1) ++ layout be k b.length ++ b) (fun p hp => ⟨⟨⟨trivial, trivial⟩, hp⟩, ?_⟩)
    id id id) _ hz k1 k2 k3 k4 tail e k5 k6
  rw [if_pos hp.1, hval _ hp.2.2, if_pos hp.2.2]
  cases hex : enc1 p.2 with
  | error e => rfl
  | ok b => rfl

/-- Strings with a one-byte tag and a two-byte length. -/
example : NumberCodec u8Encoder u8Decoder 1 true (·.toNat) ∧ NumberCodec u16beEncoder u16beDecoder 2 true (·.toNat) ∧
    (∀ n, n < 256 ^ 2 → (UInt16.ofNat n).toNat = n) ∧
    Matched true false true utf8Encoder.toEncoder .new (utf8Decoder remainingBytesDecoder) .new
      (fun x => (utf8Bytes x).length < 2 ^ 63) (fun x => .ok (utf8Bytes x)) :=
  ⟨.u8, .u16be, fun n h => by rw [UInt16.toNat_ofNat', Nat.mod_eq_of_lt (by omega)],
    .utf8 true (fun _ _ => rfl) (.remaining true)⟩

/-- Tag, length, value: bytes. -/
private def tlvDecoder := dependDecoder (tupleDecoder2 u8Decoder u8Decoder)
  (fun h => mapDecoder (lengthDecoder remainingBytesDecoder) fun y => (h.1, y))
  fun h => LengthState.new RemainingState.new h.2.toNat

/-- Two messages in pieces: each has its own tag. -/
example : (feed tlvDecoder ((fixInit 1, fixInit 1), none) [([7, 2], Eos.new false), ([10], Eos.new false), ([11, 8], Eos.new false)]).map
    (fun r => (r.1, r.2.1)) = some (4, (7, [10, 11])) ∧
    (feed tlvDecoder ((fixInit 1, fixInit 1), none) [([8, 1, 12], Eos.new true)]).map
    (fun r => (r.1, r.2.1)) = some (3, (8, [12])) := by decide +kernel

example : SafeFrom tlvDecoder ((fixInit 1, fixInit 1), none) ∧ FinishGuarded tlvDecoder ((fixInit 1, fixInit 1), none) :=
  C76_safe (.pair trivial (.number _ 1 trivial) (.number _ 1 trivial)) fun h =>
    .map _ trivial (.length _ trivial (Nat.lt_trans h.2.toNat_lt (by decide)) (.remaining trivial))

example : AsNew tlvDecoder ((fixInit 1, fixInit 1), none) :=
  C76_reuse _ _ (.pair (.number _ 1) (.number _ 1))

/-- A decoder as in `C76_keep` and `C76_assoc`. -/
example : Streamable Plain true false u8Decoder (fixInit 1) ∧
    ∀ x : UInt8, Streamable Plain true false (lengthDecoder remainingBytesDecoder) (LengthState.new .new x.toNat) :=
  ⟨.number _ _ _ _, fun x => .length _ _ (Nat.lt_trans x.toNat_lt (by decide)) (.remaining true)⟩

end Bytecodec.Props
