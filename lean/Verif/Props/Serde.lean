import Verif.Model.Serde
import Verif.Props.Leaves
import Verif.Props.Encoding
import Verif.Props.Sequences
import Verif.Props.Kinds
/-!
# C59, C60: JSON and Bincode codecs
-/
namespace Bytecodec.Props

open Spec

variable {α : Type}

/-- The bytes of an item. -/
def written (ser : SerdeWrite α) (x : α) : Bytes := (ser x).1.flatten

/-! ## C59: JSON -/

theorem json_whole (de : Bytes → Option α) : WholeParser (jsonParser de) where
  chain := by
    intro a b c
    simp only [jsonParser, List.append_assoc, List.length_append, Nat.add_assoc]
  whole := by
    intro a b x h
    simp only [jsonParser] at h ⊢
    cases hd : de (a ++ b) <;> rfl

/-- C59: however the text is cut into chunks, a JSON decoder yields exactly what the JSON library makes of the
whole text, consumes all of it and is as new afterwards. -/
theorem C59_decode {de : Bytes → Option α} {chunks : List (Bytes × Eos)} {b : Bytes} {e : Eos}
    (hc : Schedule chunks b e) (he : e.isReached = true) (hl : b.length < 2 ^ 64) :
    feed (jsonDecoder de) .new chunks = (de b).map fun x => (b.length, x, .new) := by
  have key : ∀ r, feed (jsonDecoder de) .new chunks = some r ↔ (de b).map (fun x => (b.length, x, .new)) = some r := by
    rintro ⟨n, x, t⟩
    refine (C47_concat (json_whole de) hc he hl x n t).trans ?_
    simp only [jsonParser, List.nil_append]
    cases de b with
    | none => simp
    | some y =>
      simp only [Res.ok.injEq, Option.map_some, Option.some.injEq, Prod.mk.injEq]
      constructor
      · rintro ⟨rfl, rfl, rfl⟩; exact ⟨rfl, rfl, rfl⟩
      · rintro ⟨rfl, rfl, rfl⟩; exact ⟨rfl, rfl, rfl⟩
  cases hf : feed (jsonDecoder de) .new chunks with
  | some r => exact ((key r).1 hf).symm
  | none =>
    cases hm : (de b).map fun x => (b.length, x, MonoDecState.new) with
    | none => rfl
    | some r => rw [(key r).2 hm] at hf; cases hf

/-- C59: what the library rejects fails with `InvalidInput`, but not before the end of the text. -/
theorem C59_invalid {de : Bytes → Option α} (pre : List (Bytes × Eos)) (hp : ∀ c ∈ pre, c.2.isReached = false)
    (b : Bytes) (e : Eos) (he : e.isReached = true) (hd : de (pre.flatMap Prod.fst ++ b) = none) :
    feedErr (jsonDecoder de) .new (pre ++ [(b, e)]) = some .invalidInput ∧
    (∀ s c ec, ec.isReached = false → ∃ s', (jsonDecoder de).decode s c ec = (.ok c.length, s')) := by
  constructor
  · exact ((C47_once_partial (jsonParser de) pre hp b e he).2 .invalidInput _ (by simp only [jsonParser, hd]; rfl)).2
  · intro s c ec hec
    simp only [jsonDecoder, monolithicDecoder, hec]
    exact ⟨_, rfl⟩

/-- C59: under any schedule a JSON encoder emits the text the library writes for the item; if the library
fails, `encode` fails with `InvalidInput`. -/
theorem C59_encode (ser : SerdeWrite α) :
    Emits false (jsonEncoder ser) .new (fun x => (ser x).2 = true) (fun x => .ok (written ser x)) ∧
    (∀ s x cap e, s.item = some x → (ser x).2 = false →
      (jsonEncoder ser).encode s cap e = (.err .invalidInput, { s with item := none })) := by
  constructor
  · have h := C46_schedule_partial (serdeSerializer ser)
    have hd : (fun x => (serdeSerializer ser x).2 = .ok ()) = fun x => (ser x).2 = true := by
      funext x
      simp only [serdeSerializer]
      cases (ser x).2 <;> simp
    rw [hd] at h
    exact h
  · intro s x cap e hs hx
    exact C46_serializer_error (serdeSerializer ser) s x .invalidInput hs (by simp [serdeSerializer, hx]) cap e

/-- If the library reads what it has written, then the JSON codecs match. -/
theorem json_matched {ser : SerdeWrite α} {de : Bytes → Option α}
    (h : ∀ x, (ser x).2 = true → de (written ser x) = some x) :
    Matched false false true (jsonEncoder ser) .new (jsonDecoder de) .new (fun x => (ser x).2 = true)
      (fun x => .ok (written ser x)) := by
  have hs : ∀ x, (serdeSerializer ser x).2 = .ok () ↔ (ser x).2 = true := by
    intro x
    simp only [serdeSerializer]
    cases (ser x).2 <;> simp
  refine (Matched.monolithic (serdeSerializer ser) (jsonParser de) (json_whole de) fun x hx => ?_).weaken
    (fun x hx => ⟨(hs x).2 hx, rfl⟩) id id id
  have := h x ((hs x).1 hx)
  simp only [written] at this
  simp only [jsonParser, List.nil_append, serdeSerializer, this]

/-- C59: what is sent is received, whatever the buffers of the sender and the pieces of the receiver. -/
theorem C59_round_trip {ser : SerdeWrite α} {de : Bytes → Option α}
    (h : ∀ x, (ser x).2 = true → de (written ser x) = some x) :
    RoundTrips false false true (jsonEncoder ser) .new (jsonDecoder de) .new (fun x => (ser x).2 = true)
      (fun x => (written ser x).length) :=
  matched_roundTrips (json_matched h) _ fun x b _ hb => by cases hb; rfl

/-- C59: JSON messages in frames with a 32-bit length can be sent one after the other. -/
theorem C59_frames {ser : SerdeWrite α} {de : Bytes → Option α}
    (h : ∀ x, (ser x).2 = true → de (written ser x) = some x) :
    RoundTrips false true true
      (mapFromEncoder (tupleEncoder2 u32beEncoder.toEncoder (jsonEncoder ser))
        fun x => (UInt32.ofNat (written ser x).length, x)) (.new, .new)
      (andThenDecoder u32beDecoder (lengthDecoder (jsonDecoder de)) fun n => .new .new n.toNat) (fixInit 4, none)
      (fun x => (ser x).2 = true ∧ (written ser x).length < 2 ^ 32) (fun x => 4 + (written ser x).length) :=
  (C22_length_prefixed NumberCodec.u32be UInt32.ofNat
    (fun n h => by rw [UInt32.toNat_ofNat', Nat.mod_eq_of_lt (by omega)]) (json_matched h)).2

/-- A toy format for the examples: `1` and `2` for the truth values, and nothing else. -/
def toySer : SerdeWrite Bool := fun x => ([[49 + if x then 1 else 0]], true)

/-- Its reader. -/
def toyDe : Bytes → Option Bool
  | [49] => some false
  | [50] => some true
  | _ => none

example : ∀ x, (toySer x).2 = true → toyDe (written toySer x) = some x := by decide

/-- In three pieces; and with something left over. -/
example : (feed (jsonDecoder toyDe) .new [([], Eos.new false), ([50], Eos.new false), ([], Eos.new true)]).map
      (fun r => (r.1, r.2.1)) = some (1, true) ∧
    (feed (jsonDecoder toyDe) .new [([50], Eos.new false), ([50], Eos.new true)]).isNone = true ∧
    Schedule [([], Eos.new false), ([50], Eos.new false), ([], Eos.new true)] [50] (Eos.new true) :=
  ⟨by decide +kernel, by decide +kernel, .cons [] _ (.inl rfl) (.cons [50] _ (.inl rfl) (.last _ _))⟩

/-! ## C60: Bincode -/

/-- C60: however the bytes are cut: if they are exactly one item, the decoder yields it and consumes them;
if they are none, it fails with `InvalidInput`. -/
theorem C60_exact {de : Bytes → Option (α × Nat)} (pre : List (Bytes × Eos)) (hp : ∀ c ∈ pre, c.2.isReached = false)
    (b : Bytes) (e : Eos) (he : e.isReached = true) :
    let all := pre.flatMap Prod.fst ++ b
    (∀ x, de all = some (x, all.length) →
      feed (bincodeDecoder de) .new (pre ++ [(b, e)]) = some (all.length, x, .new)) ∧
    (de all = none → feed (bincodeDecoder de) .new (pre ++ [(b, e)]) = none ∧
      feedErr (bincodeDecoder de) .new (pre ++ [(b, e)]) = some .invalidInput) := by
  intro all
  obtain ⟨h1, h2⟩ := C47_once_partial (bincodeParser de) pre hp b e he
  constructor
  · intro x hx
    have hx' : de (pre.flatMap Prod.fst ++ b) = some (x, all.length) := hx
    rw [show feed (bincodeDecoder de) .new (pre ++ [(b, e)]) = _ from h1 x all.length (by simp only [bincodeParser, hx'])]
    have : all.length = (pre.flatMap Prod.fst).length + b.length := List.length_append
    rw [this, Nat.add_sub_cancel_left, Nat.min_self]
  · intro hx
    have hx' : de (pre.flatMap Prod.fst ++ b) = none := hx
    exact h2 .invalidInput _ (by simp only [bincodeParser, hx']; rfl)

/-- C60: bytes after the item: those that came in a chunk before the last one are consumed with it, the
others are left alone. -/
theorem C60_trailing_partial {de : Bytes → Option (α × Nat)} (pre : List (Bytes × Eos)) (hp : ∀ c ∈ pre, c.2.isReached = false)
    (b : Bytes) (e : Eos) (he : e.isReached = true) {x : α} {n : Nat}
    (hd : de (pre.flatMap Prod.fst ++ b) = some (x, n)) (hn : n ≤ (pre.flatMap Prod.fst ++ b).length) :
    feed (bincodeDecoder de) .new (pre ++ [(b, e)]) = some (max n (pre.flatMap Prod.fst).length, x, .new) := by
  obtain ⟨h1, _⟩ := C47_once_partial (bincodeParser de) pre hp b e he
  rw [show feed (bincodeDecoder de) .new (pre ++ [(b, e)]) = _ from h1 x n (by simp only [bincodeParser, hd])]
  rw [List.length_append] at hn
  congr 2
  omega

/-- C60: `decode_from_bytes` accepts exactly the byte strings that are one item. -/
theorem C60_from_bytes {de : Bytes → Option (α × Nat)} (hn : ∀ b x n, de b = some (x, n) → n ≤ b.length) (b : Bytes) (x : α) :
    decodeFromBytes (bincodeDecoder de) .new b = (.ok x, .new) ↔ de b = some (x, b.length) := by
  have hr : (Eos.new true).isReached = true := rfl
  simp only [decodeFromBytes, bincodeDecoder, monolithicDecoder, hr, if_true, bincodeParser, MonoDecState.new,
    List.nil_append]
  cases hd : de b with
  | none => simp [Res.step]
  | some p =>
    obtain ⟨y, n⟩ := p
    have := hn b y n hd
    simp only [Res.step, List.length_nil, Nat.sub_zero, Nat.min_eq_left this]
    by_cases h : n = b.length
    · subst h
      simp
    · rw [if_neg h]
      simp [h]

/-- C60: under any schedule a Bincode encoder emits the bytes the library writes for the item; if the library
fails, `encode` fails with `InvalidInput`. -/
theorem C60_encode (ser : SerdeWrite α) :
    Emits false (bincodeEncoder ser) .new (fun x => (ser x).2 = true) (fun x => .ok (written ser x)) ∧
    (∀ s x cap e, s.item = some x → (ser x).2 = false →
      (bincodeEncoder ser).encode s cap e = (.err .invalidInput, { s with item := none })) :=
  C59_encode ser

/-- A toy format: one byte, and where it ends. -/
def toyBin : Bytes → Option (UInt8 × Nat)
  | [] => none
  | x :: _ => some (x, 1)

example : (∀ b x n, toyBin b = some (x, n) → n ≤ b.length) ∧ toyBin [7] = some (7, [7].length) := by
  refine ⟨fun b x n h => ?_, rfl⟩
  cases b with
  | nil => cases h
  | cons y b => cases h; simp

/-- C60 (the code deviates): bytes after the item are refused by `decode_from_bytes`, left to the caller when
they come in the last chunk, and swallowed when they come earlier. -/
theorem C60_trailing_fails :
    let D := bincodeDecoder toyBin
    (decodeFromBytes D .new [7, 8]).1 = .err .invalidInput ∧
    (feed D .new [([7, 8], Eos.new true)]).map (fun r => (r.1, r.2.1)) = some (1, 7) ∧
    (feed D .new [([7, 8], Eos.new false), ([], Eos.new true)]).map (fun r => (r.1, r.2.1)) = some (2, 7) := by
  decide +kernel

end Bytecodec.Props
