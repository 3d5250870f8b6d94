import Verif.Spec.Counts
/-!
# C01-C04: byte counts and end-of-stream markers
-/
namespace Bytecodec.Props

open Bytecodec Bytecodec.Spec ByteCount

/-- C01: `add_for_decoding` is the documented table. -/
theorem C01_table (x y z : ByteCount) : DecodingRule x y z ↔ addForDecoding x y = z := by
  constructor
  · intro h
    cases h with
    | infinite_right => cases x <;> rfl
    | finite_unknown a h => cases a with
      | zero => exact absurd rfl h
      | succ => rfl
    | unknown_finite a h => cases a with
      | zero => exact absurd rfl h
      | succ => rfl
    | _ => rfl
  · rintro rfl
    cases x with
    | finite a =>
      cases y with
      | finite b => exact .finite_finite a b
      | infinite => exact .infinite_right _
      | unknown =>
        cases a with
        | zero => exact .zero_unknown
        | succ n => exact .finite_unknown _ (by omega)
    | infinite => exact .infinite_left y
    | unknown =>
      cases y with
      | finite b =>
        cases b with
        | zero => exact .unknown_zero
        | succ n => exact .unknown_finite _ (by omega)
      | infinite => exact .infinite_right _
      | unknown => exact .unknown_unknown

/-- C01: commutative monoid with identity `Finite(0)`; `Infinite` is absorbing. -/
theorem C01_monoid (x y z : ByteCount) :
    addForDecoding x y = addForDecoding y x ∧
    addForDecoding (addForDecoding x y) z = addForDecoding x (addForDecoding y z) ∧
    addForDecoding (finite 0) x = x ∧ addForDecoding x (finite 0) = x ∧
    addForDecoding infinite x = infinite ∧ addForDecoding x infinite = infinite := by
  rcases x with (_ | a) | _ | _ <;> rcases y with (_ | b) | _ | _ <;> rcases z with (_ | c) | _ | _ <;>
    simp [addForDecoding] <;> omega

/-- C01: the only failure is a `u64` overflow of two finite operands. -/
theorem C01_overflow (x y : ByteCount) :
    (addForDecodingChecked x y = .panic ↔ SumOverflows x y) ∧
    (¬ SumOverflows x y → addForDecodingChecked x y = .ok (addForDecoding x y)) := by
  cases x <;> cases y <;> simp [addForDecodingChecked, SumOverflows] <;> omega

example : DecodingRule (finite 3) unknown (finite 3) := by rw [C01_table]; rfl
example : SumOverflows (finite (2 ^ 63)) (finite (2 ^ 63)) := ⟨2 ^ 63, 2 ^ 63, rfl, rfl, by decide⟩
example : ¬ SumOverflows (finite 4) (finite 5) := by
  rintro ⟨a, b, h1, h2, h⟩; cases h1; cases h2; omega

/-- C02: `add_for_encoding` is the documented table. -/
theorem C02_table (x y z : ByteCount) : EncodingRule x y z ↔ addForEncoding x y = z := by
  constructor
  · intro h
    cases h with
    | infinite_right => cases x <;> rfl
    | unknown_left _ h => cases y <;> first | rfl | exact absurd rfl h
    | unknown_right _ h => cases x <;> first | rfl | exact absurd rfl h
    | _ => rfl
  · rintro rfl
    cases x with
    | finite a =>
      cases y with
      | finite b => exact .finite_finite a b
      | infinite => exact .infinite_right _
      | unknown => exact .unknown_right _ (by simp)
    | infinite => exact .infinite_left y
    | unknown =>
      cases y with
      | finite b => exact .unknown_left _ (by simp)
      | infinite => exact .infinite_right _
      | unknown => exact .unknown_left _ (by simp)

/-- C02: commutative monoid with identity `Finite(0)`; `Infinite` absorbs everything, `Unknown`
everything except `Infinite`. -/
theorem C02_monoid (x y z : ByteCount) :
    addForEncoding x y = addForEncoding y x ∧
    addForEncoding (addForEncoding x y) z = addForEncoding x (addForEncoding y z) ∧
    addForEncoding (finite 0) x = x ∧ addForEncoding x (finite 0) = x ∧
    addForEncoding infinite x = infinite ∧ addForEncoding x infinite = infinite ∧
    (x ≠ infinite → addForEncoding unknown x = unknown ∧ addForEncoding x unknown = unknown) := by
  rcases x with a | _ | _ <;> rcases y with b | _ | _ <;> rcases z with c | _ | _ <;>
    simp [addForEncoding] <;> omega

/-- C02: the only failure is a `u64` overflow of two finite operands. -/
theorem C02_overflow (x y : ByteCount) :
    (addForEncodingChecked x y = .panic ↔ SumOverflows x y) ∧
    (¬ SumOverflows x y → addForEncodingChecked x y = .ok (addForEncoding x y)) := by
  cases x <;> cases y <;> simp [addForEncodingChecked, SumOverflows] <;> omega

example : EncodingRule (finite 3) unknown unknown := by rw [C02_table]; rfl
example : (finite 7) ≠ infinite := by decide

/-- C03: the queries tell the three cases apart. -/
theorem C03_queries (x : ByteCount) :
    (x.isFinite = true ↔ ∃ n, x = finite n) ∧ (x.isInfinite = true ↔ x = infinite) ∧
    (x.isUnknown = true ↔ x = unknown) ∧ (∀ n, x.toU64 = some n ↔ x = finite n) ∧
    (x.toU64 = none ↔ x = infinite ∨ x = unknown) := by
  cases x <;> simp [isFinite, isInfinite, isUnknown, toU64]

/-- C03: finite counts are ordered numerically, `Infinite` lies above all of them and is equal to
itself, `Unknown` is incomparable with everything. -/
theorem C03_order (a b : Nat) (x : ByteCount) :
    partialCmp (finite a) (finite b) = some (compare a b) ∧
    partialCmp (finite a) infinite = some .lt ∧ partialCmp infinite (finite a) = some .gt ∧
    partialCmp infinite infinite = some .eq ∧
    partialCmp unknown x = none ∧ partialCmp x unknown = none := by
  cases x <;> simp [partialCmp]

/-- C03: the order is dual and transitive. -/
theorem C03_dual_transitive (x y z : ByteCount) :
    (partialCmp x y = some .lt ↔ partialCmp y x = some .gt) ∧
    (partialCmp x y = some .lt → partialCmp y z = some .lt → partialCmp x z = some .lt) ∧
    (partialCmp x y = some .gt → partialCmp y z = some .gt → partialCmp x z = some .gt) := by
  cases x <;> cases y <;> cases z <;>
    simp [partialCmp, Nat.compare_eq_lt, Nat.compare_eq_gt] <;> omega

/-- C03 (part that holds): `Some(Equal)` exactly for equal values, except for `Unknown`.
Missing: std requires it for all values. -/
theorem C03_equal_partial (x y : ByteCount) (h : x ≠ unknown) :
    partialCmp x y = some .eq ↔ x = y := by
  cases x <;> cases y <;> simp_all [partialCmp, Nat.compare_eq_eq]

/-- C03 (the code deviates from std's `PartialOrd` contract): `Unknown == Unknown` but the two are not
`Some(Equal)`. -/
theorem C03_equal_fails : ¬ ∀ x y : ByteCount, partialCmp x y = some .eq ↔ x = y := by
  intro h
  have := (h unknown unknown).2 rfl
  simp [partialCmp] at this

example : (finite 3) ≠ unknown ∧ partialCmp (finite 3) (finite 4) = some .lt ∧
    partialCmp (finite 4) infinite = some .lt := by decide

/-- C04: `Eos::new`, and `is_reached` means exactly zero bytes remain. -/
theorem C04_reached (b : Bool) (e : Eos) :
    (Eos.new b).isReached = b ∧ (e.isReached = true ↔ e.remainingBytes = finite 0) := by
  constructor
  · cases b <;> rfl
  · simp [Eos.isReached, Eos.remainingBytes]

/-- C04: what a marker says about the distance: `Eos::new(true)` is at the end, `Eos::new(false)` does not
know, and `with_remaining_bytes` is what was given. -/
theorem C04_distance (n : ByteCount) :
    (Eos.new true).remainingBytes = finite 0 ∧ (Eos.new false).remainingBytes = unknown ∧
    (Eos.withRemainingBytes n).remainingBytes = n := ⟨rfl, rfl, rfl⟩

/-- C04: `back` adds to a known distance, leaves other markers alone, and panics exactly when the
distance does not fit in a `u64`. -/
theorem C04_back (e : Eos) (k : Nat) :
    (EosSane e k → e.back k = .ok (eosShift e k)) ∧ (¬ EosSane e k ↔ e.back k = .panic) := by
  obtain ⟨r⟩ := e
  cases r <;> simp [Eos.back, eosShift, EosSane] <;> omega

/-- C04: `back` composes additively. -/
theorem C04_back_add (e e' : Eos) (j k : Nat) (h : e.back j = .ok e') :
    e'.back k = e.back (j + k) := by
  obtain ⟨r⟩ := e
  cases r with
  | finite n =>
    simp only [Eos.back] at h ⊢
    split at h
    · cases h; simp only [Nat.add_assoc]
    · cases h
  | _ => simp only [Eos.back] at h ⊢; cases h; rfl

/-- C04: after moving back by at least one byte, the end is not reached. -/
theorem C04_back_not_reached (e e' : Eos) (k : Nat) (hk : 0 < k) (h : e.back k = .ok e') :
    e'.isReached = false := by
  obtain ⟨r⟩ := e
  cases r with
  | finite n =>
    simp only [Eos.back] at h
    split at h
    · cases h; simp [Eos.isReached]; omega
    · cases h
  | _ => simp only [Eos.back] at h; cases h; rfl

example : (Eos.new true).back 5 = .ok ⟨finite 5⟩ := by decide
example : EosSane (Eos.new true) 5 := by
  intro n h; simp [Eos.new] at h; omega
example : ¬ EosSane ⟨finite 1⟩ (2 ^ 64 - 1) := by
  intro h; have := h 1 rfl; omega

end Bytecodec.Props
