import Verif.Lemmas.Matched
import Verif.Spec.Numbers
/-!
# Fixed-width numbers
-/
namespace Bytecodec

open Spec

theorem ofDigits_append (a b : Bytes) : ofDigits (a ++ b) = ofDigits a + 256 ^ a.length * ofDigits b := by
  induction a with
  | nil => simp [ofDigits]
  | cons x a ih =>
    simp only [List.cons_append, ofDigits, ih, List.length_cons, Nat.pow_succ]
    rw [Nat.mul_add, Nat.add_assoc, ← Nat.mul_assoc, Nat.mul_comm 256 (256 ^ a.length)]

theorem ofDigits_lt (a : Bytes) : ofDigits a < 256 ^ a.length := by
  induction a with
  | nil => simp [ofDigits]
  | cons x a ih =>
    simp only [ofDigits, List.length_cons, Nat.pow_succ]
    have := x.toNat_lt
    omega

theorem stored_lt (be : Bool) (a : Bytes) : stored be a < 256 ^ a.length := by
  cases be with
  | true => simpa [stored] using ofDigits_lt a.reverse
  | false => exact ofDigits_lt a

theorem digits_succ (k n : Nat) : digits (k + 1) n = UInt8.ofNat (n % 256) :: digits k (n / 256) := by
  simp only [digits, List.range_succ_eq_map, List.map_cons, List.map_map, Nat.pow_zero, Nat.div_one]
  congr 1
  apply List.map_congr_left
  intro i _
  simp only [Function.comp, Nat.div_div_eq_div_mul, Nat.pow_succ, Nat.mul_comm]

theorem ofDigits_digits (k n : Nat) : ofDigits (digits k n) = n % 256 ^ k := by
  induction k generalizing n with
  | zero => simp [digits, ofDigits, Nat.mod_one]
  | succ k ih =>
    rw [digits_succ, ofDigits, ih]
    have h : (UInt8.ofNat (n % 256)).toNat = n % 256 := by
      rw [UInt8.toNat_ofNat', Nat.mod_mod_of_dvd _ (by decide)]
    rw [h, Nat.pow_succ, Nat.mul_comm (256 ^ k) 256, Nat.mod_mul]

theorem length_digits (k n : Nat) : (digits k n).length = k := by simp [digits]

theorem length_layout (be : Bool) (k n : Nat) : (layout be k n).length = k := by
  cases be <;> simp [layout, length_digits]

theorem stored_layout (be : Bool) (k n : Nat) : stored be (layout be k n) = n % 256 ^ k := by
  cases be <;> simp [stored, layout, ofDigits_digits]

theorem readLE_eq (b : Bytes) : readLE b = stored false b := by
  simp only [stored, readLE, Bool.false_eq_true, if_false]
  induction b with
  | nil => rfl
  | cons x b ih => rw [List.foldr_cons, ih, ofDigits]

theorem readBE_eq (b : Bytes) : readBE b = stored true b := by
  simp only [stored, if_true]
  have : readBE b = readLE b.reverse := by
    simp only [readBE, readLE, List.foldr_reverse]
    congr 1
    funext a x
    omega
  rw [this, readLE_eq]
  rfl

theorem writeLE_eq (k n : Nat) : writeLE k n = layout false k n := by
  simp only [writeLE, layout, digits, Bool.false_eq_true, if_false]
  apply List.map_congr_left
  intro i _
  apply UInt8.toNat.inj
  rw [UInt8.toNat_ofNat', UInt8.toNat_ofNat', Nat.mod_mod_of_dvd _ (by decide)]

theorem writeBE_eq (k n : Nat) : writeBE k n = layout true k n := by
  have : writeBE k n = (writeLE k n).reverse := by
    apply List.ext_getElem
    · simp [writeBE, writeLE]
    · intro i h1 h2
      simp [writeBE, writeLE, List.getElem_reverse] at h1 ⊢
  rw [this, writeLE_eq]
  simp [layout]

/-- What the proofs need to know about a number codec. -/
structure IsNumber {α : Type} (E : SizedEncoder (BytesEncoderState Bytes) α) (D : Decoder CopyableState α)
    (k : Nat) (be : Bool) (val : α → Nat) : Prop where
  shape : ∃ f g, E = fixEncoder f ∧ D = fixDecoder g ∧
    (∀ x, f x = if val x < 256 ^ k then .ok (layout be k (val x)) else .error .invalidInput) ∧
    ∀ bs, bs.length = k → val (g bs) = stored be bs
  inj : ∀ x y, val x = val y → x = y

theorem int8_val (x : Int8) : (x.toInt % 2 ^ 8).toNat = x.toUInt8.toNat := by
  have h : x.toInt = x.toUInt8.toBitVec.toInt := rfl
  have h2 : x.toUInt8.toNat = x.toUInt8.toBitVec.toNat := rfl
  rw [h, h2, BitVec.toInt_eq_toNat_cond]
  have := x.toUInt8.toBitVec.isLt
  omega

theorem int8_inj (x y : Int8) (h : x.toUInt8.toNat = y.toUInt8.toNat) : x = y := by
  have := congrArg UInt8.toInt8 (UInt8.toNat.inj h)
  simpa using this

theorem int16_val (x : Int16) : (x.toInt % 2 ^ 16).toNat = x.toUInt16.toNat := by
  have h : x.toInt = x.toUInt16.toBitVec.toInt := rfl
  have h2 : x.toUInt16.toNat = x.toUInt16.toBitVec.toNat := rfl
  rw [h, h2, BitVec.toInt_eq_toNat_cond]
  have := x.toUInt16.toBitVec.isLt
  omega

theorem int16_inj (x y : Int16) (h : x.toUInt16.toNat = y.toUInt16.toNat) : x = y := by
  have := congrArg UInt16.toInt16 (UInt16.toNat.inj h)
  simpa using this

theorem int32_val (x : Int32) : (x.toInt % 2 ^ 32).toNat = x.toUInt32.toNat := by
  have h : x.toInt = x.toUInt32.toBitVec.toInt := rfl
  have h2 : x.toUInt32.toNat = x.toUInt32.toBitVec.toNat := rfl
  rw [h, h2, BitVec.toInt_eq_toNat_cond]
  have := x.toUInt32.toBitVec.isLt
  omega

theorem int32_inj (x y : Int32) (h : x.toUInt32.toNat = y.toUInt32.toNat) : x = y := by
  have := congrArg UInt32.toInt32 (UInt32.toNat.inj h)
  simpa using this

theorem int64_val (x : Int64) : (x.toInt % 2 ^ 64).toNat = x.toUInt64.toNat := by
  have h : x.toInt = x.toUInt64.toBitVec.toInt := rfl
  have h2 : x.toUInt64.toNat = x.toUInt64.toBitVec.toNat := rfl
  rw [h, h2, BitVec.toInt_eq_toNat_cond]
  have := x.toUInt64.toBitVec.isLt
  omega

theorem int64_inj (x y : Int64) (h : x.toUInt64.toNat = y.toUInt64.toNat) : x = y := by
  have := congrArg UInt64.toInt64 (UInt64.toNat.inj h)
  simpa using this

theorem one_layout (n : UInt8) : layout true 1 n.toNat = [n] := by
  simp [layout, digits]

theorem one_stored {bs : Bytes} (h : bs.length = 1) : (bs.headD 0).toNat = stored true bs := by
  match bs, h with
  | [b], _ => simp [stored, ofDigits]

theorem isNumber_mk {α : Type} {k : Nat} {be : Bool} {val : α → Nat} (f : α → Except ErrorKind Bytes)
    (g : Bytes → α)
    (hf : ∀ x, f x = if val x < 256 ^ k then .ok (layout be k (val x)) else .error .invalidInput)
    (hg : ∀ bs, bs.length = k → val (g bs) = stored be bs) (inj : ∀ x y, val x = val y → x = y) :
    IsNumber (fixEncoder f) (fixDecoder g) k be val :=
  ⟨⟨f, g, rfl, rfl, hf, hg⟩, inj⟩

theorem isNumber {α : Type} {E : SizedEncoder (BytesEncoderState Bytes) α} {D : Decoder CopyableState α}
    {k : Nat} {be : Bool} {val : α → Nat} (h : NumberCodec E D k be val) : IsNumber E D k be val := by
  cases h with
  | u8 =>
    refine isNumber_mk _ _ (fun x => ?_) (fun bs hb => one_stored hb) (fun x y h => UInt8.toNat.inj h)
    rw [if_pos (by have := x.toNat_lt; omega), one_layout]
  | i8 =>
    refine isNumber_mk _ _ (fun x => ?_) (fun bs hb => ?_) (fun x y h => ?_)
    · rw [int8_val, if_pos (by have := x.toUInt8.toNat_lt; omega), one_layout]
    · rw [int8_val, ← one_stored hb]; simp
    · rw [int8_val, int8_val] at h; exact int8_inj x y h
  | u16be =>
    refine isNumber_mk _ _ (fun x => ?_) (fun bs hb => ?_) (fun x y h => ?_)
    · rw [if_pos (by have := x.toNat_lt; omega), writeBE_eq]
    · have := stored_lt true bs
      rw [hb] at this
      rw [readBE_eq, UInt16.toNat_ofNat', Nat.mod_eq_of_lt (by omega)]
    · exact UInt16.toNat.inj h
  | u16le =>
    refine isNumber_mk _ _ (fun x => ?_) (fun bs hb => ?_) (fun x y h => ?_)
    · rw [if_pos (by have := x.toNat_lt; omega), writeLE_eq]
    · have := stored_lt false bs
      rw [hb] at this
      rw [readLE_eq, UInt16.toNat_ofNat', Nat.mod_eq_of_lt (by omega)]
    · exact UInt16.toNat.inj h
  | i16be =>
    refine isNumber_mk _ _ (fun x => ?_) (fun bs hb => ?_) (fun x y h => ?_)
    · rw [int16_val, if_pos (by have := x.toUInt16.toNat_lt; omega), writeBE_eq]
    · have := stored_lt true bs
      rw [hb] at this
      rw [readBE_eq, int16_val, UInt16.toUInt16_toInt16, UInt16.toNat_ofNat', Nat.mod_eq_of_lt (by omega)]
    · rw [int16_val, int16_val] at h; exact int16_inj x y h
  | i16le =>
    refine isNumber_mk _ _ (fun x => ?_) (fun bs hb => ?_) (fun x y h => ?_)
    · rw [int16_val, if_pos (by have := x.toUInt16.toNat_lt; omega), writeLE_eq]
    · have := stored_lt false bs
      rw [hb] at this
      rw [readLE_eq, int16_val, UInt16.toUInt16_toInt16, UInt16.toNat_ofNat', Nat.mod_eq_of_lt (by omega)]
    · rw [int16_val, int16_val] at h; exact int16_inj x y h
  | u24be =>
    refine isNumber_mk _ _ (fun x => ?_) (fun bs hb => ?_) (fun x y h => ?_)
    · rw [writeBE_eq]
      by_cases h : x.toNat < 256 ^ 3
      · rw [if_pos h, if_pos (by omega)]
      · rw [if_neg h, if_neg (by omega)]
    · have := stored_lt true bs
      rw [hb] at this
      rw [readBE_eq, UInt32.toNat_ofNat', Nat.mod_eq_of_lt (by omega)]
    · exact UInt32.toNat.inj h
  | u24le =>
    refine isNumber_mk _ _ (fun x => ?_) (fun bs hb => ?_) (fun x y h => ?_)
    · rw [writeLE_eq]
      by_cases h : x.toNat < 256 ^ 3
      · rw [if_pos h, if_pos (by omega)]
      · rw [if_neg h, if_neg (by omega)]
    · have := stored_lt false bs
      rw [hb] at this
      rw [readLE_eq, UInt32.toNat_ofNat', Nat.mod_eq_of_lt (by omega)]
    · exact UInt32.toNat.inj h
  | u32be =>
    refine isNumber_mk _ _ (fun x => ?_) (fun bs hb => ?_) (fun x y h => ?_)
    · rw [if_pos (by have := x.toNat_lt; omega), writeBE_eq]
    · have := stored_lt true bs
      rw [hb] at this
      rw [readBE_eq, UInt32.toNat_ofNat', Nat.mod_eq_of_lt (by omega)]
    · exact UInt32.toNat.inj h
  | u32le =>
    refine isNumber_mk _ _ (fun x => ?_) (fun bs hb => ?_) (fun x y h => ?_)
    · rw [if_pos (by have := x.toNat_lt; omega), writeLE_eq]
    · have := stored_lt false bs
      rw [hb] at this
      rw [readLE_eq, UInt32.toNat_ofNat', Nat.mod_eq_of_lt (by omega)]
    · exact UInt32.toNat.inj h
  | i32be =>
    refine isNumber_mk _ _ (fun x => ?_) (fun bs hb => ?_) (fun x y h => ?_)
    · rw [int32_val, if_pos (by have := x.toUInt32.toNat_lt; omega), writeBE_eq]
    · have := stored_lt true bs
      rw [hb] at this
      rw [readBE_eq, int32_val, UInt32.toUInt32_toInt32, UInt32.toNat_ofNat', Nat.mod_eq_of_lt (by omega)]
    · rw [int32_val, int32_val] at h; exact int32_inj x y h
  | i32le =>
    refine isNumber_mk _ _ (fun x => ?_) (fun bs hb => ?_) (fun x y h => ?_)
    · rw [int32_val, if_pos (by have := x.toUInt32.toNat_lt; omega), writeLE_eq]
    · have := stored_lt false bs
      rw [hb] at this
      rw [readLE_eq, int32_val, UInt32.toUInt32_toInt32, UInt32.toNat_ofNat', Nat.mod_eq_of_lt (by omega)]
    · rw [int32_val, int32_val] at h; exact int32_inj x y h
  | u40be =>
    refine isNumber_mk _ _ (fun x => ?_) (fun bs hb => ?_) (fun x y h => ?_)
    · rw [writeBE_eq]
      by_cases h : x.toNat < 256 ^ 5
      · rw [if_pos h, if_pos (by omega)]
      · rw [if_neg h, if_neg (by omega)]
    · have := stored_lt true bs
      rw [hb] at this
      rw [readBE_eq, UInt64.toNat_ofNat', Nat.mod_eq_of_lt (by omega)]
    · exact UInt64.toNat.inj h
  | u40le =>
    refine isNumber_mk _ _ (fun x => ?_) (fun bs hb => ?_) (fun x y h => ?_)
    · rw [writeLE_eq]
      by_cases h : x.toNat < 256 ^ 5
      · rw [if_pos h, if_pos (by omega)]
      · rw [if_neg h, if_neg (by omega)]
    · have := stored_lt false bs
      rw [hb] at this
      rw [readLE_eq, UInt64.toNat_ofNat', Nat.mod_eq_of_lt (by omega)]
    · exact UInt64.toNat.inj h
  | u48be =>
    refine isNumber_mk _ _ (fun x => ?_) (fun bs hb => ?_) (fun x y h => ?_)
    · rw [writeBE_eq]
      by_cases h : x.toNat < 256 ^ 6
      · rw [if_pos h, if_pos (by omega)]
      · rw [if_neg h, if_neg (by omega)]
    · have := stored_lt true bs
      rw [hb] at this
      rw [readBE_eq, UInt64.toNat_ofNat', Nat.mod_eq_of_lt (by omega)]
    · exact UInt64.toNat.inj h
  | u48le =>
    refine isNumber_mk _ _ (fun x => ?_) (fun bs hb => ?_) (fun x y h => ?_)
    · rw [writeLE_eq]
      by_cases h : x.toNat < 256 ^ 6
      · rw [if_pos h, if_pos (by omega)]
      · rw [if_neg h, if_neg (by omega)]
    · have := stored_lt false bs
      rw [hb] at this
      rw [readLE_eq, UInt64.toNat_ofNat', Nat.mod_eq_of_lt (by omega)]
    · exact UInt64.toNat.inj h
  | u56be =>
    refine isNumber_mk _ _ (fun x => ?_) (fun bs hb => ?_) (fun x y h => ?_)
    · rw [writeBE_eq]
      by_cases h : x.toNat < 256 ^ 7
      · rw [if_pos h, if_pos (by omega)]
      · rw [if_neg h, if_neg (by omega)]
    · have := stored_lt true bs
      rw [hb] at this
      rw [readBE_eq, UInt64.toNat_ofNat', Nat.mod_eq_of_lt (by omega)]
    · exact UInt64.toNat.inj h
  | u56le =>
    refine isNumber_mk _ _ (fun x => ?_) (fun bs hb => ?_) (fun x y h => ?_)
    · rw [writeLE_eq]
      by_cases h : x.toNat < 256 ^ 7
      · rw [if_pos h, if_pos (by omega)]
      · rw [if_neg h, if_neg (by omega)]
    · have := stored_lt false bs
      rw [hb] at this
      rw [readLE_eq, UInt64.toNat_ofNat', Nat.mod_eq_of_lt (by omega)]
    · exact UInt64.toNat.inj h
  | u64be =>
    refine isNumber_mk _ _ (fun x => ?_) (fun bs hb => ?_) (fun x y h => ?_)
    · rw [if_pos (by have := x.toNat_lt; omega), writeBE_eq]
    · have := stored_lt true bs
      rw [hb] at this
      rw [readBE_eq, UInt64.toNat_ofNat', Nat.mod_eq_of_lt (by omega)]
    · exact UInt64.toNat.inj h
  | u64le =>
    refine isNumber_mk _ _ (fun x => ?_) (fun bs hb => ?_) (fun x y h => ?_)
    · rw [if_pos (by have := x.toNat_lt; omega), writeLE_eq]
    · have := stored_lt false bs
      rw [hb] at this
      rw [readLE_eq, UInt64.toNat_ofNat', Nat.mod_eq_of_lt (by omega)]
    · exact UInt64.toNat.inj h
  | i64be =>
    refine isNumber_mk _ _ (fun x => ?_) (fun bs hb => ?_) (fun x y h => ?_)
    · rw [int64_val, if_pos (by have := x.toUInt64.toNat_lt; omega), writeBE_eq]
    · have := stored_lt true bs
      rw [hb] at this
      rw [readBE_eq, int64_val, UInt64.toUInt64_toInt64, UInt64.toNat_ofNat', Nat.mod_eq_of_lt (by omega)]
    · rw [int64_val, int64_val] at h; exact int64_inj x y h
  | i64le =>
    refine isNumber_mk _ _ (fun x => ?_) (fun bs hb => ?_) (fun x y h => ?_)
    · rw [int64_val, if_pos (by have := x.toUInt64.toNat_lt; omega), writeLE_eq]
    · have := stored_lt false bs
      rw [hb] at this
      rw [readLE_eq, int64_val, UInt64.toUInt64_toInt64, UInt64.toNat_ofNat', Nat.mod_eq_of_lt (by omega)]
    · rw [int64_val, int64_val] at h; exact int64_inj x y h
  | f32be =>
    refine isNumber_mk _ _ (fun x => ?_) (fun bs hb => ?_) (fun x y h => ?_)
    · rw [if_pos (by have := x.toNat_lt; omega), writeBE_eq]
    · have := stored_lt true bs
      rw [hb] at this
      rw [readBE_eq, UInt32.toNat_ofNat', Nat.mod_eq_of_lt (by omega)]
    · exact UInt32.toNat.inj h
  | f32le =>
    refine isNumber_mk _ _ (fun x => ?_) (fun bs hb => ?_) (fun x y h => ?_)
    · rw [if_pos (by have := x.toNat_lt; omega), writeLE_eq]
    · have := stored_lt false bs
      rw [hb] at this
      rw [readLE_eq, UInt32.toNat_ofNat', Nat.mod_eq_of_lt (by omega)]
    · exact UInt32.toNat.inj h
  | f64be =>
    refine isNumber_mk _ _ (fun x => ?_) (fun bs hb => ?_) (fun x y h => ?_)
    · rw [if_pos (by have := x.toNat_lt; omega), writeBE_eq]
    · have := stored_lt true bs
      rw [hb] at this
      rw [readBE_eq, UInt64.toNat_ofNat', Nat.mod_eq_of_lt (by omega)]
    · exact UInt64.toNat.inj h
  | f64le =>
    refine isNumber_mk _ _ (fun x => ?_) (fun bs hb => ?_) (fun x y h => ?_)
    · rw [if_pos (by have := x.toNat_lt; omega), writeLE_eq]
    · have := stored_lt false bs
      rw [hb] at this
      rw [readLE_eq, UInt64.toNat_ofNat', Nat.mod_eq_of_lt (by omega)]
    · exact UInt64.toNat.inj h

end Bytecodec
