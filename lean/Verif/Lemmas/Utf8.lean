import Verif.Model.Bytes
/-!
# UTF-8

`String.utf8EncodeChar` of the standard library is the table of RFC 3629.
-/
namespace Bytecodec

theorem toByteArray_eta (a : ByteArray) : (⟨a.data.toList.toArray⟩ : ByteArray) = a := by
  rcases a with ⟨d⟩
  simp

theorem data_toByteArray (l : List UInt8) : l.toByteArray.data.toList = l := by
  have : ∀ (l : List UInt8) (r : ByteArray), (List.toByteArray.loop l r).data.toList = r.data.toList ++ l := by
    intro l
    induction l with
    | nil => intro r; simp [List.toByteArray.loop]
    | cons b l ih => intro r; rw [List.toByteArray.loop, ih]; simp [ByteArray.push]
  rw [List.toByteArray, this]
  rfl

theorem utf8Bytes_ofList (m : List Char) : utf8Bytes (String.ofList m) = m.flatMap String.utf8EncodeChar := by
  rw [utf8Bytes, String.toByteArray_ofList, List.utf8Encode, data_toByteArray]

theorem utf8Bytes_eq (x : String) : utf8Bytes x = x.toList.flatMap String.utf8EncodeChar := by
  rw [← utf8Bytes_ofList, String.ofList_toList]

theorem fromUtf8_utf8Bytes (x : String) : fromUtf8 (utf8Bytes x) = some x := by
  rw [fromUtf8, utf8Bytes, toByteArray_eta, String.fromUTF8?, dif_pos x.isValidUTF8]
  rfl

theorem fromUtf8_some {b : Bytes} {x : String} : fromUtf8 b = some x ↔ b = utf8Bytes x := by
  constructor
  · intro h
    rw [fromUtf8, String.fromUTF8?] at h
    split at h
    · cases h
      rfl
    · cases h
  · rintro rfl
    exact fromUtf8_utf8Bytes x

theorem fromUtf8_none {b : Bytes} : fromUtf8 b = none ↔ ∀ m : List Char, b ≠ m.flatMap String.utf8EncodeChar := by
  constructor
  · rintro h m rfl
    rw [← utf8Bytes_ofList, fromUtf8_utf8Bytes] at h
    cases h
  · intro h
    cases hb : fromUtf8 b with
    | none => rfl
    | some x =>
      rw [fromUtf8_some, utf8Bytes_eq] at hb
      exact absurd hb (h _)

end Bytecodec
