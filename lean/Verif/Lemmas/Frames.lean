import Verif.Lemmas.Numbers
/-!
# Streams of frames of a fixed size
-/
namespace Bytecodec

open Spec

variable {α : Type}

theorem todo_frames (f : Bytes → α) {k : Nat} (tail : Bytes) :
    ∀ {frames : List Bytes}, (∀ b ∈ frames, b.length = k) →
      Todo (fun x bs => x = f bs ∧ bs.length = k) (fun _ => k) tail (frames.map f) (frames.flatten ++ tail)
  | [], _ => by simpa using Todo.nil
  | b :: bs, h => by
    rw [List.flatten_cons, List.append_assoc]
    exact .cons ⟨rfl, h b (by simp)⟩ (h b (by simp)).symm (todo_frames f tail fun c hc => h c (by simp [hc]))

theorem receives_number (f : Bytes → α) {k : Nat} {frames : List Bytes} (h : ∀ b ∈ frames, b.length = k)
    (tail : Bytes) {e : Eos} (he : EosSane e (frames.flatten ++ tail).length) :
    Receives (fixDecoder f) (fixInit k) (frames.flatten ++ tail) e (frames.map f) (fun _ => k) := by
  obtain ⟨I, hI, hIs⟩ := streamable_splits (Streamable.number (ok := fun _ => True) true true f k)
  exact receives_of hI (reads_number f k) ⟨hIs, rfl, by simp [fixInit]⟩ he (todo_frames f tail h)
    (.inl ⟨rfl, rfl⟩) (.inl rfl)

theorem receives_copyable (b : Bytes) {frames : List Bytes} (h : ∀ x ∈ frames, x.length = b.length)
    (tail : Bytes) {e : Eos} (he : EosSane e (frames.flatten ++ tail).length) :
    Receives copyableBytesDecoder (.new b) (frames.flatten ++ tail) e frames (fun _ => b.length) := by
  obtain ⟨I, hI, hIs⟩ := streamable_splits (Streamable.copyable (ok := fun _ => True) true true b)
  have := todo_frames id tail h
  rw [List.map_id] at this
  exact receives_of hI (reads_copyable b.length) ⟨hIs, rfl, rfl⟩ he this (.inl ⟨rfl, rfl⟩) (.inl rfl)

theorem number_val_lt {E : SizedEncoder (BytesEncoderState Bytes) α} {D : Decoder CopyableState α}
    {k : Nat} {be : Bool} {val : α → Nat} (h : NumberCodec E D k be val) (x : α) : val x < 2 ^ 64 := by
  cases h with
  | i8 | i16be | i16le | i32be | i32le | i64be | i64le =>
    simp only
    omega
  | u8 | u16be | u16le | u24be | u24le | u32be | u32le | u40be | u40le | u48be | u48le | u56be | u56le | u64be
  | u64le | f32be | f32le | f64be | f64le =>
    have := x.toNat_lt
    simp only
    omega

theorem matched_number {E : SizedEncoder (BytesEncoderState Bytes) α} {D : Decoder CopyableState α}
    {k : Nat} {be : Bool} {val : α → Nat} (h : NumberCodec E D k be val) (strict : Bool) :
    Matched strict true true E.toEncoder .new D (fixInit k) (fun _ => True)
      (fun x => if val x < 256 ^ k then .ok (layout be k (val x)) else .error .invalidInput) := by
  obtain ⟨⟨f, g, rfl, rfl, h1, h2⟩, h3⟩ := isNumber h
  rw [show (fun x => if val x < 256 ^ k then Except.ok (layout be k (val x))
      else Except.error ErrorKind.invalidInput) = f from funext fun x => (h1 x).symm]
  refine Matched.number strict f g k fun x bs hx => ?_
  rw [h1] at hx
  split at hx
  · next hlt =>
    cases hx
    refine ⟨length_layout .., h3 _ _ ?_⟩
    rw [h2 _ (length_layout ..), stored_layout, Nat.mod_eq_of_lt hlt]
  · cases hx

end Bytecodec
