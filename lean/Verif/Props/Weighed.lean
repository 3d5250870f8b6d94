import Verif.Lemmas.Weighed
import Verif.Lemmas.Safe
import Verif.Lemmas.Idle
import Verif.Spec.Metered
/-!
# C98: formats whose items take at least one byte

`collect` ends, and its list is not longer than its input, because each item takes a byte. Which formats have this property
can be read off how they are composed.
-/
namespace Bytecodec.Props

open Bytecodec Spec

variable {σ α : Type}

/-- C98: a format composed by the rules of `Weighed` has the property that the theorems about `collect` assume. -/
theorem C98_productive {D : Decoder σ α} {s : σ} (h : Weighed true D s) : Productive D s := (weighed_spec h).1 rfl

/-- C98: every item of such a format takes at least one byte, however the input is cut (into pieces that are not empty),
and also after other items and after calls that failed. -/
theorem C98_at_least_a_byte {D : Decoder σ α} {s₀ s : σ} (h : Weighed true D s₀) (hr : ReachItem D s₀ s)
    (chunks : List (Bytes × Eos)) (hs : ∀ c ∈ chunks, c.1 ≠ [] ∧ EosSane c.2 c.1.length) (n : Nat) (x : α) (s' : σ)
    (hf : feed D s chunks = some (n, x, s')) : 0 < n := by
  obtain ⟨h1, h2⟩ := C98_productive h s hr
  unfold feed at hf
  cases hi : D.isIdle s with
  | true =>
    have := h1 hi
    simp only [hi, if_true] at hf
    cases hfin : D.finish s with
    | mk r t =>
      rw [hfin] at this hf
      cases r with
      | ok y => cases this
      | _ => cases hf
  | false =>
    simp only [hi, Bool.false_eq_true, if_false] at hf
    cases chunks with
    | nil => cases hf
    | cons c rest =>
      obtain ⟨b, e⟩ := c
      obtain ⟨hb, he⟩ := hs (b, e) (by simp)
      have h3 := h2 b e hb he hi
      dsimp only at hf
      cases hd : D.decode s b e with
      | mk r t =>
        rw [hd] at hf h3
        cases r with
        | ok k =>
          dsimp only at hf h3
          split at hf
          · rename_i hor
            rcases Nat.eq_zero_or_pos k with hk | hk
            · subst hk
              have hi' : D.isIdle t = true := by
                rcases hor with h | h
                · exact h
                · exact absurd (List.length_eq_zero_iff.1 h.symm) hb
              have h4 := h3 rfl hi'
              unfold feed at hf
              simp only [hi', if_true] at hf
              cases hfin : D.finish t with
              | mk r t' =>
                rw [hfin] at h4 hf
                cases r with
                | ok y => cases h4
                | _ => cases hf
            · cases hfe : feed D t rest with
              | none => rw [hfe] at hf; cases hf
              | some p =>
                rw [hfe] at hf
                simp only [Option.map_some, Option.some.injEq, Prod.mk.injEq] at hf
                omega
          · cases hf
        | _ => cases hf

/-- C98: a list of such items that is read up to the end of the stream has at most as many items as bytes. -/
theorem C98_items_le_bytes {D : Decoder σ α} {s : σ} (h : Weighed true D s) (chunks : List (Bytes × Eos))
    (hs : ∀ c ∈ chunks, EosSane c.2 c.1.length) (n : Nat) (xs : List α) (s' : CollectState σ α)
    (hf : feed (collectDecoder D) ⟨s, [], false⟩ chunks = some (n, xs, s')) : xs.length ≤ n := by
  have := collect_feed_le (C98_productive h) chunks hs ⟨s, [], false⟩ .refl n xs s' hf
  simpa using this

/-- C98: what may be put in a frame of any size, because it accepts the empty one: the bytes of the frame, -/
theorem C98_closes_remaining : Closes remainingBytesDecoder .new := closes_remaining

/-- and a list that goes up to the end of the frame. -/
theorem C98_closes_collect (D : Decoder σ α) (s : σ) : Closes (collectDecoder D) ⟨s, [], false⟩ := closes_collect D s

/-- What is around it does not matter. -/
theorem C98_closes_around {β : Type} {D : Decoder σ α} {s : σ} (f : α → β) (g : α → Except ErrorKind β) (h : Closes D s) :
    Closes (mapDecoder D f) s ∧ Closes (tryMapDecoder D g) s := ⟨closes_map f h, closes_tryMap g h⟩

theorem C98_closes_utf8 {D : Decoder σ Bytes} {s : σ} (h : Closes D s) : Closes (utf8Decoder D) s := closes_utf8 h

/-! ## Some formats -/

/-- A string with its length in front. -/
def namedText : Decoder (CopyableState × Option (LengthState RemainingState)) String :=
  andThenDecoder u8Decoder (lengthDecoder (utf8Decoder remainingBytesDecoder)) fun n => .new .new n.toNat

theorem safe_text : SafeFrom (utf8Decoder remainingBytesDecoder) .new :=
  assembled_safe (ok := fun _ => True) (.utf8 trivial (.remaining trivial))

theorem eos_text : EosStrict (utf8Decoder remainingBytesDecoder) .new :=
  assembled_eos (ok := fun s => s = .utf8 ∨ s = .remaining) (by simp) (by simp) (by simp) (.utf8 (.inl rfl) (.remaining (.inr rfl)))

theorem number_safe {α : Type} (f : Bytes → α) (k : Nat) : SafeFrom (fixDecoder f) (fixInit k) :=
  assembled_safe (ok := fun _ => True) (.number f k trivial)

/-- C98: each string takes at least one byte, the empty one too. -/
theorem C98_named_text : Weighed true namedText (fixInit 1, none) :=
  .andThen _ (number_safe _ 1) (.number _ 1 (by decide)) fun n =>
    .lengthLater n.toNat (Nat.lt_of_lt_of_le n.toNat_lt (by decide)) safe_text eos_text (C98_closes_utf8 C98_closes_remaining)

/-- So are the other assumptions of `collect` met: a list of strings up to the end of the stream never hangs (C05), … -/
example : SafeFrom (collectDecoder namedText) ⟨(fixInit 1, none), [], false⟩ :=
  assembled_safe (ok := fun _ => True) (.collect trivial (C98_productive C98_named_text)
    (.andThen _ trivial (.number _ 1 trivial) fun n =>
      .length n.toNat trivial (Nat.lt_of_lt_of_le n.toNat_lt (by decide)) (.utf8 trivial (.remaining trivial))))

/-- … the work it takes is linear in its bytes (C97; here the strings are the innermost decoders), … -/
example : Metered 1 (2 * 1 + 0) (collectDecoder namedText) ⟨(fixInit 1, none), [], false⟩
    (mapDecoder (collectDecoder (meteredLeaf namedText)) fun l => (l.map Prod.fst, countSum l))
    ⟨((fixInit 1, none), 0), [], false⟩ :=
  .collect (C98_productive C98_named_text) (.leaf namedText _)

/-- … and such a list again is a format whose items take at least one byte: a record of a name, a number of such lists with
their count in front, and padding up to the end. -/
example : Weighed true
    (tupleDecoder2 namedText (tupleDecoder2 (andThenDecoder u8Decoder (collectNDecoder namedText)
      fun n => CollectNState.new (fixInit 1, none) n.toNat) paddingDecoder))
    ((fixInit 1, none), (fixInit 1, none), .new (some 0)) := by
  have htext : ∀ n : UInt8, Assembled (fun _ => True) (lengthDecoder (utf8Decoder remainingBytesDecoder)) (.new .new n.toNat) :=
    fun n => .length n.toNat trivial (Nat.lt_of_lt_of_le n.toNat_lt (by decide)) (.utf8 trivial (.remaining trivial))
  have hname : Assembled (fun _ => True) namedText (fixInit 1, none) :=
    .andThen _ trivial (.number _ 1 trivial) htext
  refine .pair (assembled_safe hname) C98_named_text (.pair (assembled_safe (ok := fun _ => True)
    (.andThen _ trivial (.number _ 1 trivial) fun n => .collectN n.toNat trivial hname)) (.later ?_) (.later (.padding _)))
  exact .andThen _ (number_safe _ 1) (.number _ 1 (by decide)) fun n => .collectN n.toNat C98_named_text

/-- Two names, the second one empty, in three pieces. -/
example : ((feed (tupleDecoder2 namedText namedText) ((fixInit 1, none), (fixInit 1, none))
      [([2, 104], Eos.new false), ([105], Eos.new false), ([0, 9], Eos.new false)]).map fun r => (r.1, r.2.1)) =
    some (4, "hi", "") := by
  decide +kernel

/-- Only what takes a byte may come first: an item without any bytes, in front of the end of a list, makes `collect` hang
(`C05_collect_empty_items_hang`), and an empty frame is such an item. -/
theorem C98_empty_frame_fails : ¬ Productive (lengthDecoder remainingBytesDecoder) (.new .new 0) := by
  intro h
  have := (h _ .refl).2 [1] (Eos.new false) (by simp) EosSane.newFalse rfl (by decide +kernel) (by decide +kernel)
  revert this
  decide +kernel

end Bytecodec.Props
