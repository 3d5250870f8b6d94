import Verif.Lemmas.Idle
import Verif.Lemmas.EosLast
import Verif.Lemmas.Productive
import Verif.Lemmas.Demand
/-!
# C05, C06, C09, C10: every history of calls on every assembled decoder
-/
namespace Bytecodec.Props

open Bytecodec Bytecodec.Spec

variable {σ α : Type}

/-! ## C05 -/

/-- C05: whatever a caller did before, no call panics (arithmetic, indexing), none runs forever, and
none reports more bytes than it was given. -/
theorem C05_safe {D : Decoder σ α} {s : σ} (h : Assembled (fun _ => True) D s) : SafeFrom D s :=
  assembled_safe h

/-- A length-prefixed UTF-8 string. -/
example : Assembled (fun _ => True)
    (andThenDecoder u8Decoder (lengthDecoder (utf8Decoder remainingBytesDecoder))
      (fun n => .new .new n.toNat)) (fixInit 1, none) :=
  .andThen _ trivial (.number _ 1 trivial) fun n =>
    .length _ trivial (by have := n.toNat_lt; omega) (.utf8 trivial (.remaining trivial))

/-- All 16-bit numbers up to the end of the stream. -/
example : Assembled (fun _ => True) (collectDecoder u16beDecoder) ⟨fixInit 2, [], false⟩ :=
  .collect trivial (productive_number _ (by decide)) (.number _ 2 trivial)

/-- The hypothesis "every item takes at least one byte" of `collect` is needed: collecting empty items
from a non-empty buffer runs forever. -/
theorem C05_collect_empty_items_hang :
    ((collectDecoder nullDecoder).decode ⟨(), [], false⟩ [1] (Eos.new true)).1 = .diverge := by
  have h : ∀ o s (i : List Unit) x,
      collectLoop nullDecoder [1] (Eos.new true) o s i = some x → ¬ o = 0 := by
    apply collectLoop.partial_correctness nullDecoder [1] (Eos.new true)
      (motive := fun o s i x => ¬ o = 0)
    intro loop ih o s i x hx ho
    subst ho
    exact ih _ _ _ _ hx rfl
  have hn : collectLoop nullDecoder [1] (Eos.new true) 0 () [] = none := by
    cases hc : collectLoop nullDecoder [1] (Eos.new true) 0 () [] with
    | none => rfl
    | some x => exact absurd rfl (h _ _ _ _ hc)
  simp [collectDecoder, hn]

/-! ## C06 -/

/-- C06 (all decoders but the monolithic one): while the decoder is idle, `decode` consumes nothing
and changes nothing. -/
theorem C06_idle_partial {D : Decoder σ α} {s : σ}
    (h : Assembled (fun sh => sh ≠ .monolithic) D s) : IdleStable D s :=
  assembled_idle (by simp) h

example : Assembled (fun sh => sh ≠ .monolithic)
    (tupleDecoder2 u8Decoder (maxBytesDecoder remainingBytesDecoder)) (fixInit 1, .new .new 10) :=
  .pair (by decide) (.number _ 1 (by decide)) (.maxBytes 10 (by decide) (.remaining (by decide)))

/-- C06 (the code deviates): a monolithic decoder that holds a finished item consumes further bytes
and replaces the item. The parser here reads its whole input. -/
theorem C06_monolithic_fails :
    let parse : MonolithicParser Bytes := fun a b => (.ok (a ++ b), a.length + b.length)
    let s := ((monolithicDecoder parse).decode .new [1] (Eos.new true)).2
    Reach (monolithicDecoder parse) .new s ∧
    (monolithicDecoder parse).isIdle s = true ∧
    ((monolithicDecoder parse).decode s [2] (Eos.new true)).1 = .ok 1 ∧
    ((monolithicDecoder parse).finish s).1 = .ok [1] ∧
    ((monolithicDecoder parse).finish ((monolithicDecoder parse).decode s [2] (Eos.new true)).2).1
      = .ok [2] := by
  refine ⟨.decode _ _ .refl ?_, by decide, by decide, by decide, by decide⟩
  intro n h
  simp [Eos.new] at h
  subst h
  decide

/-! ## C09 -/

/-- C09 (all decoders without `length`, `slice`, `maybe_eos`): a `decode` call at the end of the
stream completes the item or fails. -/
theorem C09_eos_partial {D : Decoder σ α} {s : σ}
    (h : Assembled (fun sh => sh ≠ .length ∧ sh ≠ .slice ∧ sh ≠ .maybeEos) D s) : EosStrict D s :=
  assembled_eos (by simp) (by simp) (by simp) h

example : Assembled (fun sh => sh ≠ .length ∧ sh ≠ .slice ∧ sh ≠ .maybeEos)
    (andThenDecoder u8Decoder (collectNDecoder u16beDecoder) (fun n => .new (fixInit 2) n.toNat))
    (fixInit 1, none) :=
  .andThen _ (by decide) (.number _ 1 (by decide)) fun n =>
    .collectN _ (by decide) (.number _ 2 (by decide))

/-- C09 (all decoders without `slice` and `maybe_eos`): at the latest, a `decode` call at the end of the stream
for which no bytes are left completes the item or fails. So a caller that goes on calling a decoder which is
still waiting does not take a truncated item for a pause. -/
theorem C09_at_last {D : Decoder σ α} {s : σ}
    (h : Assembled (fun sh => sh ≠ .slice ∧ sh ≠ .maybeEos) D s) : EosStrictAtLast D s :=
  parts_last (by simp) (by simp) (fun _ _ _ _ h => h.elim) h

/-- A length-prefixed string: the frame is checked in the second call. -/
example : Assembled (fun sh => sh ≠ .slice ∧ sh ≠ .maybeEos)
    (andThenDecoder u8Decoder (lengthDecoder remainingBytesDecoder) (fun n => .new .new n.toNat))
    (fixInit 1, none) :=
  .andThen _ (by simp) (.number _ 1 (by simp)) fun n =>
    .length _ (by simp) (by have := n.toNat_lt; omega) (.remaining (by simp))

/-- C09 (the code deviates): `length(3)` is given the last two bytes of a stream and accepts them
without an error although a third byte is missing. (The truncation is noticed in the next call.) -/
theorem C09_length_fails :
    let D := lengthDecoder (fixDecoder (fun b => b))
    let s := (D.decode (.new (fixInit 3) 3) [1, 2] (Eos.new true)).2
    (D.decode (.new (fixInit 3) 3) [1, 2] (Eos.new true)).1 = .ok 2 ∧ D.isIdle s = false ∧
    (D.decode s [] (Eos.new true)).1 = .err .unexpectedEos := by decide

/-- C09 (the code deviates): `collect` of 16-bit numbers is given one byte, then the end of the stream.
The truncated number is dropped silently. With both in one call it is reported. -/
theorem C09_collect_drops :
    let D := collectDecoder u16beDecoder
    let s₀ : CollectState CopyableState UInt16 := ⟨fixInit 2, [], false⟩
    let s₁ := (D.decode s₀ [1] (Eos.new false)).2
    let s₂ := (D.decode s₁ [] (Eos.new true)).2
    (D.decode s₀ [1] (Eos.new false)).1 = .ok 1 ∧
    (D.decode s₁ [] (Eos.new true)).1 = .ok 0 ∧ D.isIdle s₂ = true ∧ (D.finish s₂).1 = .ok [] ∧
    (D.decode s₀ [1] (Eos.new true)).1 = .err .unexpectedEos := by
  intro D s₀ s₁ s₂
  have h1 : D.decode s₀ [1] (Eos.new false) = (.ok 1, ⟨⟨[1, 0], 1⟩, [], false⟩) := by
    simp only [D, collectDecoder]; unfold collectLoop; rfl
  have h2 : D.decode s₁ [] (Eos.new true) = (.ok 0, ⟨⟨[1, 0], 1⟩, [], true⟩) := by
    simp only [s₁, h1]; simp only [D, collectDecoder]; unfold collectLoop; rfl
  have h3 : D.decode s₀ [1] (Eos.new true) = (.err .unexpectedEos, ⟨⟨[1, 0], 1⟩, [], false⟩) := by
    simp only [D, collectDecoder]; unfold collectLoop; rfl
  simp only [s₂, h1, h2, h3]
  exact ⟨trivial, trivial, rfl, rfl, trivial⟩

/-- `slice` and `maybe_eos` hide the end of the stream by design, so they are no exceptions to C09. -/
theorem C09_slice_maybeEos_by_design :
    ((sliceDecoder u8Decoder).decode (.new (fixInit 1)) [7] (Eos.new true)).1 = .ok 0 ∧
    ((maybeEosDecoder u8Decoder).decode (.new (fixInit 1)) [] (Eos.new true)).1 = .ok 0 := by decide

/-! ## C10 -/

/-- C10: an item can only be taken from an idle decoder. -/
theorem C10_rejected {D : Decoder σ α} {s : σ} (h : Assembled (fun _ => True) D s) :
    FinishGuarded D s :=
  assembled_guard h

/-- C10: no item can be taken while the decoder itself says that bytes are missing. For `length` this is more than
`C10_rejected`: it calls itself idle as soon as the inner decoder is. -/
theorem C10_bytes_missing {D : Decoder σ α} {s : σ} (h : Assembled (fun _ => True) D s) :
    ∀ t, Reach D s t → (∃ n, D.requiring t = .finite (n + 1)) ∨ D.requiring t = .infinite →
      ∃ k, (D.finish t).1 = .err k := by
  intro t ht hm
  refine (assembled_safe h t ht).2.resolve_left fun ⟨x, hx⟩ => assembled_demand h t ht ?_ x hx
  rcases hm with ⟨n, hn⟩ | hi
  · rw [hn]; exact Nat.succ_ne_zero n
  · rw [hi]; trivial

/-- A frame of three bytes whose inner decoder is complete after two. -/
example : ∃ t, Reach (lengthDecoder u16beDecoder) (.new (fixInit 2) 3) t ∧
    (lengthDecoder u16beDecoder).isIdle t = true ∧ (lengthDecoder u16beDecoder).requiring t = .finite 1 :=
  ⟨_, .decode [1, 2] (Eos.new false) .refl EosSane.newFalse, by decide, by decide⟩

/-- C10: the error is `IncompleteDecoding` (in the absence of `map_err`, and of tuples, where a
completed component may fail first). -/
theorem C10_kind_partial {D : Decoder σ α} {s : σ}
    (h : Assembled (fun sh => sh ≠ .mapErr ∧ sh ≠ .pair) D s) :
    ∀ t, Reach D s t → D.isIdle t = false → (D.finish t).1 = .err .incompleteDecoding :=
  assembled_guard_kind (by simp) (by simp) h

/-- C10 (leaf decoders and most combinators): the rejected call changes nothing, so decoding can
continue. Missing: tuples, `and_then`, `length`, `max_bytes`, `maybe_eos`, see below. -/
theorem C10_unchanged_partial {D : Decoder σ α} {s : σ}
    (h : Assembled (fun sh => sh ≠ .mapErr ∧ sh ≠ .pair ∧ sh ≠ .andThen ∧ sh ≠ .length ∧
      sh ≠ .maxBytes ∧ sh ≠ .maybeEos) D s) :
    ∀ t, Reach D s t → D.isIdle t = false → D.finish t = (.err .incompleteDecoding, t) :=
  assembled_kept (by simp) (by simp) (by simp) (by simp) (by simp) (by simp) h

example : Assembled (fun sh => sh ≠ .mapErr ∧ sh ≠ .pair ∧ sh ≠ .andThen ∧ sh ≠ .length ∧
      sh ≠ .maxBytes ∧ sh ≠ .maybeEos)
    (peekableDecoder (collectNDecoder (utf8Decoder (copyableBytesDecoder)))) ⟨.new (.new [0, 0]) 5, none⟩ :=
  .peekable (by decide) (.collectN 5 (by decide) (.utf8 (by decide) (.copyable _ (by decide))))

/-- C10 (the code deviates): a rejected `finish_decoding` of a pair loses the completed first component:
`(u8, u8)` is given 7, finish is rejected, and then 8 alone does not complete the pair. -/
theorem C10_pair_loses_item :
    let D := tupleDecoder2 u8Decoder u8Decoder
    let s := (D.decode (fixInit 1, fixInit 1) [7] (Eos.new false)).2
    (D.finish s).1 = .err .incompleteDecoding ∧
    D.isIdle (D.decode s [8] (Eos.new false)).2 = true ∧
    D.isIdle (D.decode (D.finish s).2 [8] (Eos.new false)).2 = false := by decide

/-- C10 (the code deviates): a rejected `finish_decoding` of `and_then` forgets the second decoder. -/
theorem C10_andThen_loses_item :
    let D := andThenDecoder u8Decoder (lengthDecoder remainingBytesDecoder) (fun n => .new .new n.toNat)
    let s := (D.decode (fixInit 1, none) [2, 10] (Eos.new false)).2
    (D.finish s).1 = .err .incompleteDecoding ∧
    D.isIdle (D.decode s [11] (Eos.new false)).2 = true ∧
    D.isIdle (D.decode (D.finish s).2 [11] (Eos.new false)).2 = false := by decide

/-- C10 (the code deviates): a rejected `finish_decoding` of `max_bytes` resets the byte counter, so
that more than the allowed number of bytes are accepted for one item. -/
theorem C10_maxBytes_forgets :
    let D := maxBytesDecoder remainingBytesDecoder
    let s := (D.decode (.new .new 2) [1, 2] (Eos.new false)).2
    (D.finish s).1 = .err .incompleteDecoding ∧
    (D.decode s [3] (Eos.new false)).1 = .err .invalidInput ∧
    (D.decode (D.finish s).2 [3] (Eos.new false)).1 = .ok 1 := by decide

/-- C10 (the code deviates): a rejected `finish_decoding` of `maybe_eos` makes it forget that the item
has started: the end of the stream inside the item is no longer an error. -/
theorem C10_maybeEos_forgets :
    let D := maybeEosDecoder u16beDecoder
    let s := (D.decode (.new (fixInit 2)) [1] (Eos.new false)).2
    (D.finish s).1 = .err .incompleteDecoding ∧
    (D.decode s [] (Eos.new true)).1 = .err .unexpectedEos ∧
    (D.decode (D.finish s).2 [] (Eos.new true)).1 = .ok 0 := by decide

end Bytecodec.Props
