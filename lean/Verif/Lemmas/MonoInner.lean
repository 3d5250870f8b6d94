import Verif.Spec.MonoInner
import Verif.Lemmas.CodesIo
/-!
# Monolithic codecs whose inner codec is changed
-/
namespace Bytecodec
open Spec

variable {π α : Type}

theorem takeSteps_eq (parse : π → MonolithicParser α) (l : List (MonoStep π)) (hl : NoEos l) (p : π)
    (i : Option α) (g : Bytes) :
    takeSteps parse (p, ⟨i, g⟩) l = some (innerAfter p l, ⟨i, g ++ passed l⟩) := by
  induction l generalizing p g with
  | nil => simp [takeSteps, innerAfter, passed]
  | cons x l ih =>
    have hl' : NoEos l := fun b e h => hl b e (List.mem_cons_of_mem _ h)
    cases x with
    | change f => simp only [takeSteps, monoDecInnerMut, innerAfter, passed]; exact ih hl' _ _
    | bytes b e =>
      have he : e.isReached = false := hl b e (List.mem_cons_self ..)
      have h : (monolithicDecoderOf parse).decode (p, ⟨i, g⟩) b e = (.ok b.length, (p, ⟨i, g ++ b⟩)) := by
        simp [monolithicDecoderOf, capturedDecoder, monolithicDecoder, he, Prod.map]
      simp only [takeSteps, h, if_true, innerAfter, passed]
      rw [ih hl', List.append_assoc]

theorem drainChanging_left {ser : π → MonolithicSerializer α} {p : π} {b : BytesEncoderState Bytes} {left : Bytes}
    (hb : BytesLeft id b left) (hn : b.bytes = none ↔ left = []) {s : π × MonoEncState α} {out : Bytes}
    (h : DrainChanging ser left.length (p, ⟨none, b⟩) s out) :
    s.2.item = none ∧ ∃ rest, left = out ++ rest ∧ BytesLeft id s.2.buf rest ∧
      (s.2.buf.bytes = none ↔ rest = []) := by
  induction h with
  | new => exact ⟨rfl, left, rfl, hb, hn⟩
  | change f _ ih => exact ih
  | @encode s s' out bs cap e _ he hs ih =>
    obtain ⟨q, ⟨item, buf⟩⟩ := s
    obtain ⟨rfl, rest, hr, hl, hi⟩ := ih
    have hc : e.isReached = true → rest.length ≤ cap := by
      intro h
      have := he h
      simp [hr] at this
      omega
    obtain ⟨t, h1, h2, h3⟩ := (codes_bytes (id : Bytes → Bytes) false).step hl hc
    simp only [monolithicEncoderOf, monolithicEncoder, h1, Res.step, Prod.map] at hs
    obtain ⟨rfl, rfl⟩ : rest.take cap = bs ∧ (q, (⟨none, t⟩ : MonoEncState α)) = s' := by
      simpa using hs
    refine ⟨rfl, rest.drop cap, by simp [hr, List.append_assoc], h2, ?_⟩
    have h4 : t.bytes = none ↔ rest.length ≤ cap := by
      rw [← h3]; simp [bytesEncoder]
    rw [h4]; simp

theorem mono_drained {ser : π → MonolithicSerializer α} {p : π} {b : BytesEncoderState Bytes} {left : Bytes}
    (hb : BytesLeft id b left) (hn : b.bytes = none ↔ left = []) {s : π × MonoEncState α} {out : Bytes}
    (h : DrainChanging ser left.length (p, ⟨none, b⟩) s out) :
    out <+: left ∧ ((monolithicEncoderOf ser).isIdle s = true ↔ out = left) := by
  obtain ⟨h1, rest, rfl, _, h3⟩ := drainChanging_left hb hn h
  refine ⟨List.prefix_append .., ?_⟩
  simp only [monolithicEncoderOf, monolithicEncoder, h1, bytesEncoder, Option.isNone_none, Bool.true_and,
    Option.isNone_iff_eq_none, h3]
  simp

end Bytecodec
