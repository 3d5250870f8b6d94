import Verif.Spec.MonoInner
import Verif.Spec.Trace
import Verif.Lemmas.MonoInner
/-!
# C83: the inner codec of a monolithic codec may be changed between any two calls
-/
namespace Bytecodec.Props
open Bytecodec Spec

variable {π α : Type}

/-- C83: as long as the caller does not touch the inner decoder, the decoder is the one with a fixed inner
decoder, and the inner decoder stays as it is. -/
theorem C83_untouched_decoder (parse : π → MonolithicParser α) (p : π) (s : MonoDecState α) (calls : List Call) :
    observe (monolithicDecoderOf parse) (p, s) calls = observe (monolithicDecoder (parse p)) s calls := by
  induction calls generalizing s with
  | nil => rfl
  | cons c cs ih =>
    cases c with
    | decode b e => simp only [observe]; exact congrArg (List.cons _) (ih _)
    | finish => simp only [observe]; exact congrArg (List.cons _) (ih _)

/-- C83: the same for encoders. -/
theorem C83_untouched_encoder (ser : π → MonolithicSerializer α) (p : π) (s : MonoEncState α)
    (calls : List (ECall α)) :
    observeE (monolithicEncoderOf ser) (p, s) calls = observeE (monolithicEncoder (ser p)) s calls := by
  induction calls generalizing s with
  | nil => rfl
  | cons c cs ih =>
    cases c with
    | start x => simp only [observeE]; exact congrArg (List.cons _) (ih _)
    | encode n e => simp only [observeE]; exact congrArg (List.cons _) (ih _)

/-- C83: bytes that are not the last are all taken whatever the inner decoder is, and are kept when it is changed.
At the end of the stream the inner decoder that is there *then* gets all bytes, however many others there were
before. Its item is handed out by `finish_decoding` whatever the inner decoder becomes in the meantime, and the
decoder is new afterwards, with the inner decoder it has. If parsing fails, nothing changes. -/
theorem C83_decode (parse : π → MonolithicParser α) (p : π) (l : List (MonoStep π)) (hl : NoEos l)
    (b : Bytes) (e : Eos) (he : e.isReached = true) :
    ∃ s, takeSteps parse (monoDecNew p) l = some s ∧ monoDecInner s = innerAfter p l ∧
      (monolithicDecoderOf parse).isIdle s = false ∧
      (∀ x n, parse (innerAfter p l) (passed l) b = (.ok x, n) →
        ∃ s', (monolithicDecoderOf parse).decode s b e = (.ok (min (n - (passed l).length) b.length), s') ∧
          (monolithicDecoderOf parse).isIdle s' = true ∧ monoDecInner s' = innerAfter p l ∧
          ∀ f, (monolithicDecoderOf parse).finish (monoDecInnerMut f s') = (.ok x, monoDecNew (f (innerAfter p l)))) ∧
      (∀ k n, parse (innerAfter p l) (passed l) b = (.err k, n) →
        (monolithicDecoderOf parse).decode s b e = (.err k, s)) := by
  refine ⟨_, takeSteps_eq parse l hl p none [], rfl, rfl, ?_, ?_⟩
  · intro x n h
    refine ⟨(innerAfter p l, ⟨some x, []⟩), ?_, rfl, rfl, fun f => rfl⟩
    simp [monolithicDecoderOf, capturedDecoder, monolithicDecoder, he, h, Prod.map]
  · intro k n h
    simp [monolithicDecoderOf, capturedDecoder, monolithicDecoder, he, h, Prod.map]

/-- C83: so a caller whose inner decoder rejected the bytes may put another one in its place and call `decode` again
with the same last bytes: it gets all bytes from the beginning. -/
theorem C83_retry (parse : π → MonolithicParser α) (p : π) (l : List (MonoStep π)) (hl : NoEos l)
    {s s' : π × MonoDecState α} {b : Bytes} {e : Eos} {k : ErrorKind} (he : e.isReached = true)
    (hs : takeSteps parse (monoDecNew p) l = some s)
    (hk : (monolithicDecoderOf parse).decode s b e = (.err k, s')) (f : π → π) {x : α} {n : Nat}
    (hx : parse (f (innerAfter p l)) (passed l) b = (.ok x, n)) :
    ∃ m s'', (monolithicDecoderOf parse).decode (monoDecInnerMut f s') b e = (.ok m, s'') ∧
      ((monolithicDecoderOf parse).finish s'').1 = .ok x := by
  have h := takeSteps_eq parse l hl p none []
  rw [monoDecNew, MonoDecState.new, h] at hs
  cases hs
  have hs' : s' = (innerAfter p l, ⟨none, [] ++ passed l⟩) := by
    rcases hp : parse (innerAfter p l) (passed l) b with ⟨r, n⟩
    simp only [monolithicDecoderOf, capturedDecoder, monolithicDecoder, he, List.nil_append, hp, if_true] at hk ⊢
    cases r <;> simp [Prod.map] at hk <;> exact hk.2.symm
  subst hs'
  refine ⟨min (n - (passed l).length) b.length, (f (innerAfter p l), ⟨some x, []⟩), ?_, rfl⟩
  simp [monolithicDecoderOf, capturedDecoder, monolithicDecoder, monoDecInnerMut, he, hx, Prod.map]

/-- C83: an item is written by the inner encoder that is there at the first call of `encode` after
`start_encoding`; what the encoder was when the item was accepted does not matter, nor does any change after the first
call, also if only a part of the bytes has been emitted then. From then on, under every schedule and every
change, the rest of the bytes comes out in order. -/
theorem C83_encode (ser : π → MonolithicSerializer α) {s s₁ : π × MonoEncState α} {x : α} (f : π → π)
    (hi : (monolithicEncoderOf ser).isIdle s = true) (hx : (monolithicEncoderOf ser).start s x = (.ok (), s₁))
    (hs : (ser (f (monoEncInner s)) x).2 = .ok ()) (cap : Nat) (e : Eos) :
    let bytes := (ser (f (monoEncInner s)) x).1.flatten
    ∃ s₂, (monolithicEncoderOf ser).encode (monoEncInnerMut f s₁) cap e = (.ok (bytes.take cap), s₂) ∧
      ((monolithicEncoderOf ser).isIdle s₂ = true ↔ bytes.length ≤ cap) ∧
      ∀ s₃ out, DrainChanging ser (bytes.length - cap) s₂ s₃ out →
        out <+: bytes.drop cap ∧ ((monolithicEncoderOf ser).isIdle s₃ = true ↔ out = bytes.drop cap) := by
  obtain ⟨p, ⟨item, buf⟩⟩ := s
  simp only [monolithicEncoderOf, monolithicEncoder, Bool.and_eq_true, Option.isNone_iff_eq_none] at hi
  obtain ⟨rfl, hb⟩ := hi
  have hn : buf.bytes = none := by simpa [bytesEncoder] using hb
  have h1 : s₁ = (p, ⟨some x, buf⟩) := by
    simp [monolithicEncoderOf, monolithicEncoder, hb, Prod.map] at hx
    exact hx.symm
  subst h1
  simp only [monoEncInner] at hs ⊢
  simp only [monolithicEncoderOf, monoEncInnerMut, monolithicEncoder, serialize_chain, Res.step, hs, List.nil_append]
  generalize (ser (f p) x).1.flatten = bytes
  by_cases hc : bytes.length ≤ cap
  · rw [if_pos (by simpa using hc)]
    refine ⟨_, rfl, ?_, ?_⟩
    · simpa [Prod.map, hb] using hc
    · intro s₃ out hd
      have hd0 : bytes.drop cap = [] := List.drop_of_length_le hc
      rw [← List.length_drop, hd0] at hd
      rw [hd0]
      exact mono_drained (by simp [BytesLeft, hn]) (by simp [hn]) hd
  · rw [if_neg (by simpa using hc)]
    have hd0 : bytes.drop cap ≠ [] := by simpa using hc
    simp only [bytesEncoder, hn, Option.isNone_none, if_true]
    refine ⟨_, rfl, ?_, ?_⟩
    · simpa [Prod.map] using hc
    · intro s₃ out hd
      rw [← List.length_drop] at hd
      exact mono_drained (by simp [BytesLeft]) (by simpa using hd0) hd

/-- C83: if the inner encoder that is there then rejects the item, this is the error of the call; the item is dropped,
and the encoder takes the next one. -/
theorem C83_rejected (ser : π → MonolithicSerializer α) {s s₁ : π × MonoEncState α} {x : α} (f : π → π)
    (hi : (monolithicEncoderOf ser).isIdle s = true) (hx : (monolithicEncoderOf ser).start s x = (.ok (), s₁))
    {k : ErrorKind} (hs : (ser (f (monoEncInner s)) x).2 = .err k) (cap : Nat) (e : Eos) :
    ∃ s₂, (monolithicEncoderOf ser).encode (monoEncInnerMut f s₁) cap e = (.err k, s₂) ∧
      (monolithicEncoderOf ser).isIdle s₂ = true ∧ monoEncInner s₂ = f (monoEncInner s) ∧
      ∀ y, ((monolithicEncoderOf ser).start s₂ y).1 = .ok () := by
  obtain ⟨p, ⟨item, buf⟩⟩ := s
  simp only [monolithicEncoderOf, monolithicEncoder, Bool.and_eq_true, Option.isNone_iff_eq_none] at hi
  obtain ⟨rfl, hb⟩ := hi
  have h1 : s₁ = (p, ⟨some x, buf⟩) := by
    simp [monolithicEncoderOf, monolithicEncoder, hb, Prod.map] at hx
    exact hx.symm
  subst h1
  simp only [monoEncInner] at hs ⊢
  simp only [monolithicEncoderOf, monoEncInnerMut, monolithicEncoder, serialize_chain, Res.step, hs]
  exact ⟨_, rfl, by simp [hb], rfl, fun y => by simp [Prod.map, hb]⟩

/-! ## Examples: a parser and a serializer with a version number -/

/-- It accepts only streams that start with its version number, and returns the rest. -/
private def exParse (version : UInt8) : MonolithicParser Bytes := fun a b =>
  match a ++ b with
  | v :: body => if v = version then (.ok body, (a ++ b).length) else (.err .invalidInput, 1)
  | [] => (.err .unexpectedEos, 0)

/-- It writes its version number and the item. -/
private def exSer (version : UInt8) : MonolithicSerializer Bytes := fun x => ([[version], x], .ok ())

private def exSteps : List (MonoStep UInt8) :=
  [.bytes [2, 7] (Eos.new false), .change (· + 1), .bytes [8] (Eos.new false)]

/-- Version 1 is replaced by version 2 after two bytes: version 2 gets the whole stream. -/
example : NoEos exSteps ∧ (Eos.new true).isReached = true ∧ innerAfter 1 exSteps = 2 ∧
    exParse (innerAfter 1 exSteps) (passed exSteps) [9] = (.ok [7, 8, 9], 4) := by
  refine ⟨?_, rfl, rfl, rfl⟩
  intro b e h
  simp only [exSteps, List.mem_cons, MonoStep.bytes.injEq, reduceCtorEq, List.not_mem_nil, or_false, false_or] at h
  rcases h with ⟨_, rfl⟩ | ⟨_, rfl⟩ <;> rfl

/-- Version 3 rejects it; then the caller goes back to version 2. -/
example : ∃ s s', takeSteps exParse (monoDecNew 2) exSteps = some s ∧
    (monolithicDecoderOf exParse).decode s [9] (Eos.new true) = (.err .invalidInput, s') ∧
    exParse ((· - 1) (innerAfter 2 exSteps)) (passed exSteps) [9] = (.ok [7, 8, 9], 4) :=
  ⟨_, _, rfl, rfl, rfl⟩

/-- Accepted by version 1, written by version 2; after two bytes the version is changed again, to no avail. -/
example : ∃ s₁, (monolithicEncoderOf exSer).start (monoEncNew 1) [7, 8, 9] = (.ok (), s₁) ∧
    (exSer ((· + 1) 1) [7, 8, 9]).2 = .ok () ∧
    ∃ s₂, (monolithicEncoderOf exSer).encode (monoEncInnerMut (· + 1) s₁) 2 (Eos.new false) = (.ok [2, 7], s₂) ∧
    ∃ s₃, DrainChanging exSer 2 s₂ s₃ [8, 9] := by
  refine ⟨(1, ⟨some [7, 8, 9], .new⟩), rfl, rfl, (2, ⟨none, ⟨some [8, 9], 0⟩⟩), ?_, (3, ⟨none, ⟨none, 2⟩⟩),
    .encode (e := Eos.new false) (cap := 2) (.change (· + 1) .new) nofun rfl⟩
  simp [monolithicEncoderOf, monolithicEncoder, monoEncInnerMut, serialize_chain, exSer, Res.step, bytesEncoder,
    BytesEncoderState.new]

end Bytecodec.Props
