import Verif.Lemmas.MeteredEnc
import Verif.Lemmas.CodesIo
import Verif.Model.Fixnum
/-!
# C99: the work of encoding is linear in the calls, the bytes and the items
-/
namespace Bytecodec.Props

open Spec

variable {σ τ α β : Type}

/-- The counting version answers every call, in every sequence of calls, like the encoder it is made from. -/
theorem C99_same {a b c : Nat} {E : Encoder σ α} {s : σ} {M : Encoder τ α} {t : τ} {cost : τ → Nat} {w : α → Nat}
    (h : MeteredEnc a b c E s M t cost w) : AlikeE E s M t :=
  exchangedE_alike (meteredEnc_exchanged h)

/-- For every composed encoder and every sequence of calls, in any order, with buffers of any size, whether they succeed or not:
the innermost encoders have been called at most `a` times per call of `encode`, `b` times per byte that was written,
and once for each innermost item that was handed over.

So nothing is done twice: neither small buffers nor long lists make the work grow faster than that. -/
theorem C99_session {a b c : Nat} {E : Encoder σ α} {s : σ} {M : Encoder τ α} {t : τ} {cost : τ → Nat} {w : α → Nat}
    (h : MeteredEnc a b c E s M t cost w) (calls : List (ECall α)) :
    cost (afterE M t calls) ≤
      c + a * encodesIn calls + b * bytesIn calls (observeE E s calls) + itemsIn w calls := by
  obtain ⟨price, h1, h2, h3⟩ := meteredEnc_pays h
  rw [(C99_same h).2.2 calls, ← h2]
  exact Nat.le_trans (h3 _) (h1.session calls t)

/-- One call: what it costs depends on what it writes, not on how much is still to be written, nor on the room, unless it
fails. -/
theorem C99_call {a b c : Nat} {E : Encoder σ α} {s : σ} {M : Encoder τ α} {t : τ} {cost : τ → Nat} {w : α → Nat}
    (h : MeteredEnc a b c E s M t cost w) :
    ∃ price : τ → Nat, price t = c ∧ (∀ u, cost u ≤ price u) ∧
      (∀ u x, price (M.start u x).2 ≤ price u + w x) ∧
      ∀ u cap e bs u', M.encode u cap e = (.ok bs, u') → price u' ≤ price u + a + b * bs.length := by
  obtain ⟨price, h1, h2, h3⟩ := meteredEnc_pays h
  refine ⟨price, h2, h3, h1.start, fun u cap e bs u' hd => ?_⟩
  have := h1.encode u cap e
  rw [hd] at this
  exact this

/-- No composed encoder claims to have written more than there is room for, if its innermost encoders do not, in any state. -/
theorem C99_within {a b c : Nat} {E : Encoder σ α} {s : σ} {M : Encoder τ α} {t : τ} {cost : τ → Nat} {w : α → Nat}
    (h : MeteredEnc a b c E s M t cost w) : WritesWithin M :=
  (meteredEnc_pays h).choose_spec.1.fit

/-- Byte strings, of any type that has bytes. -/
theorem C99_bytes (asRef : β → Bytes) : WritesWithin (bytesEncoder asRef).toEncoder := by
  rintro ⟨x, o⟩ cap e bs s' hd
  simp only [bytesEncoder] at hd
  split at hd
  · split at hd
    · cases hd
    · split at hd
      · cases hd; rw [List.length_take]; omega
      · split at hd
        · cases hd
        · cases hd; rw [List.length_take]; omega
  · cases hd; exact Nat.zero_le _

/-- Texts, and numbers of any width. -/
theorem C99_texts_numbers (f : α → Except ErrorKind Bytes) :
    WritesWithin utf8Encoder.toEncoder ∧ WritesWithin (fixEncoder f).toEncoder :=
  ⟨C99_bytes utf8Bytes, fun s cap e bs s' hd => C99_bytes id s cap e bs s' hd⟩

/-- Everything that was encoded ahead. -/
theorem C99_pre_encode (E : Encoder σ α) : WritesWithin (preEncodeEncoder E).toEncoder := by
  intro s cap e bs s' hd
  simp only [preEncodeEncoder] at hd
  cases hm : (bytesEncoder id).encode s.preEncoded cap e with
  | mk r p =>
    rw [hm] at hd
    cases r with
    | ok bs' => cases hd; exact C99_bytes id _ _ _ _ _ hm
    | _ => cases hd

/-- Nothing, and padding. -/
theorem C99_null_padding : WritesWithin nullEncoder.toEncoder ∧ WritesWithin paddingEncoder := by
  constructor
  · intro s cap e bs s' hd
    cases hd
    exact Nat.zero_le _
  · intro s cap e bs s' hd
    cases s with
    | none => cases hd; exact Nat.zero_le _
    | some b =>
      simp only [paddingEncoder, Prod.mk.injEq, Res.ok.injEq] at hd
      rw [← hd.1, List.length_replicate]
      exact Nat.le_refl _

/-- Items that are serialized in one piece, whatever the serializer writes. -/
theorem C99_monolithic (ser : MonolithicSerializer α) : WritesWithin (monolithicEncoder ser) := by
  intro s cap e bs s' hd
  simp only [monolithicEncoder] at hd
  split at hd
  · rename_i x _
    rw [serialize_chain] at hd
    have hl : (([] : Bytes) ++ (ser x).1.flatten.take cap).length ≤ cap := by
      rw [List.nil_append, List.length_take]; omega
    generalize (([] : Bytes) ++ (ser x).1.flatten.take cap) = out at hd hl
    cases hr : (ser x).2 with
    | ok _ =>
      simp only [Res.step, hr] at hd
      split at hd
      · cases hd; exact hl
      · split at hd <;> cases hd
        exact hl
    | _ => simp only [Res.step, hr] at hd; cases hd
  · cases hm : (bytesEncoder id).encode s.buf cap e with
    | mk r p =>
      rw [hm] at hd
      cases r with
      | ok bs' => cases hd; exact C99_bytes id _ _ _ _ _ hm
      | _ => cases hd

/-! ## Example: a number and a list of numbers, in at most 100 bytes -/

/-- A message: a byte and a list of bytes, limited to 100 bytes. -/
def tagged : Encoder (MaxBytesState (BytesEncoderState Bytes × RepeatState (BytesEncoderState Bytes) UInt8)) (UInt8 × List UInt8) :=
  maxBytesEncoder (tupleEncoder2 u8Encoder.toEncoder (repeatEncoder u8Encoder.toEncoder))

/-- The same with counters. -/
def taggedMetered := maxBytesEncoder (tupleEncoder2 (countedEncoder u8Encoder.toEncoder)
  (repeatEncoder (countedEncoder u8Encoder.toEncoder)))

/-- Two calls per call, one per byte, one per number. -/
theorem C99_tagged : MeteredEnc 2 1 0 tagged (.new (.new, .new .new) 100) taggedMetered
    (.new ((.new, ⟨0, 0, 0⟩), .new (.new, ⟨0, 0, 0⟩)) 100)
    (fun u => u.inner.1.2.total + u.inner.2.inner.2.total) (fun x => 1 + (x.2.map fun _ => 1).sum) :=
  .maxBytes 100 (.pair (.weaken (Nat.le_refl 1) (Nat.zero_le 1) (.leaf _ _ (C99_texts_numbers fun n => .ok [n]).2))
    (.repeat (.leaf _ _ (C99_texts_numbers fun n => .ok [n]).2)))

/-- A message with a list of three, through buffers of two bytes: 4 items, 4 bytes and 2 calls. 9 calls of innermost encoders
are made, where 2 * 2 + 1 * 4 + 4 = 12 are allowed. -/
example :
    let calls : List (ECall (UInt8 × List UInt8)) := [.start (7, [1, 2, 3]), .encode 2 (Eos.new false), .encode 2 (Eos.new false)]
    let u := afterE taggedMetered (.new ((.new, ⟨0, 0, 0⟩), .new (.new, ⟨0, 0, 0⟩)) 100) calls
    u.inner.1.2.total + u.inner.2.inner.2.total = 9 ∧ encodesIn calls = 2 ∧
    bytesIn calls (observeE tagged (.new (.new, .new .new) 100) calls) = 4 ∧
    itemsIn (fun x => 1 + (x.2.map fun _ => 1).sum) calls = 4 := by
  decide +kernel

end Bytecodec.Props
