import Verif.Lemmas.Buf
import Verif.Spec.BufAccess
/-!
# Lemmas for C78: buffers whose storage and state the caller changes
-/
namespace Bytecodec

open Spec

variable {ρ ω : Type}

theorem readStep_inv {R : Reader ρ} (hR : HonestReader R) {s t : ReadSys ρ} (h1 : s.buf.Inv) (hst : ReadStep R s t) :
    t.buf.Inv ∧ t.buf.inner.length = s.buf.inner.length ∧
    ∃ as, t.reader.2 = s.reader.2 ++ as ∧ t.out ++ t.buf.content = s.out ++ s.buf.content ++ delivered as := by
  cases hst with
  | fill =>
    obtain ⟨as, a1, a2, a3, a4, _⟩ := fill_spec hR s.buf s.reader h1
    refine ⟨a3, by simp only; rw [a4], as, a1, ?_⟩
    simp only
    rw [a2, List.append_assoc]
  | read n =>
    obtain ⟨a1, a2, a3, a4⟩ := s.buf.read_spec h1 n
    refine ⟨a1, by simp only; rw [a4], [], (List.append_nil _).symm, ?_⟩
    simp only
    rw [List.append_assoc, a2]
    simp [delivered]
  | decode D d hD =>
    rcases (decodeFromReadBuf_spec hD h1).2 with q | ⟨n, _, q1, q2⟩
    · simp only [q]
      refine ⟨h1, trivial, [], (List.append_nil _).symm, ?_⟩
      simp [tookFrom, delivered]
    · have hc := s.buf.consume_spec h1 q1
      simp only [q2]
      refine ⟨hc.1, by rw [hc.2.2.1], [], (List.append_nil _).symm, ?_⟩
      rw [hc.2.1, List.append_assoc]
      have : tookFrom s.buf (s.buf.consume n) = s.buf.content.take n := by
        simp only [tookFrom]
        rw [hc.2.2.2]
        have : s.buf.len - (s.buf.len - n) = n := by omega
        rw [this]
        rfl
      rw [this, List.take_append_drop]
      simp [delivered]

theorem writeStep_inv {W : Writer ω} (hW : HonestWriter W) {s t : WriteSys ω} (h1 : s.buf.Inv) (hst : WriteStep W s t) :
    t.buf.Inv ∧ t.buf.inner.length = s.buf.inner.length ∧
    ∃ as bs, t.writer.2 = s.writer.2 ++ as ∧ t.input = s.input ++ bs ∧
      accepted as ++ t.buf.content = s.buf.content ++ bs := by
  cases hst with
  | write b =>
    obtain ⟨a1, a2, a3, a4⟩ := s.buf.write_spec h1 b
    exact ⟨a1, by simp only; rw [a4], [], _, (List.append_nil _).symm, rfl, a2⟩
  | encode E d hE =>
    obtain ⟨a1, a2, a3, a4⟩ := encodeToWriteBuf_spec hE h1
    exact ⟨a1, by simp only; rw [a3], [], _, (List.append_nil _).symm, rfl, a2⟩
  | encodeAsync E d k hE =>
    obtain ⟨a1, a2, a3, a4⟩ := encodeToWriteBuf_spec hE h1
    obtain ⟨b1, b2, b3⟩ := encodeToWriteBufAsync_same (E := E) (d := d) (b := s.buf) (k := k)
    obtain ⟨c1, c2⟩ := writeInv_congr a1 b1 b2 b3
    refine ⟨c1, by simp only; rw [b1, a3], [], _, (List.append_nil _).symm, rfl, ?_⟩
    simp only
    rw [c2, a2]
    rfl
  | flush =>
    obtain ⟨as, a1, a2, a3, a4, _⟩ := flushLoop_spec hW s.buf s.writer h1
    obtain ⟨b1, b2, b3, _⟩ := flush_same (W := loggedWriter W) s.buf s.writer
    obtain ⟨c1, c2⟩ := writeInv_congr a3 b1 b2 b3
    refine ⟨c1, by simp only; rw [b1, a4], as, [], ?_, (List.append_nil _).symm, ?_⟩
    · simp only
      rw [(flush_eq (W := loggedWriter W) s.buf s.writer).2.1, a1]
    · simp only
      rw [c2, List.append_nil, ← a2]

theorem ReadBuf.inv_setInner {b : ReadBuf} (h : b.Inv) {new : Bytes} (hl : b.capacity - b.room ≤ new.length) :
    (b.setInner new).Inv := by
  have h1 := h.cap
  simp only [ReadBuf.capacity, ReadBuf.room] at hl
  exact ⟨h.le, by simp only [ReadBuf.setInner]; omega, h.zero⟩

theorem WriteBuf.inv_setInner {b : WriteBuf} (h : b.Inv) {new : Bytes} (hl : b.capacity - b.room ≤ new.length) :
    (b.setInner new).Inv := by
  have h1 := h.cap
  simp only [WriteBuf.capacity, WriteBuf.room] at hl
  exact ⟨h.le, by simp only [WriteBuf.setInner]; omega, h.zero⟩

theorem ReadBuf.used {b : ReadBuf} (h : b.Inv) : b.capacity - b.room = b.tail := by
  have h1 := h.cap
  simp only [ReadBuf.capacity, ReadBuf.room]
  omega

theorem WriteBuf.used {b : WriteBuf} (h : b.Inv) : b.capacity - b.room = b.tail := by
  have h1 := h.cap
  simp only [WriteBuf.capacity, WriteBuf.room]
  omega

theorem readAccess_inv {keep : Bool} {R : Reader ρ} (hR : HonestReader R) {inner : Bytes} {r : ρ} {s : ReadSys ρ}
    (h : ReadAccess keep R inner r s) :
    s.buf.Inv ∧ (keep = true → s.out ++ s.buf.content = delivered s.reader.2) := by
  induction h with
  | new => exact ⟨⟨Nat.le_refl _, by simp [ReadBuf.new], fun _ => rfl⟩, by simp [ReadBuf.new, ReadBuf.content, delivered]⟩
  | step _ hst ih =>
    obtain ⟨a1, _, as, a3, a4⟩ := readStep_inv hR ih.1 hst
    refine ⟨a1, fun hk => ?_⟩
    rw [a4, ih.2 hk, a3]
    simp [delivered]
  | state st _ ih => exact ⟨⟨ih.1.le, ih.1.cap, ih.1.zero⟩, ih.2⟩
  | storage new _ hl hkeep ih =>
    refine ⟨ReadBuf.inv_setInner ih.1 hl, fun hk => ?_⟩
    have := hkeep hk
    rw [ReadBuf.used ih.1] at this
    rw [← ih.2 hk]
    simp only [ReadBuf.content, ReadBuf.setInner, this]

theorem writeAccess_inv {keep : Bool} {W : Writer ω} (hW : HonestWriter W) {inner : Bytes} {w : ω} {s : WriteSys ω}
    (h : WriteAccess keep W inner w s) :
    s.buf.Inv ∧ (keep = true → accepted s.writer.2 ++ s.buf.content = s.input) := by
  induction h with
  | new => exact ⟨⟨Nat.le_refl _, by simp [WriteBuf.new], fun _ => rfl⟩, by simp [WriteBuf.new, WriteBuf.content, accepted]⟩
  | step _ hst ih =>
    obtain ⟨a1, _, as, bs, a3, a4, a5⟩ := writeStep_inv hW ih.1 hst
    refine ⟨a1, fun hk => ?_⟩
    rw [a4, ← ih.2 hk, a3, List.append_assoc, ← a5]
    simp [accepted]
  | state st _ ih => exact ⟨⟨ih.1.le, ih.1.cap, ih.1.zero⟩, ih.2⟩
  | storage new _ hl hkeep ih =>
    refine ⟨WriteBuf.inv_setInner ih.1 hl, fun hk => ?_⟩
    have := hkeep hk
    rw [WriteBuf.used ih.1] at this
    rw [← ih.2 hk]
    simp only [WriteBuf.content, WriteBuf.setInner, this]

end Bytecodec
