import Verif.Spec.InPlace
/-!
# Lemmas for C74: writing into buffers
-/
namespace Bytecodec

open Spec

variable {σ α β τ : Type}

theorem Spec.Written.wrap {buf b : Bytes} {s : σ} {r : Res Nat} {r' : Res Bytes}
    (h : Written buf (r, s, b) (r', s)) (t : τ) : Written buf (r, t, b) (r', t) := by
  cases h with
  | ok h => exact .ok h
  | fail h h' => exact .fail h h'

/-- The two outcomes of a call. -/
theorem Spec.InPlace.elim {B : BufEncoder σ α} {E : Encoder σ α} (h : InPlace B E) (s : σ) (buf : Bytes) (e : Eos) :
    (∃ out s', out.length ≤ buf.length ∧ B.encode s buf e = (.ok out.length, s', out ++ buf.drop out.length) ∧
      E.encode s buf.length e = (.ok out, s')) ∨
    (∃ r r' s' b, SameFailure r r' ∧ b.length = buf.length ∧ B.encode s buf e = (r, s', b) ∧
      E.encode s buf.length e = (r', s')) := by
  have h := h.encode s buf e
  generalize B.encode s buf e = p at h
  generalize E.encode s buf.length e = q at h
  cases h with
  | ok h => exact .inl ⟨_, _, h, rfl, rfl⟩
  | fail h h' => exact .inr ⟨_, _, _, _, h, h', rfl, rfl⟩

/-- The macro `bytecodec_try_encode!` after `out` has been written. -/
theorem Spec.InPlace.next {B : BufEncoder σ α} {E : Encoder σ α} (h : InPlace B E) (s : σ) {out buf : Bytes}
    (ho : out.length ≤ buf.length) (e : Eos) :
    (∃ o s', o.length ≤ buf.length ∧
      tryEncodeBuf B s out.length (out ++ buf.drop out.length) e = .next o.length (s', o ++ buf.drop o.length) ∧
      tryEncode E s out buf.length e = .next o s') ∨
    (∃ r r' s' b, Written buf (r, s', b) (r', s') ∧
      tryEncodeBuf B s out.length (out ++ buf.drop out.length) e = .ret r (s', b) ∧
      tryEncode E s out buf.length e = .ret r' s') := by
  have hl : (out ++ buf.drop out.length).length = buf.length := by simp; omega
  unfold tryEncodeBuf tryEncode
  rw [hl, h.idle]
  by_cases h1 : E.isIdle s
  · rw [if_pos h1, if_pos h1]
    exact .inl ⟨out, s, ho, rfl, rfl⟩
  · rw [if_neg h1, if_neg h1, if_neg (by omega), if_neg (by omega), List.drop_left, List.take_left]
    rcases h.elim s (buf.drop out.length) e with ⟨o, s', h2, h3, h4⟩ | ⟨r, r', s', b, h2, h3, h4, h5⟩
    · rw [List.length_drop] at h2 h4
      have h5 : (out ++ o).length ≤ buf.length := by simp; omega
      have h6 : out ++ (o ++ (buf.drop out.length).drop o.length) = out ++ o ++ buf.drop (out ++ o).length := by
        simp [List.drop_drop]
      rw [h3, h4]
      simp only [h.idle, h6]
      rw [show out.length + o.length = (out ++ o).length by simp]
      by_cases h7 : E.isIdle s'
      · rw [if_pos h7, if_pos h7]
        exact .inl ⟨_, _, h5, rfl, rfl⟩
      · rw [if_neg h7, if_neg h7]
        exact .inr ⟨_, _, _, _, .ok h5, rfl, rfl⟩
    · rw [List.length_drop] at h3 h5
      have h6 : (out ++ b).length = buf.length := by simp; omega
      rw [h4, h5]
      cases h2
      all_goals exact .inr ⟨_, _, _, _, .fail (by constructor) h6, rfl, rfl⟩

theorem Spec.InPlace.first {B : BufEncoder σ α} {E : Encoder σ α} (h : InPlace B E) (s : σ) (buf : Bytes) (e : Eos) :
    (∃ o s', o.length ≤ buf.length ∧ tryEncodeBuf B s 0 buf e = .next o.length (s', o ++ buf.drop o.length) ∧
      tryEncode E s [] buf.length e = .next o s') ∨
    (∃ r r' s' b, Written buf (r, s', b) (r', s') ∧ tryEncodeBuf B s 0 buf e = .ret r (s', b) ∧
      tryEncode E s [] buf.length e = .ret r' s') :=
  h.next s (out := []) (buf := buf) (Nat.zero_le _) e

/-! ## Elementary encoders -/

theorem inPlace_bytes (asRef : β → Bytes) : InPlace (bytesBufEncoder asRef) (bytesEncoder asRef).toEncoder where
  idle _ := rfl
  requiring _ := rfl
  start _ _ := rfl
  encode s buf e := by
    obtain ⟨bytes, offset⟩ := s
    cases bytes with
    | none => exact .ok (out := []) (Nat.zero_le _)
    | some b =>
      simp only [bytesBufEncoder, bytesEncoder]
      split
      · exact .fail .panic rfl
      · next hlt =>
        have hl : (((asRef b).drop offset).take (min buf.length ((asRef b).length - offset))).length =
            min buf.length ((asRef b).length - offset) := by
          rw [List.length_take, List.length_drop]; omega
        have hb : splice buf 0 (((asRef b).drop offset).take (min buf.length ((asRef b).length - offset))) =
            ((asRef b).drop offset).take (min buf.length ((asRef b).length - offset)) ++
              buf.drop (((asRef b).drop offset).take (min buf.length ((asRef b).length - offset))).length := by
          simp [splice]
        have ok : ∀ t : BytesEncoderState β, Written buf
            (.ok (min buf.length ((asRef b).length - offset)), t,
              splice buf 0 (((asRef b).drop offset).take (min buf.length ((asRef b).length - offset))))
            (.ok (((asRef b).drop offset).take (min buf.length ((asRef b).length - offset))), t) := by
          intro t
          rw [hb]
          have := Written.ok (buf := buf) (s := t)
            (out := ((asRef b).drop offset).take (min buf.length ((asRef b).length - offset))) (by rw [hl]; omega)
          rw [hl] at this ⊢
          exact this
        split
        · exact ok _
        · split
          · refine .fail (.err _) ?_
            rw [hb, List.length_append, List.length_drop, hl]
            omega
          · exact ok _

theorem inPlace_number (f : α → Except ErrorKind Bytes) : InPlace (fixBufEncoder f) (fixEncoder f).toEncoder where
  idle _ := rfl
  requiring _ := rfl
  start _ _ := rfl
  encode s buf e := (inPlace_bytes id).encode s buf e

theorem inPlace_utf8 : InPlace utf8BufEncoder utf8Encoder.toEncoder where
  idle _ := rfl
  requiring _ := rfl
  start _ _ := rfl
  encode s buf e := (inPlace_bytes utf8Bytes).encode s buf e

theorem inPlace_null : InPlace nullBufEncoder nullEncoder.toEncoder where
  idle _ := rfl
  requiring _ := rfl
  start _ _ := rfl
  encode _ _ _ := .ok (out := []) (Nat.zero_le _)

theorem inPlace_padding : InPlace paddingBufEncoder paddingEncoder where
  idle _ := rfl
  requiring _ := rfl
  start _ _ := rfl
  encode s buf e := by
    cases s with
    | none => exact .ok (out := []) (Nat.zero_le _)
    | some b =>
      have h := Written.ok (buf := buf) (s := if e.isReached then none else some b)
        (out := List.replicate buf.length b) (by simp)
      simp only [List.length_replicate, List.drop_length, List.append_nil] at h
      have hm : (buf.map fun _ => b) = List.replicate buf.length b := by
        rw [List.map_const']
      simp only [paddingBufEncoder, paddingEncoder, hm]
      exact h

/-- The buffer and `extra`, compared with what the other model keeps. -/
structure ChainRel (buf : Bytes) (c : ChainBuf) (w : ChainState) : Prop where
  pos : c.pos = w.a.length
  fits : w.a.length ≤ buf.length
  bytes : c.buf = w.a ++ buf.drop w.a.length
  room : w.room = buf.length - w.a.length
  extra : c.extra = w.b
  full : w.b ≠ [] → w.room = 0

theorem chain_write {buf : Bytes} {c : ChainBuf} {w : ChainState} (h : ChainRel buf c w) (data : Bytes)
    (hd : data ≠ []) : (chainBufWriter.write c data).1 = (chainWriter.write w data).1 ∧
      ChainRel buf (chainBufWriter.write c data).2 (chainWriter.write w data).2 := by
  have hl : c.buf.length = buf.length := by rw [h.bytes]; have := h.fits; simp; omega
  have hn : min data.length (c.buf.length - c.pos) = min data.length w.room := by rw [hl, h.pos, h.room]
  simp only [chainBufWriter, chainWriter, hn]
  have hroom := h.room
  have hfits := h.fits
  split
  · next h0 =>
    have hr : w.room = 0 := by
      have : data.length ≠ 0 := by simpa using hd
      omega
    refine ⟨rfl, ?_⟩
    refine ⟨?_, ?_, ?_, ?_, ?_, fun _ => ?_⟩
    · simp [h0, h.pos]
    · simpa [h0] using h.fits
    · simp [h0, splice, h.bytes]
    · simp; omega
    · simp [h.extra]
    · simp only [hr]; omega
  · next h0 =>
    refine ⟨rfl, ?_⟩
    have hlen : (w.a ++ data.take (min data.length w.room)).length = w.a.length + min data.length w.room := by
      simp
    refine ⟨?_, ?_, ?_, ?_, h.extra, fun hb => ?_⟩
    · simp only [hlen, h.pos]
    · simp only [hlen]; omega
    · simp only [hlen, splice, h.bytes, h.pos, List.take_left, List.length_take, List.append_assoc]
      congr 2
      rw [List.drop_append, List.drop_drop, List.drop_of_length_le (by omega), List.nil_append]
      congr 1
      omega
    · simp only [hlen]; omega
    · have := h.full hb
      simp only [this]
      omega

theorem chain_writeAll {buf : Bytes} : ∀ (n : Nat) (data : Bytes) {c : ChainBuf} {w : ChainState},
    data.length ≤ n → ChainRel buf c w → (writeAll chainBufWriter c data).1 = (writeAll chainWriter w data).1 ∧
      ChainRel buf (writeAll chainBufWriter c data).2 (writeAll chainWriter w data).2 := by
  intro n
  induction n with
  | zero =>
    intro data c w hn h
    cases data with
    | nil => rw [writeAll, writeAll]; exact ⟨rfl, h⟩
    | cons x xs => simp at hn
  | succ n ih =>
    intro data c w hn h
    cases data with
    | nil => rw [writeAll, writeAll]; exact ⟨rfl, h⟩
    | cons x xs =>
      obtain ⟨h1, h2⟩ := chain_write h (x :: xs) (by simp)
      rw [writeAll, writeAll]
      rcases e1 : chainBufWriter.write c (x :: xs) with ⟨r, c'⟩
      rcases e2 : chainWriter.write w (x :: xs) with ⟨r', w'⟩
      rw [e1, e2] at h1 h2
      simp only at h1 h2
      subst h1
      simp only [List.isEmpty_cons, Bool.false_eq_true, dite_false, if_false]
      cases r with
      | error k => exact ⟨rfl, h2⟩
      | wrote m =>
        simp only
        by_cases hm : m = 0
        · subst hm; exact ⟨rfl, h2⟩
        · by_cases hm' : (x :: xs).length < m
          · rw [if_neg hm, if_neg hm, if_pos hm', if_pos hm']; exact ⟨rfl, h2⟩
          · simp only [hm, hm', if_false, dite_false]
            exact ih _ (by simp only [List.length_drop]; omega) h2

theorem chain_serialize {buf : Bytes} (cs : List Bytes) {c : ChainBuf} {w : ChainState} (h : ChainRel buf c w) :
    (serialize chainBufWriter c cs).1 = (serialize chainWriter w cs).1 ∧
      ChainRel buf (serialize chainBufWriter c cs).2 (serialize chainWriter w cs).2 := by
  induction cs generalizing c w with
  | nil => exact ⟨rfl, h⟩
  | cons d ds ih =>
    obtain ⟨h1, h2⟩ := chain_writeAll _ d (Nat.le_refl _) h
    simp only [serialize]
    rcases e1 : writeAll chainBufWriter c d with ⟨r, c'⟩
    rcases e2 : writeAll chainWriter w d with ⟨r', w'⟩
    rw [e1, e2] at h1 h2
    simp only at h1 h2
    subst h1
    cases r with
    | ok a => exact ih h2
    | err _ => exact ⟨rfl, h2⟩
    | panic => exact ⟨rfl, h2⟩
    | capacity => exact ⟨rfl, h2⟩
    | diverge => exact ⟨rfl, h2⟩

theorem inPlace_monolithic (ser : MonolithicSerializer α) :
    InPlace (monolithicBufEncoder ser) (monolithicEncoder ser) where
  idle _ := rfl
  requiring _ := rfl
  start _ _ := rfl
  encode s buf e := by
    obtain ⟨item, b⟩ := s
    cases item with
    | none =>
      have h := (inPlace_bytes (id : Bytes → Bytes)).encode b buf e
      have e1 : (monolithicBufEncoder ser).encode ⟨none, b⟩ buf e =
          (((bytesBufEncoder id).encode b buf e).1, ⟨none, ((bytesBufEncoder id).encode b buf e).2.1⟩,
            ((bytesBufEncoder id).encode b buf e).2.2) := rfl
      have e2 : (monolithicEncoder ser).encode ⟨none, b⟩ buf.length e =
          Res.step ((bytesEncoder id).toEncoder.encode b buf.length e) (fun b => (⟨none, b⟩ : MonoEncState α))
            fun bs b => (.ok bs, ⟨none, b⟩) := rfl
      rw [e1, e2]
      generalize (bytesBufEncoder id).encode b buf e = p at h
      generalize (bytesEncoder (id : Bytes → Bytes)).toEncoder.encode b buf.length e = q at h
      cases h with
      | ok h => exact .ok h
      | fail h h' => cases h <;> exact .fail (by first | exact .err _ | constructor) h'
    | some x =>
      simp only [monolithicBufEncoder, monolithicEncoder]
      have h := chain_serialize (buf := buf) (ser x).1 (c := ⟨buf, 0, []⟩) (w := ⟨[], buf.length, []⟩)
        ⟨rfl, Nat.zero_le _, rfl, rfl, rfl, fun h => absurd rfl h⟩
      rcases e1 : serialize chainBufWriter ⟨buf, 0, []⟩ (ser x).1 with ⟨r, c⟩
      rcases e2 : serialize chainWriter ⟨[], buf.length, []⟩ (ser x).1 with ⟨r', w⟩
      rw [e1, e2] at h
      obtain ⟨h1, h2⟩ := h
      simp only at h1 h2
      subst h1
      have hl : c.buf.length = buf.length := by rw [h2.bytes]; have := h2.fits; simp; omega
      cases r with
      | ok a =>
        simp only [Res.step]
        generalize (ser x).2 = y
        cases y with
        | ok a =>
          simp only [h2.extra]
          split
          · have := h2.fits
            rw [hl, h2.pos, h2.bytes, show buf.length - (buf.length - w.a.length) = w.a.length by omega]
            exact .ok h2.fits
          · next hb =>
            have hr := h2.full (by simpa using hb)
            have h3 := h2.room
            have h4 := h2.fits
            have h5 : buf.length = w.a.length := by omega
            have key : ∀ t : MonoEncState α, Written buf (.ok buf.length, t, c.buf) (.ok w.a, t) := by
              intro t
              rw [h2.bytes]
              have := Written.ok (buf := buf) (s := t) h2.fits
              rw [h5]
              exact this
            simp only [bytesBufEncoder, bytesEncoder]
            cases b.bytes with
            | none => exact key _
            | some y => exact .fail (.err _) hl
        | err _ => exact .fail (.err _) hl
        | panic => exact .fail .panic hl
        | capacity => exact .fail .capacity hl
        | diverge => exact .fail .diverge hl
      | err _ => exact .fail (.err _) hl
      | panic => exact .fail .panic hl
      | capacity => exact .fail .capacity hl
      | diverge => exact .fail .diverge hl

/-! ## Combinators -/

theorem inPlace_mapErr {B : BufEncoder σ α} {E : Encoder σ α} (h : InPlace B E) (f : ErrorKind → ErrorKind) :
    InPlace (mapErrBufEncoder B f) (mapErrEncoder E f) where
  idle s := h.idle s
  requiring s := h.requiring s
  start s x := by simp only [mapErrBufEncoder, mapErrEncoder, h.start]
  encode s buf e := by
    simp only [mapErrBufEncoder, mapErrEncoder]
    rcases h.elim s buf e with ⟨o, s', h1, h2, h3⟩ | ⟨r, r', s', x, h1, h2, h3, h4⟩
    · rw [h2, h3]; exact .ok h1
    · rw [h3, h4]; cases h1 <;> exact .fail (by first | exact .err _ | constructor) h2

theorem inPlace_mapFrom {B : BufEncoder σ α} {E : Encoder σ α} (h : InPlace B E) (f : β → α) :
    InPlace (mapFromBufEncoder B f) (mapFromEncoder E f) where
  idle s := h.idle s
  requiring s := h.requiring s
  start s x := h.start s (f x)
  encode s buf e := h.encode s buf e

theorem inPlace_tryMapFrom {B : BufEncoder σ α} {E : Encoder σ α} (h : InPlace B E) (f : β → Except ErrorKind α) :
    InPlace (tryMapFromBufEncoder B f) (tryMapFromEncoder E f) where
  idle s := h.idle s
  requiring s := h.requiring s
  start s x := by simp only [tryMapFromBufEncoder, tryMapFromEncoder, h.start]; cases f x <;> rfl
  encode s buf e := h.encode s buf e

theorem inPlace_optional {B : BufEncoder σ α} {E : Encoder σ α} (h : InPlace B E) :
    InPlace (optionalBufEncoder B) (optionalEncoder E) where
  idle s := h.idle s
  requiring s := h.requiring s
  start s x := by simp only [optionalBufEncoder, optionalEncoder, h.start]; cases x <;> rfl
  encode s buf e := h.encode s buf e

theorem inPlace_pointer {B : BufEncoder σ α} {E : Encoder σ α} (h : InPlace B E) :
    InPlace (pointerBufEncoder B) (pointerEncoder E) where
  idle s := h.idle s.target
  requiring s := h.requiring s.target
  start s x := by simp only [pointerBufEncoder, pointerEncoder, h.start]
  encode s buf e := by
    show Written buf ((B.encode s.target buf e).1, (⟨(B.encode s.target buf e).2.1⟩ : Pointer σ),
       (B.encode s.target buf e).2.2) _
    simp only [pointerEncoder]
    rcases h.elim s.target buf e with ⟨o, s', h1, h2, h3⟩ | ⟨r, r', s', x, h1, h2, h3, h4⟩
    · rw [h2, h3]; exact .ok h1
    · rw [h3, h4]; exact .fail h1 h2

theorem startNextBuf_eq {B : BufEncoder σ α} {E : Encoder σ α} (h : InPlace B E) (s : σ) (xs : List α) :
    startNextBuf B s xs = startNext E s xs := by
  induction xs generalizing s with
  | nil => simp only [startNextBuf, startNext, h.idle]
  | cons x xs ih =>
    simp only [startNextBuf, startNext, h.idle, h.start]
    split
    · rcases E.start s x with ⟨r, s'⟩
      cases r with
      | ok u => exact ih _
      | _ => rfl
    · rfl

theorem startNext_failed {E : Encoder σ α} {s s' : σ} {xs rest : List α} {r : Res Unit}
    (h : startNext E s xs = .failed r s' rest) (u : Unit) : r ≠ .ok u := by
  induction xs generalizing s with
  | nil => simp only [startNext] at h; split at h <;> cases h
  | cons x xs ih =>
    simp only [startNext] at h
    split at h
    · rcases e : E.start s x with ⟨r', s''⟩
      rw [e] at h
      cases r' with
      | ok u => exact ih h
      | _ => cases h; intro hr; cases hr
    · cases h

theorem sameFailure_failAs {r : Res α} (h : ∀ u, r ≠ .ok u) : SameFailure (r.failAs : Res Nat) (r.failAs : Res Bytes) := by
  cases r with
  | ok u => exact absurd rfl (h u)
  | err k => exact .err k
  | panic => exact .panic
  | capacity => exact .capacity
  | diverge => exact .diverge

theorem repeatLoopBuf_written {B : BufEncoder σ α} {E : Encoder σ α} (h : InPlace B E) (buf : Bytes) (e : Eos) :
    ∀ (n : Nat) (out : Bytes) (s : σ) (items : Option (List α)), buf.length + 1 - out.length ≤ n →
      out.length ≤ buf.length → Written buf
        (repeatLoopBuf B buf.length e out.length (out ++ buf.drop out.length) s items)
        (repeatLoop E buf.length e out s items) := by
  intro n
  induction n with
  | zero => intro out s items hn ho; omega
  | succ n ih =>
    intro out s items hn ho
    rw [repeatLoopBuf, repeatLoop, startNextBuf_eq h]
    have hl : (out ++ buf.drop out.length).length = buf.length := by simp; omega
    generalize hst : startNext E s (items.getD []) = st
    cases st with
    | exhausted s' => exact .ok ho
    | failed r s' rest => exact .fail (sameFailure_failAs (startNext_failed hst)) hl
    | busy s' rest =>
      simp only
      rw [if_neg (by omega), if_neg (by omega), List.drop_left, List.take_left]
      rcases h.elim s' (buf.drop out.length) e with ⟨o, s'', h1, h2, h3⟩ | ⟨r, r', s'', x, h1, h2, h3, h4⟩
      · rw [List.length_drop] at h1 h3
        rw [h2, h3]
        simp only
        have h6 : out ++ (o ++ (buf.drop out.length).drop o.length) = out ++ o ++ buf.drop (out ++ o).length := by
          simp [List.drop_drop]
        by_cases h0 : o.length = 0
        · rw [if_pos h0, if_pos h0]
          have : o = [] := List.length_eq_zero_iff.mp h0
          subst this
          exact .ok ho
        · rw [if_neg h0, if_neg h0, h6, show out.length + o.length = (out ++ o).length by simp]
          exact ih (out ++ o) s'' _ (by rw [List.length_append]; omega) (by rw [List.length_append]; omega)
      · rw [List.length_drop] at h2 h4
        rw [h3, h4]
        have h6 : (out ++ x).length = buf.length := by simp; omega
        cases h1 <;> exact .fail (by first | exact .err _ | constructor) h6

theorem inPlace_repeat {B : BufEncoder σ α} {E : Encoder σ α} (h : InPlace B E) :
    InPlace (repeatBufEncoder B) (repeatEncoder E) where
  idle _ := rfl
  requiring _ := rfl
  start _ _ := rfl
  encode s buf e := repeatLoopBuf_written h buf e _ [] s.inner s.items (Nat.le_refl _) (Nat.zero_le _)

/-- A call on the first `n` bytes of the buffer. -/
theorem Spec.InPlace.part {B : BufEncoder σ α} {E : Encoder σ α} (h : InPlace B E) (s : σ) {buf : Bytes} {n : Nat}
    (hn : n ≤ buf.length) (e : Eos) :
    (∃ out s', out.length ≤ n ∧ B.encode s (buf.take n) e = (.ok out.length, s', out ++ (buf.take n).drop out.length) ∧
      (out ++ (buf.take n).drop out.length) ++ buf.drop n = out ++ buf.drop out.length ∧
      E.encode s n e = (.ok out, s')) ∨
    (∃ r r' s' b, SameFailure r r' ∧ (b ++ buf.drop n).length = buf.length ∧ B.encode s (buf.take n) e = (r, s', b) ∧
      E.encode s n e = (r', s')) := by
  have hl : (buf.take n).length = n := by rw [List.length_take]; omega
  rcases h.elim s (buf.take n) e with ⟨o, s', h1, h2, h3⟩ | ⟨r, r', s', x, h1, h2, h3, h4⟩
  · rw [hl] at h1 h3
    refine .inl ⟨o, s', h1, h2, ?_, h3⟩
    rw [List.append_assoc, ← List.drop_append_of_le_length (by omega), List.take_append_drop]
  · rw [hl] at h2 h4
    exact .inr ⟨r, r', s', x, h1, by rw [List.length_append, List.length_drop]; omega, h3, h4⟩

theorem inPlace_length {B : BufEncoder σ α} {E : Encoder σ α} (h : InPlace B E) :
    InPlace (lengthBufEncoder B) (lengthEncoder E).toEncoder where
  idle _ := rfl
  requiring _ := rfl
  start s x := by simp only [lengthBufEncoder, lengthEncoder, h.start]
  encode s buf e := by
    simp only [lengthBufEncoder, lengthEncoder]
    split
    · exact .fail (.err _) rfl
    · generalize hlim : (if buf.length < s.remaining then buf.length else s.remaining) = limit
      generalize (if buf.length < s.remaining then e else Eos.new true) = e'
      have hle : limit ≤ buf.length := by rw [← hlim]; split <;> omega
      rcases h.part s.inner hle e' with ⟨o, s', h1, h2, h3, h4⟩ | ⟨r, r', s', x, h1, h2, h3, h4⟩
      · have ho : o.length ≤ buf.length := by omega
        have hol : (o ++ buf.drop o.length).length = buf.length := by simp; omega
        rw [h2, h4]
        simp only [Res.step, h3, h.idle]
        split
        · exact .fail .panic hol
        · split
          · exact .fail (.err _) hol
          · exact .ok ho
      · rw [h3, h4]; cases h1 <;> exact .fail (by first | exact .err _ | constructor) h2

theorem inPlace_maxBytes {B : BufEncoder σ α} {E : Encoder σ α} (h : InPlace B E) :
    InPlace (maxBytesBufEncoder B) (maxBytesEncoder E) where
  idle s := h.idle s.inner
  requiring s := h.requiring s.inner
  start s x := by simp only [maxBytesBufEncoder, maxBytesEncoder, h.start]
  encode s buf e := by
    simp only [maxBytesBufEncoder, maxBytesEncoder]
    rcases h.elim s.inner buf e with ⟨o, s', h1, h2, h3⟩ | ⟨r, r', s', x, h1, h2, h3, h4⟩
    · have hol : (o ++ buf.drop o.length).length = buf.length := by simp; omega
      rw [h2, h3]
      simp only [Res.step, h.idle]
      split
      · exact .fail (.err _) hol
      · split
        · exact .ok h1
        · exact .ok h1
    · rw [h3, h4]; cases h1 <;> exact .fail (by first | exact .err _ | constructor) h2

theorem inPlace_slice {B : BufEncoder σ α} {E : Encoder σ α} (h : InPlace B E) :
    InPlace (sliceBufEncoder B) (sliceEncoder E) where
  idle s := h.idle s.inner
  requiring s := h.requiring s.inner
  start s x := by simp only [sliceBufEncoder, sliceEncoder, h.start]
  encode s buf e := by
    simp only [sliceBufEncoder, sliceEncoder]
    generalize e.back (buf.length - min buf.length s.consumable) = b
    cases b with
    | ok e' =>
      simp only
      rcases h.part s.inner (Nat.min_le_left buf.length s.consumable) e' with
        ⟨o, s', h1, h2, h3, h4⟩ | ⟨r, r', s', x, h1, h2, h3, h4⟩
      · have ho : o.length ≤ buf.length := by omega
        have hol : (o ++ buf.drop o.length).length = buf.length := by simp; omega
        rw [h2, h4]
        simp only [Res.step, h3]
        split
        · exact .fail .panic hol
        · exact .ok ho
      · rw [h3, h4]; cases h1 <;> exact .fail (by first | exact .err _ | constructor) h2
    | err _ => exact .fail .panic rfl
    | panic => exact .fail .panic rfl
    | capacity => exact .fail .panic rfl
    | diverge => exact .fail .panic rfl

theorem inPlace_last {B : BufEncoder σ α} {E : Encoder σ α} (h : InPlace B E) :
    InPlace (lastBufEncoder B) (lastEncoder E) where
  idle s := by simp only [lastBufEncoder, lastEncoder, h.idle]
  requiring s := by simp only [lastBufEncoder, lastEncoder, h.requiring]
  start s x := x.elim
  encode s buf e := by
    have enc : ∀ t : LastState σ α, Written buf
        ((B.encode t.inner buf e).1, { t with inner := (B.encode t.inner buf e).2.1 }, (B.encode t.inner buf e).2.2)
        (Res.step (E.encode t.inner buf.length e) (fun i => { t with inner := i }) fun bs i =>
          (.ok bs, { t with inner := i })) := by
      intro t
      rcases h.elim t.inner buf e with ⟨o, s', h1, h2, h3⟩ | ⟨r, r', s', x, h1, h2, h3, h4⟩
      · rw [h2, h3]; exact .ok h1
      · rw [h3, h4]; cases h1 <;> exact .fail (by first | exact .err _ | constructor) h2
    simp only [lastBufEncoder, lastEncoder, h.idle, h.start]
    split
    · obtain ⟨i, item⟩ := s
      cases item with
      | none => exact enc ⟨i, none⟩
      | some x =>
        simp only
        rcases E.start i x with ⟨r, i⟩
        cases r with
        | ok u => exact enc ⟨i, none⟩
        | err k => exact .fail (.err _) rfl
        | panic => exact .fail .panic rfl
        | capacity => exact .fail .capacity rfl
        | diverge => exact .fail .diverge rfl
    · exact enc s

/-! ## `encode_all` and `encode_into_bytes` -/

section all
variable {ω : Type}

theorem encodeAllBuf_le {B : BufEncoder σ α} {E : Encoder σ α} (h : InPlace B E) (W : Writer ω) :
    ∀ s w buf r, encodeAllBuf B W s w buf = some r → buf.length = 1024 → encodeAll E W s w = some r := by
  refine encodeAllBuf.partial_correctness B W (fun s w buf r => buf.length = 1024 → encodeAll E W s w = some r) ?_
  intro rec ih s w buf r hr hl
  rw [encodeAll]
  rw [h.idle] at hr
  split at hr
  · rw [if_pos ‹_›]; exact hr
  · rw [if_neg ‹_›]
    rcases h.elim s buf (Eos.new false) with ⟨o, s', h1, h2, h3⟩ | ⟨x, x', s', b, h1, h2, h3, h4⟩
    · rw [hl] at h1 h3
      have hol : (o ++ buf.drop o.length).length = 1024 := by simp; omega
      rw [h2] at hr
      rw [h3]
      simp only [List.take_left, hol, h.idle] at hr ⊢
      rw [if_neg (by omega)] at hr ⊢
      rcases hw : writeAll W w o with ⟨y, w'⟩
      rw [hw] at hr
      cases y with
      | ok u =>
        simp only at hr ⊢
        have he : (o.length == 0) = o.isEmpty := by cases o <;> rfl
        rw [he] at hr
        split at hr
        · rw [if_pos ‹_›]; exact hr
        · rw [if_neg ‹_›]; exact ih _ _ _ _ hr hol
      | _ => exact hr
    · rw [hl] at h4
      rw [h3] at hr
      rw [h4]
      cases h1 <;> exact hr

theorem encodeAllBuf_ge {B : BufEncoder σ α} {E : Encoder σ α} (h : InPlace B E) (W : Writer ω) :
    ∀ s w r, encodeAll E W s w = some r → ∀ buf, buf.length = 1024 → encodeAllBuf B W s w buf = some r := by
  refine encodeAll.partial_correctness E W
    (fun s w r => ∀ buf : Bytes, buf.length = 1024 → encodeAllBuf B W s w buf = some r) ?_
  intro rec ih s w r hr buf hl
  rw [encodeAllBuf, h.idle]
  split at hr
  · rw [if_pos ‹_›]; exact hr
  · rw [if_neg ‹_›]
    rcases h.elim s buf (Eos.new false) with ⟨o, s', h1, h2, h3⟩ | ⟨x, x', s', b, h1, h2, h3, h4⟩
    · rw [hl] at h1 h3
      have hol : (o ++ buf.drop o.length).length = 1024 := by simp; omega
      rw [h3] at hr
      rw [h2]
      simp only [List.take_left, hol, h.idle] at hr ⊢
      rw [if_neg (by omega)] at hr ⊢
      rcases hw : writeAll W w o with ⟨y, w'⟩
      rw [hw] at hr
      cases y with
      | ok u =>
        simp only at hr ⊢
        have he : (o.length == 0) = o.isEmpty := by cases o <;> rfl
        rw [he]
        split at hr
        · rw [if_pos ‹_›]; exact hr
        · rw [if_neg ‹_›]; exact ih _ _ _ hr _ hol
      | _ => exact hr
    · rw [hl] at h4
      rw [h4] at hr
      rw [h3]
      cases h1 <;> exact hr

theorem encodeAllBuf_eq {B : BufEncoder σ α} {E : Encoder σ α} (h : InPlace B E) (W : Writer ω) (s : σ) (w : ω)
    {buf : Bytes} (hl : buf.length = 1024) : encodeAllBuf B W s w buf = encodeAll E W s w := by
  cases h1 : encodeAll E W s w with
  | some r => exact encodeAllBuf_ge h W s w r h1 buf hl
  | none =>
    cases h2 : encodeAllBuf B W s w buf with
    | none => rfl
    | some r => rw [encodeAllBuf_le h W s w buf r h2 hl] at h1; cases h1

end all

theorem encodeIntoBytesBuf_eq {B : BufEncoder σ α} {E : Encoder σ α} (h : InPlace B E) (s : σ) (x : α) :
    encodeIntoBytesBuf B s x = encodeIntoBytes E s x := by
  unfold encodeIntoBytesBuf encodeIntoBytes
  rw [h.start]
  rcases E.start s x with ⟨r, s'⟩
  cases r with
  | ok u =>
    simp only [Res.step]
    rw [h.requiring]
    cases E.requiring s' with
    | finite n =>
      simp only
      split
      · rfl
      · rcases h.elim s' (List.replicate n 0) (Eos.new true) with ⟨o, t, h1, h2, h3⟩ | ⟨r, r', t, b, h1, h2, h3, h4⟩
        · rw [List.length_replicate] at h1 h3
          rw [h2, h3]
          simp only [h.idle, List.drop_replicate]
          rw [List.take_of_length_le (by simp; omega)]
        · rw [List.length_replicate] at h4
          rw [h3, h4]
          cases h1 <;> rfl
    | unknown =>
      simp only
      rw [encodeAllBuf_eq h _ _ _ List.length_replicate]
      rfl
    | infinite => rfl
  | _ => rfl

theorem inPlace_preEncode {B : BufEncoder σ α} {E : Encoder σ α} (h : InPlace B E) :
    InPlace (preEncodeBufEncoder B) (preEncodeEncoder E).toEncoder where
  idle _ := rfl
  requiring _ := rfl
  start s x := by
    simp only [preEncodeBufEncoder, preEncodeEncoder, encodeIntoBytesBuf_eq h]
    rfl
  encode s buf e := by
    have h := (inPlace_bytes (id : Bytes → Bytes)).encode s.preEncoded buf e
    have e1 : (preEncodeBufEncoder B).encode s buf e =
        (((bytesBufEncoder id).encode s.preEncoded buf e).1,
          ⟨s.inner, ((bytesBufEncoder id).encode s.preEncoded buf e).2.1⟩,
          ((bytesBufEncoder id).encode s.preEncoded buf e).2.2) := rfl
    have e2 : (preEncodeEncoder E).toEncoder.encode s buf.length e =
        Res.step ((bytesEncoder id).toEncoder.encode s.preEncoded buf.length e)
          (fun p => (⟨s.inner, p⟩ : PreEncodeState σ)) fun bs p => (.ok bs, ⟨s.inner, p⟩) := rfl
    rw [e1, e2]
    generalize (bytesBufEncoder id).encode s.preEncoded buf e = p at h
    generalize (bytesEncoder (id : Bytes → Bytes)).toEncoder.encode s.preEncoded buf.length e = q at h
    cases h with
    | ok h => exact .ok h
    | fail h h' => cases h <;> exact .fail (by first | exact .err _ | constructor) h'

/-! ## `encode_to_write_buf` -/

theorem encodeToWriteBufBuf_eq {B : BufEncoder σ α} {E : Encoder σ α} (h : InPlace B E) (s : σ) (b : WriteBuf) :
    (encodeToWriteBufBuf B s b).1 = (encodeToWriteBuf E s b).1 ∧
    (encodeToWriteBufBuf B s b).2.1 = (encodeToWriteBuf E s b).2.1 ∧
    ((encodeToWriteBuf E s b).1 = .ok () → (encodeToWriteBufBuf B s b).2.2 = (encodeToWriteBuf E s b).2.2) ∧
    ((encodeToWriteBuf E s b).1 ≠ .ok () →
      (encodeToWriteBuf E s b).2.2 = b ∧
      (encodeToWriteBufBuf B s b).2.2.inner.take b.tail = b.inner.take b.tail ∧
      (encodeToWriteBufBuf B s b).2.2.inner.length = b.inner.length ∧
      { (encodeToWriteBufBuf B s b).2.2 with inner := b.inner } = b) := by
  unfold encodeToWriteBufBuf encodeToWriteBuf
  split
  · exact ⟨rfl, rfl, fun _ => rfl, fun _ => ⟨rfl, rfl, rfl, rfl⟩⟩
  · next ht =>
    rcases h.elim s (b.inner.drop b.tail) (Eos.new b.state.isEos) with
      ⟨o, t, h1, h2, h3⟩ | ⟨r, r', t, x, h1, h2, h3, h4⟩
    · rw [List.length_drop] at h1 h3
      rw [h2, h3]
      refine ⟨rfl, rfl, fun _ => ?_, fun h => absurd rfl h⟩
      simp only [Res.step, splice, List.drop_drop, List.append_assoc]
    · rw [List.length_drop] at h2 h4
      have h5 : (b.inner.take b.tail ++ x).take b.tail = b.inner.take b.tail := by
        rw [List.take_append_of_le_length (by rw [List.length_take]; omega), List.take_take, Nat.min_self]
      have h6 : (b.inner.take b.tail ++ x).length = b.inner.length := by
        rw [List.length_append, List.length_take]; omega
      rw [h3, h4]
      cases h1 <;> exact ⟨rfl, rfl, (fun h => by cases h), fun _ => ⟨rfl, h5, h6, rfl⟩⟩

end Bytecodec
