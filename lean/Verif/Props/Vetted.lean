import Verif.Lemmas.Vetted
import Verif.Props.Exact
/-!
# C94: a refused item does not spoil the next ones

A check (`try_map`, UTF-8) that looks at a complete item decides about this item only. However deep inside a composition
it sits (`Vetted` names the places), the decoder behaves, call for call, like the decoder without the check, except that
a refused item is replaced by the error: the same bytes are taken, and the following messages are found where they are.
-/
namespace Bytecodec.Props

open Spec

variable {σ τ α β ρ ω : Type}

/-- C94: for every sequence of calls, also after refusals: the decoder with the checks gives the answers of the decoder
without them, only with the verdict in place of the item. -/
theorem C94_calls {D : Decoder σ β} {s : σ} {D' : Decoder τ α} {s' : τ} {v : α → Except ErrorKind β}
    (h : Vetted D s D' s' v) (calls : List Call) :
    D.isIdle s = D'.isIdle s' ∧ D.requiring s = D'.requiring s' ∧
      observe D s calls = (observe D' s' calls).map (Seen.map id (tryItem v)) := by
  have h1 := vetted_alike h
  exact ⟨h1.1, h1.2.1, (h1.2.2 calls).trans (observe_tryMap D' v s' calls)⟩

/-- C94: the checks can be taken out and put around the whole decoder. -/
theorem C94_moves_out {D : Decoder σ β} {s : σ} {D' : Decoder τ α} {s' : τ} {v : α → Except ErrorKind β}
    (h : Vetted D s D' s' v) : Alike D s (tryMapDecoder D' v) s' := vetted_alike h

/-- C94: any number of calls of `decode_exact`. If without the checks they give the items `xs`, then with the checks
they give the verdicts on these items, in order, and take the same bytes from the reader. -/
theorem C94_decode_exact {D : Decoder σ β} {s : σ} {D' : Decoder τ α} {s' t : τ} {v : α → Except ErrorKind β}
    (h : Vetted D s D' s' v) (R : Reader ρ) (k : Nat) {r r' : ρ} {xs : List α}
    (hk : readItems D' R k s' r = some (xs, t, r')) :
    ∃ u, readVerdicts D R k s r = some (xs.map v, u, r') ∧
      ∀ calls, observe D u calls = (observe D' t calls).map (Seen.map id (tryItem v)) := by
  obtain ⟨u, h1, h2⟩ := readVerdicts_vetted R k (vetted_alike h) hk
  exact ⟨u, h1, fun calls => (h2.2.2 calls).trans (observe_tryMap D' v t calls)⟩

/-- C94: one call of `decode_from_read_buf`: the same answer and the same buffer. -/
theorem C94_read_buf {D : Decoder σ β} {s : σ} {D' : Decoder τ α} {s' : τ} {v : α → Except ErrorKind β}
    (h : Vetted D s D' s' v) (b : ReadBuf) :
    (decodeFromReadBuf D s b).1 = (decodeFromReadBuf D' s' b).1 ∧
      (decodeFromReadBuf D s b).2.2 = (decodeFromReadBuf D' s' b).2.2 ∧
      ∀ calls, observe D (decodeFromReadBuf D s b).2.1 calls =
        (observe D' (decodeFromReadBuf D' s' b).2.1 calls).map (Seen.map id (tryItem v)) := by
  obtain ⟨h1, h2, h3⟩ := C65_decode_from_read_buf (vetted_alike h) b
  have h4 : decodeFromReadBuf (tryMapDecoder D' v) s' b = decodeFromReadBuf D' s' b := rfl
  rw [h4] at h1 h2 h3
  exact ⟨h1, h3, fun calls => (h2.2.2 calls).trans (observe_tryMap D' v _ calls)⟩

/-- C94 from the sender's side: the encodings of some messages, one after the other, and a receiver whose decoder is the
sender's counterpart with checks built in. That many calls of `decode_exact` give, for each message, the message as the
checks present it or the error with which they refuse it, and leave the reader right after the messages.
Missing: checks at places other than those of `Vetted` (`C94_tuple_mixes_fails`, `C94_stuck_fails`). -/
theorem C94_messages_partial {ε : Type} {strict again w : Bool} {E : Encoder ε α} {sE : ε} {D : Decoder σ β} {s : σ}
    {D' : Decoder τ α} {s' : τ} {v : α → Except ErrorKind β} (h : Vetted D s D' s' v)
    {dom : α → Prop} {enc : α → Except ErrorKind Bytes} (hM : Matched strict true again E sE D' s' dom enc)
    (hD : Exactable w true D' s') {R : Reader ρ} {rest : ρ → Bytes} (hR : Delivers R rest)
    {msgs : List (α × Bytes)} (hm : ∀ m ∈ msgs, dom m.1 ∧ enc m.1 = .ok m.2)
    (ha : again = true ∨ msgs.length ≤ 1) {r : ρ} {tail : Bytes} (hr : rest r = (msgs.flatMap Prod.snd) ++ tail) :
    ∃ u r', readVerdicts D R msgs.length s r = some (msgs.map (fun m => v m.1), u, r') ∧ rest r' = tail := by
  obtain ⟨t, r', h1, h2⟩ := C42_messages_partial hM hD hR hm (ha.imp (fun h => ⟨rfl, h⟩) id) hr (.inl rfl)
  obtain ⟨u, h3, _⟩ := C94_decode_exact h R _ h1
  refine ⟨u, r', ?_, h2⟩
  rw [h3, List.map_map]
  rfl

/-- Accepts numbers other than 0. -/
def exNonZero (x : UInt8) : Except ErrorKind UInt8 := if x = 0 then .error .invalidInput else .ok x

/-- Numbers that must not be 0, with a limit and the marker for the end of the stream. -/
def exVetted : Decoder (MaxBytesState (MaybeEosState CopyableState)) UInt8 :=
  maxBytesDecoder (maybeEosDecoder (tryMapDecoder u8Decoder exNonZero))

theorem exVetted_vetted : Vetted exVetted (.new (.new (fixInit 1)) 9)
    (maxBytesDecoder (maybeEosDecoder u8Decoder)) (.new (.new (fixInit 1)) 9)
    (fun x => .ok x >>= exNonZero) :=
  .maxBytes 9 (.maybeEos (.tryMap exNonZero (.unchecked _ _)))

/-- Four numbers, the second and the third of which are refused; the reader stops after them. -/
example : ∃ u, readVerdicts exVetted (pieces 3) 4 (.new (.new (fixInit 1)) 9) [7, 0, 0, 8, 9] =
    some ([.ok 7, .error .invalidInput, .error .invalidInput, .ok 8], u, [9]) := by
  have h : ∃ t, readItems (maxBytesDecoder (maybeEosDecoder u8Decoder)) (pieces 3) 4
      (.new (.new (fixInit 1)) 9) [7, 0, 0, 8, 9] = some ([7, 0, 0, 8], t, [9]) := by
    have one : ∀ (p x : UInt8) (rest : Bytes),
        decodeExact (maxBytesDecoder (maybeEosDecoder u8Decoder)) (pieces 3)
          ⟨⟨⟨[p], 0⟩, false⟩, 0, 9⟩ (x :: rest) = some (.ok x, ⟨⟨⟨[x], 0⟩, false⟩, 0, 9⟩, rest) := by
      intro p x rest
      rw [decodeExact_eq]
      rfl
    refine ⟨⟨⟨⟨[8], 0⟩, false⟩, 0, 9⟩, ?_⟩
    have h0 : (MaxBytesState.new (MaybeEosState.new (fixInit 1)) 9) =
      ⟨⟨⟨[0], 0⟩, false⟩, 0, 9⟩ := rfl
    rw [h0]
    simp only [readItems, one]
    rfl
  obtain ⟨t, h⟩ := h
  obtain ⟨u, h1, _⟩ := C94_decode_exact exVetted_vetted (pieces 3) 4 h
  exact ⟨u, h1⟩

/-- A text in a frame, by the messages of the sender: the second is not UTF-8. -/
example : ∃ u r', readVerdicts (utf8Decoder copyableBytesDecoder) (pieces 1) 3 (.new [0, 0])
    [0x61, 0x62, 0xff, 0xff, 0x63, 0x64, 5] =
      some ([textVerdict [0x61, 0x62], textVerdict [0xff, 0xff], textVerdict [0x63, 0x64]], u, r') ∧ r' = [5] :=
  C94_messages_partial (.utf8 (.unchecked _ _)) (.copyable false [0, 0]) (.copyable true true [0, 0] (by simp))
    (C42_pieces (m := 1) (by decide))
    (msgs := [([0x61, 0x62], [0x61, 0x62]), ([0xff, 0xff], [0xff, 0xff]), ([0x63, 0x64], [0x63, 0x64])])
    (tail := [5]) (by simp) (.inl rfl) rfl

/-- Texts behind their lengths: the check sits inside the frame inside the body of `and_then`. -/
example : Vetted (andThenDecoder u8Decoder (lengthDecoder (utf8Decoder remainingBytesDecoder))
      (fun n => .new .new n.toNat)) (fixInit 1, none)
    (andThenDecoder u8Decoder (lengthDecoder remainingBytesDecoder) (fun n => .new .new n.toNat)) (fixInit 1, none)
    (fun x => .ok x >>= textVerdict) :=
  .andThen _ _ _ _ fun _ => .length _ (.utf8 (.unchecked _ _))

/-- C94: a check on the last component of a tuple of 3. -/
theorem C94_tuple3 {σ0 α0 σ1 α1 : Type}
    (D0 : Decoder σ0 α0) (D1 : Decoder σ1 α1)
    (s0 : σ0) (s1 : σ1) {D : Decoder σ β} {s : σ}
    {D' : Decoder τ α} {s' : τ} {v : α → Except ErrorKind β} (h : Vetted D s D' s' v) :
    Vetted (tupleDecoder3 D0 D1 D) (s0, s1, s)
      (tupleDecoder3 D0 D1 D') (s0, s1, s')
      (fun p => (v p.2.2).map fun y => (p.1, p.2.1, y)) := by
  rw [tupleDecoder3_nested, tupleDecoder3_nested]
  have := Vetted.pair D0 s0 (.pair D1 s1 h)
  simpa only [Except_map_map] using this

/-- C94: a check on the last component of a tuple of 4. -/
theorem C94_tuple4 {σ0 α0 σ1 α1 σ2 α2 : Type}
    (D0 : Decoder σ0 α0) (D1 : Decoder σ1 α1) (D2 : Decoder σ2 α2)
    (s0 : σ0) (s1 : σ1) (s2 : σ2) {D : Decoder σ β} {s : σ}
    {D' : Decoder τ α} {s' : τ} {v : α → Except ErrorKind β} (h : Vetted D s D' s' v) :
    Vetted (tupleDecoder4 D0 D1 D2 D) (s0, s1, s2, s)
      (tupleDecoder4 D0 D1 D2 D') (s0, s1, s2, s')
      (fun p => (v p.2.2.2).map fun y => (p.1, p.2.1, p.2.2.1, y)) := by
  rw [tupleDecoder4_nested, tupleDecoder4_nested]
  have := Vetted.pair D0 s0 (.pair D1 s1 (.pair D2 s2 h))
  simpa only [Except_map_map] using this

/-- C94: a check on the last component of a tuple of 5. -/
theorem C94_tuple5 {σ0 α0 σ1 α1 σ2 α2 σ3 α3 : Type}
    (D0 : Decoder σ0 α0) (D1 : Decoder σ1 α1) (D2 : Decoder σ2 α2) (D3 : Decoder σ3 α3)
    (s0 : σ0) (s1 : σ1) (s2 : σ2) (s3 : σ3) {D : Decoder σ β} {s : σ}
    {D' : Decoder τ α} {s' : τ} {v : α → Except ErrorKind β} (h : Vetted D s D' s' v) :
    Vetted (tupleDecoder5 D0 D1 D2 D3 D) (s0, s1, s2, s3, s)
      (tupleDecoder5 D0 D1 D2 D3 D') (s0, s1, s2, s3, s')
      (fun p => (v p.2.2.2.2).map fun y => (p.1, p.2.1, p.2.2.1, p.2.2.2.1, y)) := by
  rw [tupleDecoder5_nested, tupleDecoder5_nested]
  have := Vetted.pair D0 s0 (.pair D1 s1 (.pair D2 s2 (.pair D3 s3 h)))
  simpa only [Except_map_map] using this

/-- C94: a check on the last component of a tuple of 6. -/
theorem C94_tuple6 {σ0 α0 σ1 α1 σ2 α2 σ3 α3 σ4 α4 : Type}
    (D0 : Decoder σ0 α0) (D1 : Decoder σ1 α1) (D2 : Decoder σ2 α2) (D3 : Decoder σ3 α3) (D4 : Decoder σ4 α4)
    (s0 : σ0) (s1 : σ1) (s2 : σ2) (s3 : σ3) (s4 : σ4) {D : Decoder σ β} {s : σ}
    {D' : Decoder τ α} {s' : τ} {v : α → Except ErrorKind β} (h : Vetted D s D' s' v) :
    Vetted (tupleDecoder6 D0 D1 D2 D3 D4 D) (s0, s1, s2, s3, s4, s)
      (tupleDecoder6 D0 D1 D2 D3 D4 D') (s0, s1, s2, s3, s4, s')
      (fun p => (v p.2.2.2.2.2).map fun y => (p.1, p.2.1, p.2.2.1, p.2.2.2.1, p.2.2.2.2.1, y)) := by
  rw [tupleDecoder6_nested, tupleDecoder6_nested]
  have := Vetted.pair D0 s0 (.pair D1 s1 (.pair D2 s2 (.pair D3 s3 (.pair D4 s4 h))))
  simpa only [Except_map_map] using this

/-- C94: a check on the last component of a tuple of 7. -/
theorem C94_tuple7 {σ0 α0 σ1 α1 σ2 α2 σ3 α3 σ4 α4 σ5 α5 : Type}
    (D0 : Decoder σ0 α0) (D1 : Decoder σ1 α1) (D2 : Decoder σ2 α2) (D3 : Decoder σ3 α3) (D4 : Decoder σ4 α4) (D5 : Decoder σ5 α5)
    (s0 : σ0) (s1 : σ1) (s2 : σ2) (s3 : σ3) (s4 : σ4) (s5 : σ5) {D : Decoder σ β} {s : σ}
    {D' : Decoder τ α} {s' : τ} {v : α → Except ErrorKind β} (h : Vetted D s D' s' v) :
    Vetted (tupleDecoder7 D0 D1 D2 D3 D4 D5 D) (s0, s1, s2, s3, s4, s5, s)
      (tupleDecoder7 D0 D1 D2 D3 D4 D5 D') (s0, s1, s2, s3, s4, s5, s')
      (fun p => (v p.2.2.2.2.2.2).map fun y => (p.1, p.2.1, p.2.2.1, p.2.2.2.1, p.2.2.2.2.1, p.2.2.2.2.2.1, y)) := by
  rw [tupleDecoder7_nested, tupleDecoder7_nested]
  have := Vetted.pair D0 s0 (.pair D1 s1 (.pair D2 s2 (.pair D3 s3 (.pair D4 s4 (.pair D5 s5 h)))))
  simpa only [Except_map_map] using this

/-- C94: a check on the last component of a tuple of 8. -/
theorem C94_tuple8 {σ0 α0 σ1 α1 σ2 α2 σ3 α3 σ4 α4 σ5 α5 σ6 α6 : Type}
    (D0 : Decoder σ0 α0) (D1 : Decoder σ1 α1) (D2 : Decoder σ2 α2) (D3 : Decoder σ3 α3) (D4 : Decoder σ4 α4) (D5 : Decoder σ5 α5) (D6 : Decoder σ6 α6)
    (s0 : σ0) (s1 : σ1) (s2 : σ2) (s3 : σ3) (s4 : σ4) (s5 : σ5) (s6 : σ6) {D : Decoder σ β} {s : σ}
    {D' : Decoder τ α} {s' : τ} {v : α → Except ErrorKind β} (h : Vetted D s D' s' v) :
    Vetted (tupleDecoder8 D0 D1 D2 D3 D4 D5 D6 D) (s0, s1, s2, s3, s4, s5, s6, s)
      (tupleDecoder8 D0 D1 D2 D3 D4 D5 D6 D') (s0, s1, s2, s3, s4, s5, s6, s')
      (fun p => (v p.2.2.2.2.2.2.2).map fun y => (p.1, p.2.1, p.2.2.1, p.2.2.2.1, p.2.2.2.2.1, p.2.2.2.2.2.1, p.2.2.2.2.2.2.1, y)) := by
  rw [tupleDecoder8_nested, tupleDecoder8_nested]
  have := Vetted.pair D0 s0 (.pair D1 s1 (.pair D2 s2 (.pair D3 s3 (.pair D4 s4 (.pair D5 s5 (.pair D6 s6 h))))))
  simpa only [Except_map_map] using this

/-- A number, two bytes as they are, and a text: a refused text is an error of this triple only. -/
example : Vetted (tupleDecoder3 u16leDecoder copyableBytesDecoder (lengthDecoder (utf8Decoder remainingBytesDecoder)))
    (fixInit 2, .new [0, 0], .new .new 3)
    (tupleDecoder3 u16leDecoder copyableBytesDecoder (lengthDecoder remainingBytesDecoder))
    (fixInit 2, .new [0, 0], .new .new 3)
    (fun p => (Except.ok p.2.2 >>= textVerdict).map fun y => (p.1, p.2.1, y)) :=
  C94_tuple3 _ _ _ _ (.length 3 (.utf8 (.unchecked _ _)))

/-- C94 is false for a check on a component of a tuple that is not the last one: the later components keep what they
have read, and the next item is put together from two messages. Two bytes each, the first of which must not be 0: of the
messages (0, 1) and (5, 2), the first is refused, and then (5, 1) is returned, with one byte taken. -/
theorem C94_tuple_mixes_fails :
    let D := tupleDecoder2 (tryMapDecoder u8Decoder exNonZero) u8Decoder
    let s := (fixInit 1, fixInit 1)
    let e := Eos.new false
    let s1 := (D.decode s [0, 1, 5, 2] e).2
    let s2 := (D.finish s1).2
    let s3 := (D.decode s2 [5, 2] e).2
    (D.decode s [0, 1, 5, 2] e).1 = .ok 2 ∧ D.isIdle s1 = true ∧ (D.finish s1).1 = .err .invalidInput ∧
      (D.decode s2 [5, 2] e).1 = .ok 1 ∧ D.isIdle s3 = true ∧ (D.finish s3).1 = .ok (5, 1) :=
  ⟨rfl, rfl, rfl, rfl, rfl, rfl⟩

/-- `k` calls of `decode_from_read_buf`. -/
def callsOfReadBuf (D : Decoder σ α) : Nat → σ → ReadBuf → List (Res Unit) × σ × ReadBuf
  | 0, s, b => ([], s, b)
  | k + 1, s, b =>
    let y := callsOfReadBuf D k (decodeFromReadBuf D s b).2.1 (decodeFromReadBuf D s b).2.2
    ((decodeFromReadBuf D s b).1 :: y.1, y.2)

/-- C94 is false where an item is completed inside `decode` (`peekable`, `collect`, `collectn`, the header of
`and_then`): `decode` reports the refusal instead of the number of bytes taken, so `decode_from_read_buf` leaves them in
the buffer, and every further call meets the same bytes and fails in the same way. -/
theorem C94_stuck_fails (k : Nat) :
    let D := peekableDecoder (tryMapDecoder u8Decoder exNonZero)
    let b : ReadBuf := ⟨[0, 5], 0, 2, .normal⟩
    (callsOfReadBuf D k ⟨fixInit 1, none⟩ b).1 = List.replicate k (.err .invalidInput) ∧
      (callsOfReadBuf D k ⟨fixInit 1, none⟩ b).2.2 = b := by
  intro D b
  have h : decodeFromReadBuf D ⟨fixInit 1, none⟩ b = (.err .invalidInput, ⟨fixInit 1, none⟩, b) := rfl
  induction k with
  | zero => exact ⟨rfl, rfl⟩
  | succ k ih =>
    simp only [callsOfReadBuf, h, List.replicate_succ]
    exact ⟨by rw [ih.1], ih.2⟩

end Bytecodec.Props
