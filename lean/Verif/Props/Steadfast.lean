import Verif.Lemmas.Steadfast
import Verif.Props.Exact
import Verif.Props.Encoding
/-!
# C95: a message that is refused leaves no trace in the encoder

Refusals (numbers that do not fit, `try_map_from`, a message handed over while another one is being written) leave the
encoder as it was. What is sent is what was accepted.
-/
namespace Bytecodec.Props

open Spec

variable {σ τ α ρ : Type}

/-- C95: a refused message leaves the encoder as it was: at any moment, or (tuples) if it was idle. -/
theorem C95_refused {always : Bool} {E : Encoder σ α} (h : Steadfast always E) {s s' : σ} {x : α} {k : ErrorKind}
    (hs : E.start s x = (.err k, s')) (hi : always = true ∨ E.isIdle s = true) : s' = s := steadfast_refuses h hs hi

/-- A checked number in a frame of three bytes, while another number is being written. -/
example : (lengthEncoder u24beEncoder.toEncoder).toEncoder.start ⟨⟨some [1, 2, 3], 1⟩, 3, 2⟩ 7 =
    (.err .encoderFull, ⟨⟨some [1, 2, 3], 1⟩, 3, 2⟩) ∧ Steadfast true (lengthEncoder u24beEncoder.toEncoder).toEncoder :=
  ⟨rfl, .length (.number _)⟩

/-- C95: a tuple of 3 of which only the first component refuses messages. -/
theorem C95_tuple3 {σ0 α0 σ1 α1 σ2 α2 : Type} {always : Bool}
    {E0 : Encoder σ0 α0} {E1 : Encoder σ1 α1} {E2 : Encoder σ2 α2} (h0 : Steadfast always E0)
    (h1 : ∀ s x, E1.isIdle s = true → (E1.start s x).1 = .ok ())
    (h2 : ∀ s x, E2.isIdle s = true → (E2.start s x).1 = .ok ()) :
    Steadfast false (tupleEncoder3 E0 E1 E2) := by
  rw [tupleEncoder3_nested]
  exact .pair h0 (accepts_pair h1 h2)

/-- C95: a tuple of 4 of which only the first component refuses messages. -/
theorem C95_tuple4 {σ0 α0 σ1 α1 σ2 α2 σ3 α3 : Type} {always : Bool}
    {E0 : Encoder σ0 α0} {E1 : Encoder σ1 α1} {E2 : Encoder σ2 α2} {E3 : Encoder σ3 α3} (h0 : Steadfast always E0)
    (h1 : ∀ s x, E1.isIdle s = true → (E1.start s x).1 = .ok ())
    (h2 : ∀ s x, E2.isIdle s = true → (E2.start s x).1 = .ok ())
    (h3 : ∀ s x, E3.isIdle s = true → (E3.start s x).1 = .ok ()) :
    Steadfast false (tupleEncoder4 E0 E1 E2 E3) := by
  rw [tupleEncoder4_nested]
  exact .pair h0 (accepts_pair h1 (accepts_pair h2 h3))

/-- C95: a tuple of 5 of which only the first component refuses messages. -/
theorem C95_tuple5 {σ0 α0 σ1 α1 σ2 α2 σ3 α3 σ4 α4 : Type} {always : Bool}
    {E0 : Encoder σ0 α0} {E1 : Encoder σ1 α1} {E2 : Encoder σ2 α2} {E3 : Encoder σ3 α3} {E4 : Encoder σ4 α4} (h0 : Steadfast always E0)
    (h1 : ∀ s x, E1.isIdle s = true → (E1.start s x).1 = .ok ())
    (h2 : ∀ s x, E2.isIdle s = true → (E2.start s x).1 = .ok ())
    (h3 : ∀ s x, E3.isIdle s = true → (E3.start s x).1 = .ok ())
    (h4 : ∀ s x, E4.isIdle s = true → (E4.start s x).1 = .ok ()) :
    Steadfast false (tupleEncoder5 E0 E1 E2 E3 E4) := by
  rw [tupleEncoder5_nested]
  exact .pair h0 (accepts_pair h1 (accepts_pair h2 (accepts_pair h3 h4)))

/-- C95: a tuple of 6 of which only the first component refuses messages. -/
theorem C95_tuple6 {σ0 α0 σ1 α1 σ2 α2 σ3 α3 σ4 α4 σ5 α5 : Type} {always : Bool}
    {E0 : Encoder σ0 α0} {E1 : Encoder σ1 α1} {E2 : Encoder σ2 α2} {E3 : Encoder σ3 α3} {E4 : Encoder σ4 α4} {E5 : Encoder σ5 α5} (h0 : Steadfast always E0)
    (h1 : ∀ s x, E1.isIdle s = true → (E1.start s x).1 = .ok ())
    (h2 : ∀ s x, E2.isIdle s = true → (E2.start s x).1 = .ok ())
    (h3 : ∀ s x, E3.isIdle s = true → (E3.start s x).1 = .ok ())
    (h4 : ∀ s x, E4.isIdle s = true → (E4.start s x).1 = .ok ())
    (h5 : ∀ s x, E5.isIdle s = true → (E5.start s x).1 = .ok ()) :
    Steadfast false (tupleEncoder6 E0 E1 E2 E3 E4 E5) := by
  rw [tupleEncoder6_nested]
  exact .pair h0 (accepts_pair h1 (accepts_pair h2 (accepts_pair h3 (accepts_pair h4 h5))))

/-- C95: a tuple of 7 of which only the first component refuses messages. -/
theorem C95_tuple7 {σ0 α0 σ1 α1 σ2 α2 σ3 α3 σ4 α4 σ5 α5 σ6 α6 : Type} {always : Bool}
    {E0 : Encoder σ0 α0} {E1 : Encoder σ1 α1} {E2 : Encoder σ2 α2} {E3 : Encoder σ3 α3} {E4 : Encoder σ4 α4} {E5 : Encoder σ5 α5} {E6 : Encoder σ6 α6} (h0 : Steadfast always E0)
    (h1 : ∀ s x, E1.isIdle s = true → (E1.start s x).1 = .ok ())
    (h2 : ∀ s x, E2.isIdle s = true → (E2.start s x).1 = .ok ())
    (h3 : ∀ s x, E3.isIdle s = true → (E3.start s x).1 = .ok ())
    (h4 : ∀ s x, E4.isIdle s = true → (E4.start s x).1 = .ok ())
    (h5 : ∀ s x, E5.isIdle s = true → (E5.start s x).1 = .ok ())
    (h6 : ∀ s x, E6.isIdle s = true → (E6.start s x).1 = .ok ()) :
    Steadfast false (tupleEncoder7 E0 E1 E2 E3 E4 E5 E6) := by
  rw [tupleEncoder7_nested]
  exact .pair h0 (accepts_pair h1 (accepts_pair h2 (accepts_pair h3 (accepts_pair h4 (accepts_pair h5 h6)))))

/-- C95: a tuple of 8 of which only the first component refuses messages. -/
theorem C95_tuple8 {σ0 α0 σ1 α1 σ2 α2 σ3 α3 σ4 α4 σ5 α5 σ6 α6 σ7 α7 : Type} {always : Bool}
    {E0 : Encoder σ0 α0} {E1 : Encoder σ1 α1} {E2 : Encoder σ2 α2} {E3 : Encoder σ3 α3} {E4 : Encoder σ4 α4} {E5 : Encoder σ5 α5} {E6 : Encoder σ6 α6} {E7 : Encoder σ7 α7} (h0 : Steadfast always E0)
    (h1 : ∀ s x, E1.isIdle s = true → (E1.start s x).1 = .ok ())
    (h2 : ∀ s x, E2.isIdle s = true → (E2.start s x).1 = .ok ())
    (h3 : ∀ s x, E3.isIdle s = true → (E3.start s x).1 = .ok ())
    (h4 : ∀ s x, E4.isIdle s = true → (E4.start s x).1 = .ok ())
    (h5 : ∀ s x, E5.isIdle s = true → (E5.start s x).1 = .ok ())
    (h6 : ∀ s x, E6.isIdle s = true → (E6.start s x).1 = .ok ())
    (h7 : ∀ s x, E7.isIdle s = true → (E7.start s x).1 = .ok ()) :
    Steadfast false (tupleEncoder8 E0 E1 E2 E3 E4 E5 E6 E7) := by
  rw [tupleEncoder8_nested]
  exact .pair h0 (accepts_pair h1 (accepts_pair h2 (accepts_pair h3 (accepts_pair h4 (accepts_pair h5 (accepts_pair h6 h7))))))

/-- A number of three bytes that may be refused, and two fields that are never refused. -/
example : Steadfast false (tupleEncoder3 u24beEncoder.toEncoder nullEncoder.toEncoder nullEncoder.toEncoder) :=
  C95_tuple3 (always := true) (.number _) (fun _ _ _ => rfl) (fun _ _ _ => rfl)

/-- C95: for every sequence of calls: leaving out the messages that are refused changes the answers to no other call. -/
theorem C95_calls {E : Encoder σ α} (h : Steadfast true E) (s : σ) (calls : List (ECall α)) :
    observeE E s (withoutRefused E s calls) = (observeE E s calls).filter (fun x => !x.refused) :=
  observeE_withoutRefused h s calls

/-- Of three messages the second does not fit and the third comes too early. -/
example : withoutRefused u24beEncoder.toEncoder .new
    [.start 1, .encode 1 (Eos.new false), .start 0x1000000, .start 2, .encode 9 (Eos.new false)] =
    [.start 1, .encode 1 (Eos.new false), .encode 9 (Eos.new false)] := rfl

/-- C95 for a sender: messages are handed over one after the other, each accepted one is written with `encode_all`. Each
message without an encoding is refused with its error kind, and the bytes written are the encodings of the others.
Missing: tuples of which a later component refuses (`C20_rejected_fails`) and `pre_encode` (`C58_preEncode_fails`). -/
theorem C95_send_partial {strict always : Bool} {E : Encoder σ α} {s₀ : σ} {dom : α → Prop}
    {enc : α → Except ErrorKind Bytes} (hE : Emits strict E s₀ dom enc) (hA : Steadfast always E)
    {msgs : List α} (hm : ∀ x ∈ msgs, dom x) (w : Bytes) :
    ∃ s', sendEach E vecWriter msgs s₀ w =
      some (msgs.map (fun x => (enc x).map fun _ => ()), s', w ++ bytesOfAll enc msgs) ∧ E.isIdle s' = true := by
  obtain ⟨h1, h2, h3⟩ := emits_fresh hE
  obtain ⟨s', k1, k2, _⟩ := sendEach_spec h1 hA msgs hm h2 h3 w
  exact ⟨s', k1, k2⟩

/-- C95 for `pre_encode`: if the encoder inside it rests and refuses the message itself, nothing has changed, also while
an earlier message is still being written. -/
theorem C95_preEncode_refused {always : Bool} {E : Encoder σ α} (h : Steadfast always E) {s s' : PreEncodeState σ}
    {x : α} {k k' : ErrorKind} (hi : E.isIdle s.inner = true) (hr : (E.start s.inner x).1 = .err k)
    (hs : (preEncodeEncoder E).toEncoder.start s x = (.err k', s')) : k' = k ∧ s' = s := by
  rcases hq : E.start s.inner x with ⟨r, i⟩
  rw [hq] at hr
  simp only at hr
  subst hr
  exact preEncode_refuses h hi hq hs

/-- C95 for a sender with `pre_encode`: as `C95_send_partial`, if the encoder inside `pre_encode` can write every message
it accepts. Missing: an encoder that fails after it has accepted a message (`C58_preEncode_fails`). -/
theorem C95_preEncode_send_partial {strict always : Bool} {E : Encoder σ α} {s₀ : σ} {dom : α → Prop}
    {enc : α → Except ErrorKind Bytes} (hE : Emits strict E s₀ dom enc) (hA : Steadfast always E)
    {msgs : List α} (hm : ∀ x ∈ msgs, dom x ∧ ∀ b, enc x = .ok b → b.length < 2 ^ 63) (w : Bytes) :
    ∃ s', sendEach (preEncodeEncoder E).toEncoder vecWriter msgs (.new s₀) w =
      some (msgs.map (fun x => (enc x).map fun _ => ()), s', w ++ bytesOfAll enc msgs) ∧
        (preEncodeEncoder E).toEncoder.isIdle s' = true := by
  obtain ⟨h1, h2, h3⟩ := emits_fresh hE
  refine sendEach_preEncode h1 hA msgs (fun x hx => ⟨(hm x hx).1, ?_⟩) h2 h3 w
  cases he : enc x with
  | error k => simp [bytesOf]
  | ok b => simpa [bytesOf] using (hm x hx).2 b he

/-- C95 from end to end: whatever the sender tries to send, the receiver gets exactly the accepted messages. -/
theorem C95_receiver_partial {strict always w : Bool} {E : Encoder τ α} {sE : τ} {D : Decoder σ α} {sD : σ}
    {dom : α → Prop} {enc : α → Except ErrorKind Bytes} (hM : Matched strict true true E sE D sD dom enc)
    (hA : Steadfast always E) (hD : Exactable w true D sD) {R : Reader ρ} {rest : ρ → Bytes} (hR : Delivers R rest)
    {msgs : List α} (hm : ∀ x ∈ msgs, dom x) :
    ∃ s' wire, sendEach E vecWriter msgs sE [] = some (msgs.map (fun x => (enc x).map fun _ => ()), s', wire) ∧
      ∀ r, rest r = wire → ∃ t r', readItems D R (acceptedOf enc msgs).length sD r =
        some ((acceptedOf enc msgs).map Prod.fst, t, r') ∧ rest r' = [] := by
  obtain ⟨s', h1, _⟩ := C95_send_partial (matched_emits hM) hA hm []
  refine ⟨s', _, h1, fun r hr => ?_⟩
  refine C42_messages_partial hM hD hR (msgs := acceptedOf enc msgs) ?_ (.inl ⟨rfl, rfl⟩) ?_ (.inl rfl)
  · intro m h
    simp only [acceptedOf, List.mem_filterMap] at h
    obtain ⟨x, hx, h⟩ := h
    cases he : enc x with
    | error k => rw [he] at h; cases h
    | ok b =>
      rw [he] at h
      cases h
      exact ⟨hm x hx, he⟩
  · rw [hr, List.nil_append, List.append_nil, bytesOfAll]
    clear hr h1 hm
    induction msgs with
    | nil => rfl
    | cons x xs ih =>
      simp only [acceptedOf, List.filterMap_cons, List.flatMap_cons]
      cases he : enc x with
      | error k => simpa [bytesOf, acceptedOf] using ih
      | ok b => simpa [bytesOf, acceptedOf] using ih

/-- Numbers of two bytes; 70000 is refused. -/
def exShort (n : Nat) : Except ErrorKind Bytes :=
  if n < 65536 then .ok [(n / 256).toUInt8, n.toUInt8] else .error .invalidInput

example : bytesOfAll exShort [5, 70000, 258] = [0, 5, 1, 2] ∧ acceptedOf exShort [5, 70000, 258] =
    [(5, [0, 5]), (258, [1, 2])] := by decide

example : ∃ s', sendEach (fixEncoder exShort).toEncoder vecWriter [5, 70000, 258] .new [] =
    some ([.ok (), .error .invalidInput, .ok ()], s', [0, 5, 1, 2]) ∧
      (fixEncoder exShort).toEncoder.isIdle s' = true :=
  C95_send_partial (always := true) (strict := false) (dom := fun _ => True) (enc := exShort)
    (C54_contract (.number exShort false)) (.number _) (by simp) []

/-- The same through `pre_encode`. -/
example : ∃ s', sendEach (preEncodeEncoder (fixEncoder exShort).toEncoder).toEncoder vecWriter [5, 70000, 258]
    (.new .new) [] = some ([.ok (), .error .invalidInput, .ok ()], s', [0, 5, 1, 2]) ∧
      (preEncodeEncoder (fixEncoder exShort).toEncoder).toEncoder.isIdle s' = true :=
  C95_preEncode_send_partial (always := true) (strict := false) (dom := fun _ => True) (enc := exShort)
    (C54_contract (.number exShort false)) (.number _) (by
      intro x hx
      refine ⟨trivial, fun b hb => ?_⟩
      unfold exShort at hb
      split at hb <;> cases hb
      simp) []

/-- A refusal while the earlier message is being written. -/
example : (preEncodeEncoder (fixEncoder exShort).toEncoder).toEncoder.start ⟨.new, ⟨some [0, 5], 1⟩⟩ 70000 =
    (.err .invalidInput, ⟨.new, ⟨some [0, 5], 1⟩⟩) := rfl

end Bytecodec.Props
