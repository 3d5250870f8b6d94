import Verif.Lemmas.Mux
import Verif.Lemmas.Numbers
/-!
# C85: many channels over one connection
-/
namespace Bytecodec.Props

open Bytecodec Bytecodec.Spec

variable {η θ : Type} {τ σ α : UInt8 → Type} {strictH : Bool} {strict : UInt8 → Bool}
  {HE : Encoder η (UInt8 × UInt16)} {sHE : η} {HD : Decoder θ (UInt8 × UInt16)} {sHD : θ}
  {domH : UInt8 × UInt16 → Prop} {encH : UInt8 × UInt16 → Except ErrorKind Bytes}
  {E : ∀ i, Encoder (τ i) (α i)} {sE : ∀ i, τ i} {D : ∀ i, Decoder (σ i) (α i)} {sD : ∀ i, σ i}
  {dom : ∀ i, α i → Prop} {enc : ∀ i, α i → Except ErrorKind Bytes}

private theorem sender (hH : Matched strictH true true HE sHE HD sHD domH encH)
    (hM : ∀ i, Matched (strict i) true true (E i) (sE i) (D i) (sD i) (dom i) (enc i))
    (hh : ∀ h, domH h ∧ ∃ b, encH h = .ok b ∧ b ≠ []) :
    ∃ (PH : η → Bytes → Prop) (P : ∀ i, τ i → Bytes → Prop), (∀ i, Codes (strict i) (E i) (P i) (dom i) (enc i)) ∧
      (∀ i, P i (sE i) []) ∧ ∀ ops : List (MuxOp α),
      (∀ i x, MuxOp.start i x ∈ ops → dom i x ∧ ∃ b, enc i x = .ok b ∧ b ≠ []) →
      ∃ s F, (MuxSender.new sHE sE).run HE E ops = some s ∧
        SendInv HE encH enc PH P (fun i x => dom i x ∧ ∃ b, enc i x = .ok b ∧ b ≠ []) s F := by
  obtain ⟨PH, hPH⟩ := writes_fresh (matched_writes hH)
  have hP := fun i => writes_fresh (matched_writes (hM i))
  refine ⟨PH, fun i => (hP i).choose, fun i => (hP i).choose_spec.1, fun i => (hP i).choose_spec.2.1, ?_⟩
  intro ops hop
  refine SendInv.run hPH.1 (fun i => (hP i).choose_spec.1) (fun h => ⟨(hh h).1, _, (hh h).2.choose_spec.1⟩)
    (fun i x hx => ⟨hx.1, _, hx.2.choose_spec.1⟩) ops hop (F := []) ?_
  exact ⟨hPH.2, rfl, by simp, by simp [MuxSender.new], fun i => ⟨[], rfl, (hP i).choose_spec.2.1⟩⟩

/-- C85: the sender never fails, whatever messages are handed over and whoever has the turns. -/
theorem C85_sends (hH : Matched strictH true true HE sHE HD sHD domH encH)
    (hM : ∀ i, Matched (strict i) true true (E i) (sE i) (D i) (sD i) (dom i) (enc i))
    (hh : ∀ h, domH h ∧ ∃ b, encH h = .ok b ∧ b ≠ []) (ops : List (MuxOp α))
    (hop : ∀ i x, MuxOp.start i x ∈ ops → dom i x ∧ ∃ b, enc i x = .ok b ∧ b ≠ []) :
    ∃ s, (MuxSender.new sHE sE).run HE E ops = some s := by
  obtain ⟨PH, P, _, _, h⟩ := sender hH hM hh
  obtain ⟨s, F, h1, _⟩ := h ops hop
  exact ⟨s, h1⟩

private theorem receiver (hH : Matched strictH true true HE sHE HD sHD domH encH)
    (hM : ∀ i, Matched (strict i) true true (E i) (sE i) (D i) (sD i) (dom i) (enc i))
    (hh : ∀ h, domH h ∧ ∃ b, encH h = .ok b ∧ b ≠ [])
    (hz : ∀ i, ∃ z b, dom i z ∧ enc i z = .ok b ∧ b ≠ []) {ops : List (MuxOp α)}
    (hop : ∀ i x, MuxOp.start i x ∈ ops → dom i x ∧ ∃ b, enc i x = .ok b ∧ b ≠ []) {s : MuxSender η τ α}
    (hs : (MuxSender.new sHE sE).run HE E ops = some s) {pieces : List Bytes} {R : Bytes}
    (hp : pieces.flatten ++ R = s.wire) :
    ∃ r, (MuxReceiver.new sHD sD).receiveAll HD D pieces = some r ∧ (∀ i, r.got i <+: s.sent i) ∧
      (R = [] → ∀ i, (sliceEncoder (E i)).isIdle (s.channels i) = true → r.got i = s.sent i) := by
  obtain ⟨PH, P, hP, _, hsend⟩ := sender hH hM hh
  obtain ⟨s', L, h1, hS⟩ := hsend ops hop
  rw [hs] at h1
  cases h1
  obtain ⟨IH, hIH, hIHs⟩ := streamable_splits (matched_streamable hH)
  obtain ⟨FH, hFHs, hFH⟩ := matched_reads hH
  have hI := fun i => streamable_splits (matched_streamable (hM i))
  have hF := fun i => matched_reads (hM i)
  have howed := hS.chan
  let z := fun i => (hz i).choose
  let after := fun i => (howed i).choose ++ bytesOf (enc i (z i))
  have hzi : ∀ i, dom i (z i) ∧ ∃ b, enc i (z i) = .ok b ∧ b ≠ [] := fun i =>
    let ⟨b, h1, h2, h3⟩ := (hz i).choose_spec
    ⟨h1, b, h2, h3⟩
  have S : MuxSetting HD D dom enc encH (fun i => s.sent i ++ [z i]) after true IH FH (fun _ => true)
      (fun i => (hI i).choose) (fun i => (hF i).choose) domH := by
    refine ⟨hIH, hFH, hh, fun i => (hI i).choose_spec.1, fun i => (hF i).choose_spec.2, ?_, ?_⟩
    · intro i x hx
      rw [List.mem_append, List.mem_singleton] at hx
      rcases hx with hx | rfl
      · exact hS.msgs i x hx
      · exact hzi i
    · intro i hnil
      obtain ⟨_, b, h2, h3⟩ := hzi i
      have := (List.append_eq_nil_iff.1 hnil).2
      rw [h2] at this
      exact h3 this
  have hnew : RecvInv HD D IH FH (fun i => (hI i).choose) (fun i => (hF i).choose) enc encH
      (fun i => s.sent i ++ [z i]) after (MuxReceiver.new sHD sD) (pieces.flatten ++ R) := by
    have hW : ∀ x, ∃ b, encH x = .ok b ∧ b ≠ [] ∧ Waits HD IH FH sHD x b := by
      intro x
      obtain ⟨hd, b, hb, hne⟩ := hh x
      exact ⟨b, hb, hne, waits_new hIH hFH ⟨hIHs, hFHs⟩ ⟨hd, hb⟩⟩
    refine .inl ⟨L, ⟨rfl, hS.short, ?_, ?_, ?_⟩, fun h0 => ?_⟩
    rotate_left 3
    · rw [hp, hS.wire] at h0
      cases L with
      | nil => rfl
      | cons f L' =>
        obtain ⟨b, hb, hne, _⟩ := hW (headOf f)
        rw [frames_cons, hb] at h0
        exact absurd (List.append_eq_nil_iff.1 h0).1 hne
    · intro i
      have hall : ∃ x more, s.sent i ++ [z i] = x :: more := by
        cases s.sent i with
        | nil => exact ⟨_, _, rfl⟩
        | cons x more => exact ⟨_, _, rfl⟩
      obtain ⟨x, more, hx⟩ := hall
      obtain ⟨hd, b, hb, hne⟩ := S.msgs i x (by simp only [hx]; simp)
      have hw := waits_new (hI i).choose_spec.1 (hF i).choose_spec.2 ⟨(hI i).choose_spec.2, (hF i).choose_spec.1⟩ ⟨hd, hb⟩
      refine ⟨x, b, more, ⟨hx, hw, hw.busy (hI i).choose_spec.1 hne, ?_⟩, hne⟩
      have h2 := (howed i).choose_spec.1
      show chan i L ++ ((howed i).choose ++ bytesOf (enc i (z i))) = b ++ bytesOfAll (enc i) more
      rw [← List.append_assoc, ← h2, ← bytesOfAll_snoc, hx, bytesOfAll_cons, hb]
      rfl
    · obtain ⟨b, _, hne, hw⟩ := hW (0, 0)
      exact hw.busy hIH hne
    · cases L with
      | nil =>
        obtain ⟨b, _, hne, hw⟩ := hW (0, 0)
        exact .inl ⟨rfl, by rw [hp, hS.wire]; rfl, _, b, hw, hne⟩
      | cons f L' =>
        obtain ⟨b, hb, hne, hw⟩ := hW (headOf f)
        refine .inr ⟨f, L', b, rfl, hw, ?_⟩
        rw [hp, hS.wire, frames_cons, hb]
        rfl
  obtain ⟨r, h2, hR⟩ := receive_all S pieces hnew
  refine ⟨r, h2, ?_, ?_⟩
  · intro i
    rcases hR with ⟨L, h, _⟩ | ⟨j, cur, L, x, rest, more, h, _⟩
    · obtain ⟨x, rest, more, hc, _⟩ := h.chans i
      exact hc.prefix
    · by_cases hj : j = i
      · subst hj; exact h.chan.prefix
      · obtain ⟨x, rest, more, hc, _⟩ := h.chans i hj
        exact hc.prefix
  · rintro rfl i hi
    have hnil : (howed i).choose = [] := (hP i).idle (howed i).choose_spec.2 hi
    have hafter : after i = bytesOf (enc i (z i)) := by
      show (howed i).choose ++ _ = _
      rw [hnil]; rfl
    rcases hR with ⟨L, h, hR0⟩ | ⟨j, cur, L, x, rest, more, h, _, hcur⟩
    · have hL := hR0 rfl
      subst hL
      obtain ⟨x, rest, more, hc, hr⟩ := h.chans i
      rw [hafter] at hc
      exact hc.done hr
    · have := h.bytes
      exact absurd (List.append_eq_nil_iff.1 this.symm).1 hcur

/-- C85: however the bytes written so far are cut on their way, and wherever they stop: the receiver does not fail,
and on every channel it has the first messages of that channel, in order. (The headers may have any format that is
delimited and not empty; every channel has its own codec, and its messages take at least one byte.) -/
theorem C85_in_order (hH : Matched strictH true true HE sHE HD sHD domH encH)
    (hM : ∀ i, Matched (strict i) true true (E i) (sE i) (D i) (sD i) (dom i) (enc i))
    (hh : ∀ h, domH h ∧ ∃ b, encH h = .ok b ∧ b ≠ []) (hz : ∀ i, ∃ z b, dom i z ∧ enc i z = .ok b ∧ b ≠ [])
    {ops : List (MuxOp α)}
    (hop : ∀ i x, MuxOp.start i x ∈ ops → dom i x ∧ ∃ b, enc i x = .ok b ∧ b ≠ []) {s : MuxSender η τ α}
    (hs : (MuxSender.new sHE sE).run HE E ops = some s) {pieces : List Bytes} (hp : pieces.flatten <+: s.wire) :
    ∃ r, (MuxReceiver.new sHD sD).receiveAll HD D pieces = some r ∧ ∀ i, r.got i <+: s.sent i := by
  obtain ⟨R, hR⟩ := hp
  obtain ⟨r, h1, h2, _⟩ := receiver hH hM hh hz hop hs hR
  exact ⟨r, h1, h2⟩

/-- C85: when all bytes written so far have arrived, every channel whose encoder is idle has all its messages, no
matter how far the other channels are. -/
theorem C85_complete (hH : Matched strictH true true HE sHE HD sHD domH encH)
    (hM : ∀ i, Matched (strict i) true true (E i) (sE i) (D i) (sD i) (dom i) (enc i))
    (hh : ∀ h, domH h ∧ ∃ b, encH h = .ok b ∧ b ≠ []) (hz : ∀ i, ∃ z b, dom i z ∧ enc i z = .ok b ∧ b ≠ [])
    {ops : List (MuxOp α)}
    (hop : ∀ i x, MuxOp.start i x ∈ ops → dom i x ∧ ∃ b, enc i x = .ok b ∧ b ≠ []) {s : MuxSender η τ α}
    (hs : (MuxSender.new sHE sE).run HE E ops = some s) {pieces : List Bytes} (hp : pieces.flatten = s.wire) :
    ∃ r, (MuxReceiver.new sHD sD).receiveAll HD D pieces = some r ∧
      ∀ i, (sliceEncoder (E i)).isIdle (s.channels i) = true → r.got i = s.sent i := by
  obtain ⟨r, h1, _, h2⟩ := receiver hH hM hh hz hop hs (R := []) (by rw [List.append_nil, hp])
  exact ⟨r, h1, h2 rfl⟩

/-- C85: no channel can be kept from its messages by the others. After any history, let channel `i` have one turn more
than there are bytes in its messages, however small the turns, and whatever the other channels do in between: then
all messages handed over on the channel have been sent, and the receiver has them once the bytes have arrived. -/
theorem C85_all_arrive (hH : Matched strictH true true HE sHE HD sHD domH encH)
    (hM : ∀ i, Matched (strict i) true true (E i) (sE i) (D i) (sD i) (dom i) (enc i))
    (hh : ∀ h, domH h ∧ ∃ b, encH h = .ok b ∧ b ≠ []) (hz : ∀ i, ∃ z b, dom i z ∧ enc i z = .ok b ∧ b ≠ [])
    {before ops : List (MuxOp α)}
    (hop : ∀ i x, MuxOp.start i x ∈ before ++ ops → dom i x ∧ ∃ b, enc i x = .ok b ∧ b ≠ []) {s s' : MuxSender η τ α}
    (hs : (MuxSender.new sHE sE).run HE E before = some s) (hs' : s.run HE E ops = some s') {i : UInt8}
    (hi : ∀ x, MuxOp.start i x ∉ ops)
    (hn : (bytesOfAll (enc i) (s.sent i)).length + 1 ≤ ops.countP fun op => op.serves i)
    {pieces : List Bytes} (hp : pieces.flatten = s'.wire) :
    ∃ r, (MuxReceiver.new sHD sD).receiveAll HD D pieces = some r ∧ r.got i = s.sent i := by
  obtain ⟨PH, P, hP, _, hsend⟩ := sender hH hM hh
  obtain ⟨t, L, h1, hS⟩ := hsend before (fun i x hx => hop i x (List.mem_append_left _ hx))
  rw [hs] at h1
  cases h1
  obtain ⟨owed, h2, h3⟩ := hS.chan i
  have hlen := congrArg List.length h2
  rw [List.length_append] at hlen
  obtain ⟨h4, h5⟩ := run_drains hP ops hi hs' h3 (.inr (by omega))
  have hrun : (MuxSender.new sHE sE).run HE E (before ++ ops) = some s' := by
    simp only [MuxSender.run, List.foldlM_append] at hs hs' ⊢
    rw [hs]
    exact hs'
  obtain ⟨r, h6, h7⟩ := C85_complete hH hM hh hz hop hrun hp
  exact ⟨r, h6, by rw [← h5]; exact h7 i h4⟩

/-- The header: the number of the channel in one byte, the length in two, big endian. -/
private theorem header_matched : Matched true true true
    (tupleEncoder2 u8Encoder.toEncoder u16beEncoder.toEncoder) (.new, .new)
    (tupleDecoder2 u8Decoder u16beDecoder) (fixInit 1, fixInit 2) (fun _ => True ∧ True)
    (fun x => .ok ([x.1] ++ writeBE 2 x.2.toNat)) := by
  refine .pair (.number true _ _ 1 ?_) (.number true _ _ 2 ?_)
  · rintro x bs h
    cases h
    exact ⟨rfl, rfl⟩
  · rintro x bs h
    cases h
    refine ⟨rfl, ?_⟩
    rw [readBE_eq, writeBE_eq, stored_layout, Nat.mod_eq_of_lt (show x.toNat < 256 ^ 2 from x.toNat_lt)]
    exact UInt16.ofNat_toNat

/-- Channel `i` has messages of `i + 1` bytes. After anything that may have happened before, enough turns of one byte
for channel 7 bring its messages to the receiver, also if the bytes arrive one by one. -/
example (before : List (MuxOp fun _ => Bytes)) (hb : ∀ i x, MuxOp.start i x ∈ before → x.length = i.toNat + 1) :
    let HE := tupleEncoder2 u8Encoder.toEncoder u16beEncoder.toEncoder
    let HD := tupleDecoder2 u8Decoder u16beDecoder
    let E : ∀ _ : UInt8, Encoder _ Bytes := fun _ => (bytesEncoder (id : Bytes → Bytes)).toEncoder
    let D : ∀ _ : UInt8, Decoder _ Bytes := fun _ => copyableBytesDecoder
    ∃ s s' : MuxSender _ _ (fun _ => Bytes), (MuxSender.new (.new, .new) (fun _ => .new)).run HE E before = some s ∧
      s.run HE E (List.replicate ((bytesOfAll (.ok) (s.sent 7)).length + 1) (.turn 7 1 1)) = some s' ∧
      ∃ r, (MuxReceiver.new (fixInit 1, fixInit 2) (fun i : UInt8 => CopyableState.new
          (List.replicate (i.toNat + 1) 0))).receiveAll HD D (s'.wire.map fun b => [b]) = some r ∧ r.got 7 = s.sent 7 := by
  intro HE HD E D
  have hM : ∀ i : UInt8, Matched true true true (E i) .new (D i) (.new (List.replicate (i.toNat + 1) 0))
      (fun x => x.length = (List.replicate (i.toNat + 1) (0 : UInt8)).length) .ok :=
    fun i => Matched.copyable true (List.replicate (i.toNat + 1) 0)
  have hh : ∀ h : UInt8 × UInt16, (True ∧ True) ∧ ∃ b, Except.ok ([h.1] ++ writeBE 2 h.2.toNat) =
      (Except.ok b : Except ErrorKind Bytes) ∧ b ≠ [] := fun h => ⟨⟨trivial, trivial⟩, _, rfl, by simp⟩
  have hz : ∀ i : UInt8, ∃ z b : Bytes, z.length = (List.replicate (i.toNat + 1) (0 : UInt8)).length ∧
      Except.ok z = (Except.ok b : Except ErrorKind Bytes) ∧ b ≠ [] :=
    fun i => ⟨List.replicate (i.toNat + 1) 0, _, rfl, rfl, by simp⟩
  have hb' : ∀ (n : Nat) (i : UInt8) (x : Bytes), MuxOp.start (α := fun _ => Bytes) i x ∈
      before ++ List.replicate n (.turn 7 1 1) →
      x.length = (List.replicate (i.toNat + 1) (0 : UInt8)).length ∧
        ∃ b : Bytes, Except.ok x = (Except.ok b : Except ErrorKind Bytes) ∧ b ≠ [] := by
    intro n i x hx
    rcases List.mem_append.1 hx with hx | hx
    · have := hb i x hx
      exact ⟨by simpa using this, x, rfl, by rintro rfl; cases this⟩
    · have := List.eq_of_mem_replicate hx
      cases this
  obtain ⟨s, hs⟩ := C85_sends header_matched hM hh before
    (fun i x hx => hb' 0 i x (List.mem_append_left _ hx))
  obtain ⟨s', hs'⟩ := C85_sends header_matched hM hh _ (hb' ((bytesOfAll (.ok) (s.sent 7)).length + 1))
  rw [MuxSender.run, List.foldlM_append] at hs'
  have hs0 := hs
  rw [MuxSender.run] at hs
  rw [hs] at hs'
  obtain ⟨r, h1, h2⟩ := C85_all_arrive header_matched hM hh hz (hb' _) hs0 hs' (i := 7)
    (fun x hx => by cases List.eq_of_mem_replicate hx)
    (by rw [List.countP_replicate]; exact Nat.le_refl _) (pieces := s'.wire.map fun b => [b])
    (by rw [← List.flatMap_def]; exact List.flatMap_singleton' _)
  exact ⟨s, s', hs0, hs', r, h1, h2⟩

end Bytecodec.Props
