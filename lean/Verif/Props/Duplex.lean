import Verif.Lemmas.DuplexPolls
import Verif.Props.Decoding
/-!
# C89: a client and a server as asynchronous tasks
-/
namespace Bytecodec.Props

open Bytecodec Bytecodec.Spec

/-- C89: `execute_io_poll` is `Ready` when nothing has arrived and there is nothing to write. A task must not poll
again just because it was `Ready`. -/
theorem C89_ready_idle (cap : Nat) (l : Endpoint) (r : ReadBuf) (w : WriteBuf) (hl : l.inc = [])
    (hr : r.tail < r.inner.length) (hw : w.isEmpty = true) :
    let io := (⟨l, r, w⟩ : BufferedIo Endpoint)
    let res := io.executeIoPoll (Endpoint.stream cap)
    res.1 = .ready (.ok ()) ∧ res.2.rbuf.content = r.content ∧ res.2.wbuf = w ∧ res.2.stream.inc = l.inc ∧
      res.2.stream.out = l.out := by
  have h1 : r.pollFill (Endpoint.stream cap).reader l =
      (.pending, { r with state := .wouldBlock }, { l with readWaker := true }) := by
    rw [ReadBuf.pollFill, dif_neg (by simp only [ReadBuf.isFull, beq_iff_eq]; omega), dif_neg (by omega)]
    simp [Endpoint.stream, hl]
  have h2 : ∀ l' : Endpoint, w.pollFlush (Endpoint.stream cap).writer l' = (.ready (.ok ()), w, l') := by
    intro l'
    rw [WriteBuf.pollFlush, dif_pos hw]
  simp [BufferedIo.executeIoPoll, h1, h2, ReadBuf.content]

/-- C89: with a full read buffer and no room in the connection, `execute_io_poll` is `Ready` without having moved a
byte, and `would_block` is `false`. A task that cannot decode now must look at the write buffer instead. -/
theorem C89_back_pressure (cap : Nat) (l : Endpoint) (r : ReadBuf) (w : WriteBuf) (hl : cap ≤ l.out.length)
    (hr : r.isFull = true) (hs : r.state.isWouldBlock = false) (hw : w.isEmpty = false)
    (hi : w.head ≤ w.tail ∧ w.tail ≤ w.inner.length) :
    let io := (⟨l, r, w⟩ : BufferedIo Endpoint)
    let res := io.executeIoPoll (Endpoint.stream cap)
    res.1 = .ready (.ok ()) ∧ res.2.wouldBlock = false ∧ res.2.rbuf = r ∧ res.2.wbuf.content = w.content ∧
      res.2.stream.inc = l.inc ∧ res.2.stream.out = l.out ∧ res.2.wbuf.state.isWouldBlock = true := by
  have h1 : r.pollFill (Endpoint.stream cap).reader l = (.ready (.ok ()), r, l) := by
    rw [ReadBuf.pollFill, dif_pos hr]
  have h2 : w.pollFlush (Endpoint.stream cap).writer l =
      (.pending, { w with state := .wouldBlock }, { l with writeWaker := true }) := by
    rw [WriteBuf.pollFlush, dif_neg (by simp [hw]), dif_neg (by omega)]
    simp [Endpoint.stream, hl]
  simp [BufferedIo.executeIoPoll, h1, h2, BufferedIo.wouldBlock, hs, WriteBuf.content]
  rfl

/-- C89: when nothing has arrived and what there is to write has no room, `execute_io_poll` is `Pending`, nothing has
moved, `would_block` is `true`, and both wake-ups are arranged for. -/
theorem C89_pending (cap : Nat) (l : Endpoint) (r : ReadBuf) (w : WriteBuf) (hi' : l.inc = [])
    (hl : cap ≤ l.out.length) (hr : r.tail < r.inner.length) (hw : w.isEmpty = false)
    (hi : w.head ≤ w.tail ∧ w.tail ≤ w.inner.length) :
    let io := (⟨l, r, w⟩ : BufferedIo Endpoint)
    let res := io.executeIoPoll (Endpoint.stream cap)
    res.1 = .pending ∧ res.2.wouldBlock = true ∧ res.2.rbuf.content = r.content ∧ res.2.wbuf.content = w.content ∧
      res.2.stream.inc = l.inc ∧ res.2.stream.out = l.out ∧ res.2.stream.readWaker = true ∧
      res.2.stream.writeWaker = true := by
  have h1 : r.pollFill (Endpoint.stream cap).reader l =
      (.pending, { r with state := .wouldBlock }, { l with readWaker := true }) := by
    rw [ReadBuf.pollFill, dif_neg (by simp only [ReadBuf.isFull, beq_iff_eq]; omega), dif_neg (by omega)]
    simp [Endpoint.stream, hi']
  have h2 : w.pollFlush (Endpoint.stream cap).writer { l with readWaker := true } =
      (.pending, { w with state := .wouldBlock }, { l with readWaker := true, writeWaker := true }) := by
    rw [WriteBuf.pollFlush, dif_neg (by simp [hw]), dif_neg (by omega)]
    simp [Endpoint.stream, hl]
  simp [BufferedIo.executeIoPoll, h1, h2, BufferedIo.wouldBlock, ReadBuf.content, WriteBuf.content]
  exact ⟨rfl, .inr rfl⟩

/-! ## Two tasks and a connection -/

variable {τ σ τ' σ' α β : Type} {strict strict' : Bool} {E : Encoder τ α} {sE : τ} {D : Decoder σ α} {sD : σ}
  {dom : α → Prop} {enc : α → Except ErrorKind Bytes} {E' : Encoder τ' β} {sE' : τ'} {D' : Decoder σ' β} {sD' : σ'}
  {dom' : β → Prop} {enc' : β → Except ErrorKind Bytes} {answer : α → β} {cap : Nat} {reqs : List α}
  {store₁ store₂ store₃ store₄ : Bytes} {sizes : Nat → Nat} {k w : Nat} {t : Duplex τ σ τ' σ' α β}

/-- C89: no call fails in either task; the server has taken the first requests, in order; the client has the answers
to the first of them, in order. -/
theorem C89_in_order (hM : Matched strict true true E sE D sD dom enc)
    (hM' : Matched strict' true true E' sE' D' sD' dom' enc') (hS : SafeFrom D sD) (hS' : SafeFrom D' sD')
    (h₁ : store₁ ≠ []) (h₂ : store₂ ≠ []) (h₃ : store₃ ≠ []) (h₄ : store₄ ≠ [])
    (hn₂ : store₂.length < 2 ^ 64) (hn₃ : store₃.length < 2 ^ 64)
    (hm : ∀ x ∈ reqs, dom x ∧ ∃ b, enc x = .ok b)
    (ha : ∀ x ∈ reqs, dom' (answer x) ∧ ∃ b, enc' (answer x) = .ok b)
    (hz : ∃ z b, dom z ∧ enc z = .ok b ∧ b ≠ []) (hz' : ∃ z b, dom' z ∧ enc' z = .ok b ∧ b ≠ [])
    (h : Polls E D E' D' answer cap (.new sE sD sE' sD' store₁ store₂ store₃ store₄ sizes reqs) k w t) :
    t.s.failed = false ∧ t.s.handled <+: reqs ∧ t.s.got <+: t.s.handled.map answer := by
  have hl : ∀ {s : Bytes}, s ≠ [] → 0 < s.length := List.length_pos_iff.2
  have S : Setting strict strict' E sE D sD dom enc E' sE' D' sD' dom' enc' answer store₁.length store₂.length
    store₃.length store₄.length reqs := ⟨hM, hM', hS, hS', hl h₁, hl h₂, hl h₃, hl h₄, hn₂, hn₃, hm, ha, hz, hz'⟩
  obtain ⟨_, _, ⟨sent, _, _, _, _, hI, _⟩, _⟩ := duplex_at S rfl rfl rfl rfl h
  exact ⟨hI.ok, hI.got₁.trans ⟨_, hI.split.symm⟩, hI.got₂⟩

/-- C89: the tasks never stall: when neither of them can run any more, the client has all the answers. -/
theorem C89_no_stall (hM : Matched strict true true E sE D sD dom enc)
    (hM' : Matched strict' true true E' sE' D' sD' dom' enc') (hS : SafeFrom D sD) (hS' : SafeFrom D' sD')
    (h₁ : store₁ ≠ []) (h₂ : store₂ ≠ []) (h₃ : store₃ ≠ []) (h₄ : store₄ ≠ []) (hcap : 0 < cap)
    (hn₂ : store₂.length < 2 ^ 64) (hn₃ : store₃.length < 2 ^ 64)
    (hm : ∀ x ∈ reqs, dom x ∧ ∃ b, enc x = .ok b)
    (ha : ∀ x ∈ reqs, dom' (answer x) ∧ ∃ b, enc' (answer x) = .ok b)
    (hz : ∃ z b, dom z ∧ enc z = .ok b ∧ b ≠ []) (hz' : ∃ z b, dom' z ∧ enc' z = .ok b ∧ b ≠ [])
    (h : Polls E D E' D' answer cap (.new sE sD sE' sD' store₁ store₂ store₃ store₄ sizes reqs) k w t)
    (hc : ¬ t.clientReady) (hs : ¬ t.serverReady) : t.s.got = reqs.map answer := by
  have hl : ∀ {s : Bytes}, s ≠ [] → 0 < s.length := List.length_pos_iff.2
  have S : Setting strict strict' E sE D sD dom enc E' sE' D' sD' dom' enc' answer store₁.length store₂.length
    store₃.length store₄.length reqs := ⟨hM, hM', hS, hS', hl h₁, hl h₂, hl h₃, hl h₄, hn₂, hn₃, hm, ha, hz, hz'⟩
  obtain ⟨c, d, ⟨sent, pos₁, em₁, pos₂, em₂, hI, rfl, rfl⟩, _, h3, h4, _⟩ := duplex_at S rfl rfl rfl rfl h
  have g1 := hI.got₂.length_le
  have g2 := hI.got₁.length_le
  have g3 := congrArg List.length hI.split
  simp only [List.length_append, List.length_map] at g1 g3
  have hgot : reqs.length ≤ t.s.got.length := by
    by_cases hw : t.s.got.length < t.s.want
    · have hc' : t.clientRuns = false := by
        cases hx : t.clientRuns with
        | false => rfl
        | true => exact absurd ⟨hx, hw, hI.ok⟩ hc
      have hs' : t.serverRuns = false := by
        cases hx : t.serverRuns with
        | false => rfl
        | true => exact absurd ⟨hx, hI.ok⟩ hs
      have := stuck_done hcap (by simp [cnt₁, cnt₂, cnt]) (h3 hc').stuck (h4 hs').stuck
      simp only [cnt₂, cnt] at this
      omega
    · rw [hI.want] at hw
      omega
  have hh : t.s.handled = reqs := (hI.got₁.trans ⟨_, hI.split.symm⟩).eq_of_length (by omega)
  rw [hI.got₂.eq_of_length (by simp only [List.length_map]; omega), hh]

/-- C89: the tasks do not spin either: the number of rounds is bounded by the sizes of the requests and the answers,
whatever the executor does. Each spurious wake-up may add one. -/
theorem C89_bound (hM : Matched strict true true E sE D sD dom enc)
    (hM' : Matched strict' true true E' sE' D' sD' dom' enc') (hS : SafeFrom D sD) (hS' : SafeFrom D' sD')
    (h₁ : store₁ ≠ []) (h₂ : store₂ ≠ []) (h₃ : store₃ ≠ []) (h₄ : store₄ ≠ [])
    (hn₂ : store₂.length < 2 ^ 64) (hn₃ : store₃.length < 2 ^ 64)
    (hm : ∀ x ∈ reqs, dom x ∧ ∃ b, enc x = .ok b)
    (ha : ∀ x ∈ reqs, dom' (answer x) ∧ ∃ b, enc' (answer x) = .ok b)
    (hz : ∃ z b, dom z ∧ enc z = .ok b ∧ b ≠ []) (hz' : ∃ z b, dom' z ∧ enc' z = .ok b ∧ b ≠ [])
    (h : Polls E D E' D' answer cap (.new sE sD sE' sD' store₁ store₂ store₃ store₄ sizes reqs) k w t) :
    k ≤ 8 * ((bytesOfAll enc reqs).length + (bytesOfAll enc' (reqs.map answer)).length + reqs.length) + 2 + w := by
  have hl : ∀ {s : Bytes}, s ≠ [] → 0 < s.length := List.length_pos_iff.2
  have S : Setting strict strict' E sE D sD dom enc E' sE' D' sD' dom' enc' answer store₁.length store₂.length
    store₃.length store₄.length reqs := ⟨hM, hM', hS, hS', hl h₁, hl h₂, hl h₃, hl h₄, hn₂, hn₃, hm, ha, hz, hz'⟩
  obtain ⟨c, d, ⟨sent, pos₁, em₁, pos₂, em₂, hI, rfl, rfl⟩, _, _, _, h5⟩ := duplex_at S rfl rfl rfl rfl h
  have hb := hI.bounds (matched_emits hM) (matched_emits hM')
  have g1 := hI.got₂.length_le
  have g2 := hI.got₁.length_le
  have g3 := congrArg List.length hI.split
  simp only [List.length_append, List.length_map] at g1 g3
  omega

/-- C89: a task sleeps only when it has nothing to do. A client that sleeps has read and decoded every byte that was
sent to it, and has nothing to write or no room to write it. A server that sleeps has nothing to write or no room to
write it, and if its encoder is idle, it has read and decoded every byte that was sent to it. -/
theorem C89_prompt (hM : Matched strict true true E sE D sD dom enc)
    (hM' : Matched strict' true true E' sE' D' sD' dom' enc') (hS : SafeFrom D sD) (hS' : SafeFrom D' sD')
    (h₁ : store₁ ≠ []) (h₂ : store₂ ≠ []) (h₃ : store₃ ≠ []) (h₄ : store₄ ≠ [])
    (hn₂ : store₂.length < 2 ^ 64) (hn₃ : store₃.length < 2 ^ 64)
    (hm : ∀ x ∈ reqs, dom x ∧ ∃ b, enc x = .ok b)
    (ha : ∀ x ∈ reqs, dom' (answer x) ∧ ∃ b, enc' (answer x) = .ok b)
    (hz : ∃ z b, dom z ∧ enc z = .ok b ∧ b ≠ []) (hz' : ∃ z b, dom' z ∧ enc' z = .ok b ∧ b ≠ [])
    (h : Polls E D E' D' answer cap (.new sE sD sE' sD' store₁ store₂ store₃ store₄ sizes reqs) k w t) :
    (t.clientRuns = false → t.s.toClient = [] ∧ t.s.clientR.isEmpty = true ∧
      (t.s.clientW.isEmpty = true ∧ E.isIdle t.s.clientEnc = true ∧ t.s.todo = [] ∨ cap ≤ t.s.toServer.length)) ∧
    (t.serverRuns = false →
      (E'.isIdle t.s.serverEnc = true → t.s.toServer = [] ∧ t.s.serverR.isEmpty = true) ∧
      (t.s.serverW.isEmpty = true ∧ E'.isIdle t.s.serverEnc = true ∨ cap ≤ t.s.toClient.length)) := by
  have hl : ∀ {s : Bytes}, s ≠ [] → 0 < s.length := List.length_pos_iff.2
  have S : Setting strict strict' E sE D sD dom enc E' sE' D' sD' dom' enc' answer store₁.length store₂.length
    store₃.length store₄.length reqs := ⟨hM, hM', hS, hS', hl h₁, hl h₂, hl h₃, hl h₄, hn₂, hn₃, hm, ha, hz, hz'⟩
  obtain ⟨c, d, ⟨sent, pos₁, em₁, pos₂, em₂, hI, rfl, rfl⟩, _, h3, h4, _⟩ := duplex_at S rfl rfl rfl rfl h
  have f1 := hI.p₁.emLength
  have f2 := hI.p₂.emLength
  simp only at f1 f2
  have hre : ∀ {r : ReadBuf}, r.Inv → r.content.length = 0 → r.isEmpty = true := by
    intro r hr hc
    have := ReadBuf.content_nil hr (List.length_eq_zero_iff.mp hc)
    simp [ReadBuf.isEmpty, this]
  have hwe : ∀ {w : WriteBuf}, w.Inv → w.content.length = 0 → w.isEmpty = true := by
    intro w hw hc
    exact (WriteBuf.isEmpty_content hw).mpr (List.length_eq_zero_iff.mp hc)
  constructor
  · intro hr
    obtain ⟨⟨k1, k2, k3, k4, k5, _⟩, _, _⟩ := h3 hr
    simp only [cnt₁, cnt₂, cnt, owed₁, hI.taken.1] at k1 k2 k3 k4 k5
    refine ⟨List.length_eq_zero_iff.mp (by omega), hre hI.p₂.r (by omega), ?_⟩
    rcases k3 with k3 | k3
    · left
      have k6 := k4 k3
      have k7 := congrArg List.length hI.split
      rw [List.length_append, ← k5 k6] at k7
      exact ⟨hwe hI.p₁.w (by omega), hI.idle₁.mpr k6, List.length_eq_zero_iff.mp (by omega)⟩
    · right
      omega
  · intro hr
    obtain ⟨⟨k1, k2, k3, _⟩, _, _⟩ := h4 hr
    simp only [cnt₁, cnt₂, cnt, owed₂, List.length_map, hI.taken.2] at k1 k2 k3
    refine ⟨fun hi => ?_, ?_⟩
    · obtain ⟨k4, k5⟩ := k3 (hI.idle₂.mp hi)
      exact ⟨List.length_eq_zero_iff.mp (by omega), hre hI.p₁.r (by omega)⟩
    · rcases k1 with k1 | k1
      · exact .inl ⟨hwe hI.p₂.w (by omega), hI.idle₂.mpr (k2 k1)⟩
      · right
        omega

/-- C89: there are executions that come to an end; by `C89_bound` all of them do. -/
theorem C89_ends (hM : Matched strict true true E sE D sD dom enc)
    (hM' : Matched strict' true true E' sE' D' sD' dom' enc') (hS : SafeFrom D sD) (hS' : SafeFrom D' sD')
    (h₁ : store₁ ≠ []) (h₂ : store₂ ≠ []) (h₃ : store₃ ≠ []) (h₄ : store₄ ≠ []) (hcap : 0 < cap)
    (hn₂ : store₂.length < 2 ^ 64) (hn₃ : store₃.length < 2 ^ 64)
    (hm : ∀ x ∈ reqs, dom x ∧ ∃ b, enc x = .ok b)
    (ha : ∀ x ∈ reqs, dom' (answer x) ∧ ∃ b, enc' (answer x) = .ok b)
    (hz : ∃ z b, dom z ∧ enc z = .ok b ∧ b ≠ []) (hz' : ∃ z b, dom' z ∧ enc' z = .ok b ∧ b ≠ []) (sizes : Nat → Nat) :
    ∃ k t, Polls E D E' D' answer cap (.new sE sD sE' sD' store₁ store₂ store₃ store₄ sizes reqs) k 0 t ∧
      t.s.got = reqs.map answer := by
  have key : ∀ n, (∃ k t, Polls E D E' D' answer cap (.new sE sD sE' sD' store₁ store₂ store₃ store₄ sizes reqs) k 0 t ∧
      ¬ t.clientReady ∧ ¬ t.serverReady) ∨
      ∃ t, Polls E D E' D' answer cap (.new sE sD sE' sD' store₁ store₂ store₃ store₄ sizes reqs) n 0 t := by
    intro n
    induction n with
    | zero => exact .inr ⟨_, .new⟩
    | succ n ih =>
      rcases ih with ih | ⟨t, ht⟩
      · exact .inl ih
      · by_cases h1 : t.clientReady
        · exact .inr ⟨_, .client ht h1⟩
        · by_cases h2 : t.serverReady
          · exact .inr ⟨_, .server ht h2⟩
          · exact .inl ⟨n, t, ht, h1, h2⟩
  rcases key (8 * ((bytesOfAll enc reqs).length + (bytesOfAll enc' (reqs.map answer)).length + reqs.length) + 2 + 1)
    with ⟨k, t, h, hc, hs⟩ | ⟨t, h⟩
  · exact ⟨k, t, h, C89_no_stall hM hM' hS hS' h₁ h₂ h₃ h₄ hcap hn₂ hn₃ hm ha hz hz' h hc hs⟩
  · have := C89_bound hM hM' hS hS' h₁ h₂ h₃ h₄ hn₂ hn₃ hm ha hz hz' h
    omega

/-- Requests and answers of two bytes, all buffers and the connection of one byte, any splitting. -/
example (sizes : Nat → Nat) (reqs : List Bytes) (hr : ∀ x ∈ reqs, x.length = 2) :
    ∃ k t, Polls (bytesEncoder (id : Bytes → Bytes)).toEncoder copyableBytesDecoder
      (bytesEncoder (id : Bytes → Bytes)).toEncoder copyableBytesDecoder List.reverse 1
      (.new .new (.new [0, 0]) .new (.new [0, 0]) [0] [0] [0] [0] sizes reqs) k 0 t ∧
      t.s.got = reqs.map List.reverse :=
  C89_ends (Matched.copyable true [0, 0]) (Matched.copyable true [0, 0])
    (C05_safe (.copyable _ trivial)) (C05_safe (.copyable _ trivial))
    (by decide) (by decide) (by decide) (by decide) (by decide) (by decide) (by decide)
    (fun x hx => ⟨hr x hx, _, rfl⟩) (fun x hx => ⟨by simpa using hr x hx, _, rfl⟩)
    ⟨[1, 1], [1, 1], rfl, rfl, by decide⟩ ⟨[1, 1], [1, 1], rfl, rfl, by decide⟩ sizes

/-- The situation of `C89_back_pressure`. -/
example : let io := (⟨⟨[5], [6], fun _ => 0, false, false, false, false, false⟩, ⟨[1], 0, 1, .normal⟩,
      ⟨[2], 0, 1, .normal, none, []⟩⟩ : BufferedIo Endpoint)
    (io.executeIoPoll (Endpoint.stream 1)).1 = .ready (.ok ()) ∧
      (io.executeIoPoll (Endpoint.stream 1)).2.wouldBlock = false :=
  have h := C89_back_pressure 1 ⟨[5], [6], fun _ => 0, false, false, false, false, false⟩ ⟨[1], 0, 1, .normal⟩
    ⟨[2], 0, 1, .normal, none, []⟩ (by decide) rfl rfl rfl (by decide)
  ⟨h.1, h.2.1⟩

/-- The situation of `C89_pending`. -/
example : let io := (⟨⟨[], [6], fun _ => 0, false, false, false, false, false⟩, ⟨[1, 0], 0, 1, .normal⟩,
      ⟨[2], 0, 1, .normal, none, []⟩⟩ : BufferedIo Endpoint)
    (io.executeIoPoll (Endpoint.stream 1)).1 = .pending :=
  (C89_pending 1 ⟨[], [6], fun _ => 0, false, false, false, false, false⟩ ⟨[1, 0], 0, 1, .normal⟩
    ⟨[2], 0, 1, .normal, none, []⟩ rfl (by decide) (by decide) rfl (by decide)).1

end Bytecodec.Props
