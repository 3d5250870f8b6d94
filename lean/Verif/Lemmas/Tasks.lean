import Verif.Lemmas.Pipeline
import Verif.Spec.Tasks
/-!
# Lemmas: two tasks joined by a channel
-/
namespace Bytecodec
open Spec

variable {σ τ α : Type}

/-! ## `poll_flush` and `poll_fill` over the channel -/

/-- What `poll_flush` does over the channel: it moves `k` bytes. -/
structure Flushed (cap : Nat) (b : WriteBuf) (c : Channel) (p : Poll (Res Unit)) (b' : WriteBuf) (c' : Channel)
    (k : Nat) : Prop where
  le : k ≤ b.content.length
  inv : b'.Inv
  storage : b'.inner.length = b.inner.length
  content : b'.content = b.content.drop k
  wire : c'.wire = c.wire ++ b.content.take k
  closed : c'.closed = c.closed
  sendRuns : c'.sendRuns = c.sendRuns
  writeWaker : p ≠ .pending → c'.writeWaker = c.writeWaker
  same : k = 0 → c'.recvRuns = c.recvRuns ∧ c'.readWaker = c.readWaker
  woken : 0 < k → c'.recvRuns = (c.recvRuns || c.readWaker) ∧ c'.readWaker = false
  state : b.state.isEos = false → b'.state.isEos = false
  pending : p = .pending → c'.writeWaker = true ∧ cap ≤ c'.wire.length
  ready : p ≠ .pending → p = .ready (.ok ()) ∧ b'.content = []

theorem WriteBuf.isEmpty_content {b : WriteBuf} (h : b.Inv) : b.isEmpty = true ↔ b.content = [] :=
  (WriteBuf.content_nil h).symm

theorem chan_pollFlush (cap : Nat) (b : WriteBuf) (c : Channel) (h : b.Inv) :
    ∃ k, Flushed cap b c (b.pollFlush (Channel.writer cap) c).1 (b.pollFlush (Channel.writer cap) c).2.1
      (b.pollFlush (Channel.writer cap) c).2.2 k := by
  induction b, c using WriteBuf.pollFlush.induct (Channel.writer cap) with
  | case1 b c h1 =>
    rw [WriteBuf.pollFlush, dif_pos h1]
    have hc := (WriteBuf.content_nil h).mpr h1
    exact ⟨0, Nat.zero_le _, h, rfl, rfl, by simp, rfl, rfl, fun _ => rfl, fun _ => ⟨rfl, rfl⟩,
      fun hk => absurd hk (by omega), id, fun hp => (by cases hp), fun _ => ⟨rfl, hc⟩⟩
  | case2 b c h1 h2 => exact absurd h2 (by have := h.le; have := h.cap; omega)
  | case3 b c h1 h2 k w' hw =>
    exfalso
    simp only [Channel.writer] at hw
    split at hw <;> cases hw
  | case4 b c h1 h2 w' hw =>
    exfalso
    simp only [Channel.writer] at hw
    split at hw
    · cases hw
    · have hne : b.content ≠ [] := fun hn => h1 ((WriteBuf.content_nil h).mp hn)
      have hlen : 0 < b.content.length := List.length_pos_iff.mpr hne
      simp only [WriteBuf.content] at hlen
      simp only [Prod.mk.injEq, Poll.ready.injEq, WriteRes.wrote.injEq] at hw
      omega
  | case5 b c h1 h2 n w' hw ih =>
    rw [WriteBuf.pollFlush, dif_neg h1, dif_neg h2, hw]
    simp only [Channel.writer] at hw
    split at hw
    · cases hw
    · next hroom =>
      simp only [Prod.mk.injEq, Poll.ready.injEq, WriteRes.wrote.injEq] at hw
      obtain ⟨hn, rfl⟩ := hw
      have hcl := b.content_length h
      have hle : n + 1 ≤ b.content.length := by simp only [WriteBuf.content]; omega
      have hInv0 : ({ b with state := .normal } : WriteBuf).Inv := ⟨h.le, h.cap, h.zero⟩
      obtain ⟨g1, g2, g3, _, _, g6⟩ := WriteBuf.consume_spec hInv0 (n := n + 1) (by
        have : ({ b with state := .normal } : WriteBuf).len = b.len := rfl
        omega)
      obtain ⟨k, f⟩ := ih g1
      have hcont : ({ b with state := .normal } : WriteBuf).content = b.content := rfl
      rw [hcont] at g2
      have hfl := f.le
      rw [g2, List.length_drop] at hfl
      refine ⟨n + 1 + k, by omega, f.inv, by rw [f.storage, g3], ?_, ?_, f.closed, f.sendRuns, f.writeWaker,
        fun hk => by omega, fun _ => ?_, fun _ => f.state (by rw [g6]; rfl), f.pending, f.ready⟩
      · rw [f.content, g2, List.drop_drop]
      · rw [f.wire, g2, hn, List.append_assoc]
        congr 1
        rw [List.take_add]
        rfl
      · by_cases hk : k = 0
        · obtain ⟨e1, e2⟩ := f.same hk
          exact ⟨e1, e2⟩
        · obtain ⟨e1, e2⟩ := f.woken (by omega)
          exact ⟨by rw [e1]; simp, e2⟩
  | case6 b c h1 h2 w' hw =>
    rw [WriteBuf.pollFlush, dif_neg h1, dif_neg h2, hw]
    simp only [Channel.writer] at hw
    split at hw
    · next hfull =>
      cases hw
      exact ⟨0, Nat.zero_le _, ⟨h.le, h.cap, h.zero⟩, rfl, rfl, by simp, rfl, rfl, fun hp => absurd rfl hp,
        fun _ => ⟨rfl, rfl⟩, fun hk => absurd hk (by omega), fun _ => rfl, fun _ => ⟨rfl, hfull⟩,
        fun hp => absurd rfl hp⟩
    · cases hw

/-- What `poll_fill` does over the channel: it moves `k` bytes. -/
structure Filled (b : ReadBuf) (c : Channel) (p : Poll (Res Unit)) (b' : ReadBuf) (c' : Channel)
    (k : Nat) : Prop where
  le : k ≤ c.wire.length
  inv : b'.Inv
  storage : b'.inner.length = b.inner.length
  content : b'.content = b.content ++ c.wire.take k
  wire : c'.wire = c.wire.drop k
  closed : c'.closed = c.closed
  recvRuns : c'.recvRuns = c.recvRuns
  readWaker : p ≠ .pending → c'.readWaker = c.readWaker
  same : k = 0 → c'.sendRuns = c.sendRuns ∧ c'.writeWaker = c.writeWaker
  woken : 0 < k → c'.sendRuns = (c.sendRuns || c.writeWaker) ∧ c'.writeWaker = false
  eos : b'.state.isEos = true → (b.state.isEos = true ∧ k = 0) ∨ (c'.closed = true ∧ c'.wire = [])
  pending : p = .pending → c'.readWaker = true ∧ c'.wire = [] ∧ c'.closed = false
  ready : p ≠ .pending → p = .ready (.ok ()) ∧
    (b'.isFull = true ∨ (c'.closed = true ∧ c'.wire = [] ∧ b'.state.isEos = true))

theorem chan_pollFill (b : ReadBuf) (c : Channel) (h : b.Inv) :
    ∃ k, Filled b c (b.pollFill Channel.reader c).1 (b.pollFill Channel.reader c).2.1
      (b.pollFill Channel.reader c).2.2 k := by
  induction b, c using ReadBuf.pollFill.induct Channel.reader with
  | case1 b c h1 =>
    rw [ReadBuf.pollFill, dif_pos h1]
    exact ⟨0, Nat.zero_le _, h, rfl, by simp, rfl, rfl, rfl, fun _ => rfl, fun _ => ⟨rfl, rfl⟩,
      fun hk => absurd hk (by omega), fun he => .inl ⟨he, rfl⟩, fun hp => (by cases hp), fun _ => ⟨rfl, .inl h1⟩⟩
  | case2 b c h1 h2 => exact absurd h2 (by have := h.cap; omega)
  | case3 b c h1 h2 r' hr =>
    rw [ReadBuf.pollFill, dif_neg h1, dif_neg h2, hr]
    simp only [Channel.reader] at hr
    split at hr
    · next hw =>
      split at hr
      · cases hr
      · next hc =>
        cases hr
        exact ⟨0, Nat.zero_le _, ⟨h.le, h.cap, h.zero⟩, rfl, by simp [ReadBuf.content], rfl, rfl, rfl,
          fun hp => absurd rfl hp, fun _ => ⟨rfl, rfl⟩, fun hk => absurd hk (by omega),
          fun he => (by cases he), fun _ => ⟨rfl, hw, by simpa using hc⟩, fun hp => absurd rfl hp⟩
    · cases hr
  | case4 b c h1 h2 r' hr =>
    rw [ReadBuf.pollFill, dif_neg h1, dif_neg h2, hr]
    simp only [Channel.reader] at hr
    split at hr
    · next hw =>
      split at hr
      · next hc =>
        cases hr
        exact ⟨0, Nat.zero_le _, ⟨h.le, h.cap, h.zero⟩, rfl, by simp [ReadBuf.content], rfl, rfl, rfl,
          fun _ => rfl, fun _ => ⟨rfl, rfl⟩, fun hk => absurd hk (by omega),
          fun _ => .inr ⟨hc, hw⟩, fun hp => (by cases hp), fun _ => ⟨rfl, .inr ⟨hc, hw, rfl⟩⟩⟩
      · cases hr
    · next hw =>
      exfalso
      simp only [Prod.mk.injEq, Poll.ready.injEq, ReadRes.data.injEq] at hr
      have hl := congrArg List.length hr.1
      have := List.length_pos_iff.mpr hw
      have h3 : ¬ b.tail = b.inner.length := by simpa [ReadBuf.isFull] using h1
      simp only [List.length_take, List.length_nil] at hl
      omega
  | case5 b c h1 h2 x xs r' hr ih =>
    rw [ReadBuf.pollFill, dif_neg h1, dif_neg h2, hr]
    simp only
    simp only [Channel.reader] at hr
    split at hr
    · split at hr <;> cases hr
    · next hw =>
      simp only [Prod.mk.injEq, Poll.ready.injEq, ReadRes.data.injEq] at hr
      obtain ⟨hx, rfl⟩ := hr
      have hlen := congrArg List.length hx
      have hcap := h.cap
      simp only [List.length_take] at hlen
      have hxl : (x :: xs).length ≤ b.inner.length - b.tail := by omega
      have htake : (x :: xs).take (b.inner.length - b.tail) = x :: xs := List.take_of_length_le hxl
      rw [htake] at ih ⊢
      have hsl := splice_len (inner := b.inner) (src := x :: xs) (tail := b.tail) (by omega)
      have hle := h.le
      have hInv : (⟨splice b.inner b.tail (x :: xs), b.head, b.tail + (x :: xs).length, .normal⟩ : ReadBuf).Inv := by
        refine ⟨?_, ?_, ?_⟩
        · simp only; omega
        · simp only [hsl]; omega
        · simp only [List.length_cons]; omega
      have hcont : (⟨splice b.inner b.tail (x :: xs), b.head, b.tail + (x :: xs).length, .normal⟩ : ReadBuf).content = b.content ++ (x :: xs) := by
        simp only [ReadBuf.content]
        exact splice_take_drop h.le (by omega)
      obtain ⟨k, f⟩ := ih hInv
      have hfl := f.le
      simp only [List.length_drop] at hfl
      have e1 : x :: xs = c.wire.take (x :: xs).length := by
        rw [← hlen, ← List.take_eq_take_min]
        exact hx.symm
      have e2 : c.wire.drop (min (b.inner.length - b.tail) (c.sizes 0 + 1)) = c.wire.drop (x :: xs).length := by
        rw [← hlen]
        generalize min (b.inner.length - b.tail) (c.sizes 0 + 1) = m
        by_cases hq : m ≤ c.wire.length
        · rw [Nat.min_eq_left hq]
        · rw [Nat.min_eq_right (by omega), List.drop_length]
          exact List.drop_eq_nil_of_le (by omega)
      refine ⟨(x :: xs).length + k, by omega, f.inv, by rw [f.storage]; exact hsl, ?_, ?_, f.closed, f.recvRuns,
        f.readWaker, fun hk => by simp only [List.length_cons] at hk; omega, fun _ => ?_, fun he => ?_, f.pending,
        f.ready⟩
      · rw [f.content, hcont, List.append_assoc, List.take_add, ← e1]
        simp only [e2]
      · rw [f.wire]
        simp only [e2, List.drop_drop]
      · by_cases hk : k = 0
        · obtain ⟨e1, e2⟩ := f.same hk
          exact ⟨e1, e2⟩
        · obtain ⟨e1, e2⟩ := f.woken (by omega)
          exact ⟨by rw [e1]; simp, e2⟩
      · rcases f.eos he with ⟨he, _⟩ | he
        · cases he
        · exact .inr he
  | case6 b c h1 h2 k r' hr =>
    exfalso
    simp only [Channel.reader] at hr
    split at hr
    · split at hr <;> cases hr
    · cases hr

/-! ## Wakers -/

theorem pollFill_armed {ρ : Type} {R : AsyncReader ρ} {armed : ρ → Prop}
    (hR : ∀ {s n s'}, R.pollRead s n = (.pending, s') → armed s') (b : ReadBuf) (s : ρ)
    (h : (b.pollFill R s).1 = .pending) : armed (b.pollFill R s).2.2 := by
  induction b, s using ReadBuf.pollFill.induct R with
  | case1 b s h1 => rw [ReadBuf.pollFill, dif_pos h1] at h; cases h
  | case2 b s h1 h2 => rw [ReadBuf.pollFill, dif_neg h1, dif_pos h2] at h; cases h
  | case3 b s h1 h2 s' hr =>
    rw [ReadBuf.pollFill, dif_neg h1, dif_neg h2, hr]
    exact hR hr
  | case4 b s h1 h2 s' hr => rw [ReadBuf.pollFill, dif_neg h1, dif_neg h2, hr] at h; cases h
  | case5 b s h1 h2 x xs s' hr ih =>
    rw [ReadBuf.pollFill, dif_neg h1, dif_neg h2, hr] at h ⊢
    exact ih h
  | case6 b s h1 h2 k s' hr => rw [ReadBuf.pollFill, dif_neg h1, dif_neg h2, hr] at h; cases h

theorem pollFlush_armed {ω : Type} {W : AsyncWriter ω} {armed : ω → Prop}
    (hW : ∀ {s b s'}, W.pollWrite s b = (.pending, s') → armed s') (b : WriteBuf) (s : ω)
    (h : (b.pollFlush W s).1 = .pending) : armed (b.pollFlush W s).2.2 := by
  induction b, s using WriteBuf.pollFlush.induct W with
  | case1 b s h1 => rw [WriteBuf.pollFlush, dif_pos h1] at h; cases h
  | case2 b s h1 h2 => rw [WriteBuf.pollFlush, dif_neg h1, dif_pos h2] at h; cases h
  | case3 b s h1 h2 k s' hr => rw [WriteBuf.pollFlush, dif_neg h1, dif_neg h2, hr] at h; cases h
  | case4 b s h1 h2 s' hr => rw [WriteBuf.pollFlush, dif_neg h1, dif_neg h2, hr] at h; cases h
  | case5 b s h1 h2 n s' hr ih =>
    rw [WriteBuf.pollFlush, dif_neg h1, dif_neg h2, hr] at h ⊢
    exact ih h
  | case6 b s h1 h2 s' hr =>
    rw [WriteBuf.pollFlush, dif_neg h1, dif_neg h2, hr]
    exact hW hr

theorem pollFlush_keeps {ω : Type} {W : AsyncWriter ω} {armed : ω → Prop}
    (hW : ∀ {s b}, armed s → armed (W.pollWrite s b).2) (b : WriteBuf) (s : ω) (h : armed s) :
    armed (b.pollFlush W s).2.2 := by
  induction b, s using WriteBuf.pollFlush.induct W with
  | case1 b s h1 => rw [WriteBuf.pollFlush, dif_pos h1]; exact h
  | case2 b s h1 h2 => rw [WriteBuf.pollFlush, dif_neg h1, dif_pos h2]; exact h
  | case3 b s h1 h2 k s' hr =>
    have := hW (b := (b.inner.take b.tail).drop b.head) h
    rw [WriteBuf.pollFlush, dif_neg h1, dif_neg h2, hr]
    rwa [hr] at this
  | case4 b s h1 h2 s' hr =>
    have := hW (b := (b.inner.take b.tail).drop b.head) h
    rw [WriteBuf.pollFlush, dif_neg h1, dif_neg h2, hr]
    rwa [hr] at this
  | case5 b s h1 h2 n s' hr ih =>
    have := hW (b := (b.inner.take b.tail).drop b.head) h
    rw [WriteBuf.pollFlush, dif_neg h1, dif_neg h2, hr]
    rw [hr] at this
    exact ih this
  | case6 b s h1 h2 s' hr =>
    have := hW (b := (b.inner.take b.tail).drop b.head) h
    rw [WriteBuf.pollFlush, dif_neg h1, dif_neg h2, hr]
    rwa [hr] at this

theorem executeIoPoll_pending {ρ : Type} {T : AsyncStream ρ} {io : BufferedIo ρ}
    (h : (io.executeIoPoll T).1 = .pending) :
    (io.rbuf.pollFill T.reader io.stream).1 = .pending ∧
    (io.wbuf.pollFlush T.writer (io.rbuf.pollFill T.reader io.stream).2.2).1 = .pending ∧
    (io.executeIoPoll T).2.stream = (io.wbuf.pollFlush T.writer (io.rbuf.pollFill T.reader io.stream).2.2).2.2 := by
  unfold BufferedIo.executeIoPoll at h ⊢
  rcases hr : io.rbuf.pollFill T.reader io.stream with ⟨r, rb, s⟩
  rcases hw : io.wbuf.pollFlush T.writer s with ⟨w, wb, s'⟩
  rw [hr] at h
  cases r with
  | pending =>
    cases w with
    | pending => simp [hw]
    | ready w => cases w <;> simp [hw] at h
  | ready r =>
    cases r with
    | panic => simp at h
    | _ => rcases w with _ | ⟨_ | _ | _ | _ | _⟩ <;> simp [hw] at h

/-! ## The invariant -/

section

variable {strict delim again : Bool} {E : Encoder τ α} {sE : τ} {D : Decoder σ α} {sD : σ} {dom : α → Prop}
  {enc : α → Except ErrorKind Bytes} {wcap rcap cap : Nat} {msgs : List α}

theorem PipeInv.flushed {p : Pipe τ σ α} {pos : Nat} {emitted : Bytes}
    (h : PipeInv E sE D sD dom enc wcap rcap p pos emitted) {c c' : Channel} {r : Poll (Res Unit)} {b' : WriteBuf}
    {k : Nat} (f : Flushed cap p.wbuf c r b' c' k) (hw : c.wire = p.wire) :
    PipeInv E sE D sD dom enc wcap rcap { p with wbuf := b', wire := c'.wire } pos emitted := by
  refine ⟨h.msgs, h.sends, h.bound, ?_, f.inv, f.state h.wstate, by rw [f.storage, h.wcap], h.r, h.rcap, h.dec, h.reach,
    ?_, ?_⟩
  · simp only [f.wire, f.content, hw, h.bytes, List.append_assoc, List.take_append_drop]
  · intro he
    obtain ⟨g1, g2⟩ := h.eos he
    obtain ⟨_, g3⟩ := h.closed g1
    exact ⟨g1, by simp only [f.wire, hw, g2, g3, List.take_nil, List.append_nil]⟩
  · intro hc
    obtain ⟨g1, g3⟩ := h.closed hc
    exact ⟨g1, by simp only [f.content, g3, List.drop_nil]⟩

theorem PipeInv.filled {p : Pipe τ σ α} {pos : Nat} {emitted : Bytes}
    (h : PipeInv E sE D sD dom enc wcap rcap p pos emitted) {c c' : Channel} {r : Poll (Res Unit)} {b' : ReadBuf}
    {k : Nat} (f : Filled p.rbuf c r b' c' k) (hw : c.wire = p.wire) (hc : c.closed = p.closed) :
    PipeInv E sE D sD dom enc wcap rcap { p with rbuf := b', wire := c'.wire } pos emitted := by
  refine ⟨h.msgs, h.sends, h.bound, ?_, h.w, h.wstate, h.wcap, f.inv, by rw [f.storage, h.rcap], h.dec, h.reach,
    ?_, h.closed⟩
  · simp only [f.wire, f.content, hw, h.bytes, List.append_assoc]
    rw [← List.append_assoc (p.wire.take k), List.take_append_drop]
  · intro he
    rcases f.eos he with ⟨e1, e2⟩ | ⟨e1, e2⟩
    · obtain ⟨g1, g2⟩ := h.eos e1
      exact ⟨g1, by simp only [f.wire, hw, g2, List.drop_nil]⟩
    · exact ⟨by rw [← hc, ← f.closed]; exact e1, e2⟩

/-- What the receiver sees, when more messages are to come. -/
theorem PipeInv.receives_all (hM : Matched strict delim again E sE D sD dom enc)
    (hm : ∀ x ∈ msgs, dom x ∧ ∃ b, enc x = .ok b) (hl : (bytesOfAll enc msgs).length < 2 ^ 64)
    (ha : delim = true ∧ again = true ∨ msgs.length ≤ 1) {p : Pipe τ σ α} {pos : Nat} {emitted : Bytes}
    (h : PipeInv E sE D sD dom enc wcap rcap p pos emitted) {todo : List α} (hs : msgs = p.sent ++ todo)
    (hc : p.closed = true → todo = []) :
    Receives D sD (bytesOfAll enc msgs) (Eos.new true) msgs (fun x => (bytesOf (enc x)).length) ∧
      DecRun D (bytesOfAll enc msgs) (Eos.new true) sD p.dec pos p.got ∧
      Offer (bytesOfAll enc msgs) (Eos.new true) pos p.rbuf.content (Eos.new p.rbuf.state.isEos) := by
  have hd : ∀ x ∈ msgs, dom x ∧ ∃ b, enc x = .ok b ∧ (bytesOf (enc x)).length = b.length := by
    intro x hx
    obtain ⟨h1, b, h2⟩ := hm x hx
    exact ⟨h1, b, h2, by rw [bytesOf_ok h2]⟩
  have hall : bytesOfAll enc msgs = bytesOfAll enc p.sent ++ bytesOfAll enc todo := by
    rw [hs]
    simp [bytesOfAll]
  have hE := matched_emits hM
  refine ⟨?_, ?_, ?_⟩
  · have := matched_receives hM (tail := []) (e := Eos.new true) hd
      (by rw [List.append_nil]; exact sane_new true hl) ha (.inr ⟨rfl, rfl⟩)
    rwa [List.append_nil] at this
  · have hdec := h.dec
    cases hcl : p.closed with
    | true =>
      rw [hcl] at hdec
      rw [hall, hc hcl]
      simpa [bytesOfAll] using hdec
    | false =>
      rw [hcl] at hdec
      rw [hall]
      exact decRun_extend hdec _ _
  · obtain ⟨rest, h1, h2⟩ := h.offer hE
    cases hcl : p.closed with
    | true =>
      rw [hcl] at h2
      refine ⟨rest, ?_, h2⟩
      rw [hall, hc hcl]
      simpa [bytesOfAll] using h1
    | false =>
      have he : p.rbuf.state.isEos = false := by
        cases hs : p.rbuf.state.isEos with
        | false => rfl
        | true => exact absurd (h.eos hs).1 (by simp [hcl])
      refine ⟨rest ++ bytesOfAll enc todo, ?_, .inl (by rw [he])⟩
      have hle : pos ≤ (bytesOfAll enc p.sent).length := by
        have := (hE.inOrder h.sends).length_le
        have := h.bound
        omega
      rw [hall, List.drop_append_of_le_length hle, h1, List.append_assoc]

/-- The sender, the channel and the receiver as a pipe. -/
def asPipe (t : Tasks τ σ α) (sent : List α) : Pipe τ σ α :=
  ⟨t.enc, t.wbuf, sent, t.chan.wire, t.chan.closed, t.rbuf, t.dec, t.got⟩

/-- What holds whenever the executor is about to choose a task. -/
structure TasksInv (E : Encoder τ α) (sE : τ) (D : Decoder σ α) (sD : σ) (dom : α → Prop)
    (enc : α → Except ErrorKind Bytes) (wcap rcap cap : Nat) (msgs : List α) (t : Tasks τ σ α)
    (sent : List α) (pos : Nat) (emitted : Bytes) : Prop where
  pipe : PipeInv E sE D sD dom enc wcap rcap (asPipe t sent) pos emitted
  split : msgs = sent ++ t.todo
  ok : t.failed = false
  want : t.want = msgs.length
  le : t.got.length ≤ msgs.length
  all : t.got.length = msgs.length → pos = (bytesOfAll enc msgs).length
  fin : t.finished = t.chan.closed
  done : t.chan.closed = true → t.todo = []
  sleepS : t.chan.sendRuns = false → t.finished = false → t.chan.writeWaker = true ∧ cap ≤ t.chan.wire.length
  sleepR : t.chan.recvRuns = false → t.got.length < t.want →
    t.chan.readWaker = true ∧ t.chan.wire = [] ∧ t.chan.closed = false ∧ t.rbuf.content = [] ∧
      D.isIdle t.dec = false

/-- Decreases with every round. -/
def work (E : Encoder τ α) (D : Decoder σ α) (total count : Nat) (t : Tasks τ σ α) (pos : Nat) : Nat :=
  4 * (total - (pos + t.rbuf.content.length + t.chan.wire.length)) + 4 * (total - (pos + t.rbuf.content.length)) +
    4 * (total - pos) + 4 * t.todo.length + 4 * (!t.finished).toNat + 3 * (count - t.got.length) +
    (!D.isIdle t.dec).toNat + (!E.isIdle t.enc).toNat + t.chan.sendRuns.toNat + t.chan.recvRuns.toNat

theorem bytesOfAll_le {sent todo : List α} (h : msgs = sent ++ todo) :
    (bytesOfAll enc sent).length ≤ (bytesOfAll enc msgs).length := by
  rw [h]
  simp [bytesOfAll]

theorem TasksInv.total (hE : Emits strict E sE dom enc) {t : Tasks τ σ α} {sent : List α} {pos : Nat} {emitted : Bytes}
    (h : TasksInv E sE D sD dom enc wcap rcap cap msgs t sent pos emitted) :
    pos + t.rbuf.content.length + t.chan.wire.length ≤ (bytesOfAll enc msgs).length := by
  have h1 := congrArg List.length h.pipe.bytes
  have h2 := h.pipe.bound
  have h3 := (hE.inOrder h.pipe.sends).length_le
  have h4 := bytesOfAll_le (enc := enc) h.split
  simp only [asPipe, List.length_drop, List.length_append] at h1 h3
  omega

/-- `next`: an idle sender takes the next message. -/
theorem TasksInv.next (hE : Emits strict E sE dom enc) (hm : ∀ x ∈ msgs, dom x ∧ ∃ b, enc x = .ok b)
    {t : Tasks τ σ α} {sent : List α} {pos : Nat} {emitted : Bytes}
    (h : TasksInv E sE D sD dom enc wcap rcap cap msgs t sent pos emitted) (hc : t.chan.closed = false) :
    ∃ s todo sent', t.next E = some (s, todo) ∧ msgs = sent' ++ todo ∧
      PipeInv E sE D sD dom enc wcap rcap { asPipe t sent' with enc := s } pos emitted ∧
      (todo.length + 1 = t.todo.length ∨
        (s = t.enc ∧ todo = t.todo ∧ sent' = sent ∧ (E.isIdle t.enc = true → t.todo = []))) := by
  unfold Tasks.next
  split
  · next hi =>
    split
    · next ht => exact ⟨t.enc, [], sent, rfl, by rw [h.split, ht], h.pipe, .inr ⟨rfl, ht.symm, rfl, fun _ => ht⟩⟩
    · next x rest ht =>
      have hmem : x ∈ msgs := by rw [h.split, ht]; simp
      obtain ⟨hx, b, hb⟩ := hm x hmem
      have hacc := hE.accepts h.pipe.sends hi hx hb
      rcases hst : E.start t.enc x with ⟨r, s⟩
      have hr : r = .ok () := by
        have : (E.start t.enc x).1 = .ok () := hacc
        rw [hst] at this
        exact this
      subst hr
      refine ⟨s, rest, sent ++ [x], rfl, by rw [h.split, ht]; simp, h.pipe.start hE hc hi hx hst, .inl ?_⟩
      rw [ht]
      rfl
  · next hi => exact ⟨t.enc, t.todo, sent, rfl, h.split, h.pipe, .inr ⟨rfl, rfl, rfl, fun h => absurd h hi⟩⟩

/-- One round of the sender. -/
theorem TasksInv.send (hE : Emits strict E sE dom enc) (hw : 0 < wcap)
    (hm : ∀ x ∈ msgs, dom x ∧ ∃ b, enc x = .ok b)
    {t : Tasks τ σ α} {sent : List α} {pos : Nat} {emitted : Bytes}
    (h : TasksInv E sE D sD dom enc wcap rcap cap msgs t sent pos emitted) (hr : t.senderReady) :
    ∃ sent' emitted', TasksInv E sE D sD dom enc wcap rcap cap msgs (t.sendRound E cap) sent' pos emitted' ∧
      work E D (bytesOfAll enc msgs).length msgs.length (t.sendRound E cap) pos + 1 ≤
        work E D (bytesOfAll enc msgs).length msgs.length t pos := by
  obtain ⟨hr1, hr2, hr3⟩ := hr
  have hcl : t.chan.closed = false := by rw [← h.fin]; exact hr2
  unfold Tasks.sendRound
  split
  · next hq =>
    obtain ⟨q1, q2, q3⟩ := hq
    refine ⟨sent, emitted, ⟨?_, h.split, h.ok, h.want, h.le, h.all, rfl, fun _ => q2, fun _ hf => (by cases hf), ?_⟩, ?_⟩
    · exact h.pipe.close q1 q3
    · intro hs hg
      simp only [Channel.close, Bool.or_eq_false_iff] at hs
      obtain ⟨g1, _⟩ := h.sleepR hs.1 hg
      rw [hs.2] at g1
      cases g1
    · simp only [work, Channel.close, hr2]
      have h1 : (t.chan.recvRuns || t.chan.readWaker).toNat ≤ 1 := Bool.toNat_le _
      simp only [Bool.not_true, Bool.not_false, Bool.toNat_true, Bool.toNat_false]
      omega
  · next hq =>
    obtain ⟨s, todo, sent', h1, h2, h3, h4⟩ := h.next hE hm hcl
    obtain ⟨s', b, e1, e2, e3⟩ := h3.encode hE
    have e1' : encodeToWriteBuf E s t.wbuf = (.ok (), s', b) := e1
    obtain ⟨k, f⟩ := chan_pollFlush cap b t.chan e3.w
    have hp := e3.flushed f rfl
    have hlen := congrArg List.length e3.bytes
    have hT1 := h.total hE
    have hT2 : pos + t.rbuf.content.length + (t.chan.wire.length + k) ≤ (bytesOfAll enc msgs).length := by
      have g1 := congrArg List.length hp.bytes
      have g2 := e3.bound
      have g3 := (hE.inOrder e3.sends).length_le
      have g4 := bytesOfAll_le (enc := enc) h2
      have g5 := f.le
      have g6 := congrArg List.length f.wire
      simp only [asPipe, List.length_drop, List.length_append, List.length_take] at g1 g2 g3 g6
      omega
    have hwire : (b.pollFlush (Channel.writer cap) t.chan).2.2.wire.length = t.chan.wire.length + k := by
      rw [f.wire, List.length_append, List.length_take, Nat.min_eq_left f.le]
    have hrecv : (b.pollFlush (Channel.writer cap) t.chan).2.2.recvRuns = false → t.got.length < t.want →
        (b.pollFlush (Channel.writer cap) t.chan).2.2.readWaker = true ∧
        (b.pollFlush (Channel.writer cap) t.chan).2.2.wire = [] ∧ t.chan.closed = false ∧ t.rbuf.content = [] ∧
        D.isIdle t.dec = false := by
      intro g1 g2
      by_cases hk : k = 0
      · obtain ⟨f1, f2⟩ := f.same hk
        rw [f1] at g1
        obtain ⟨r1, r2, r3, r4, r5⟩ := h.sleepR g1 g2
        refine ⟨by rw [f2]; exact r1, ?_, r3, r4, r5⟩
        rw [f.wire, r2, hk]
        rfl
      · obtain ⟨f1, f2⟩ := f.woken (by omega)
        rw [f1, Bool.or_eq_false_iff] at g1
        obtain ⟨r1, _⟩ := h.sleepR g1.1 g2
        rw [g1.2] at r1
        cases r1
    have hflag : (b.pollFlush (Channel.writer cap) t.chan).2.2.recvRuns.toNat ≤ t.chan.recvRuns.toNat + k := by
      by_cases hk : k = 0
      · rw [(f.same hk).1]
        omega
      · have := Bool.toNat_le (b.pollFlush (Channel.writer cap) t.chan).2.2.recvRuns
        omega
    have hflag1 : (b.pollFlush (Channel.writer cap) t.chan).2.2.recvRuns.toNat ≤ 1 := Bool.toNat_le _
    have henc1 : (!E.isIdle s').toNat ≤ 1 := Bool.toNat_le _
    have henc : todo.length + 1 = t.todo.length ∨
        (todo = t.todo ∧ (!E.isIdle s').toNat ≤ (!E.isIdle t.enc).toNat ∧
          (b.content = [] → (!E.isIdle s').toNat + 1 ≤ (!E.isIdle t.enc).toNat)) := by
      rcases h4 with h4 | ⟨rfl, h5, rfl, h6⟩
      · exact .inl h4
      · refine .inr ⟨h5, ?_, ?_⟩
        · cases hi : E.isIdle t.enc with
          | false => exact Bool.toNat_le _
          | true =>
            have hem := hE.complete h.pipe.sends hi
            have : E.isIdle s' = true := e2.mpr (by
              have hem' : emitted = bytesOfAll enc sent' := hem
              show (bytesOfAll enc sent').length - emitted.length ≤ _
              rw [hem']; omega)
            rw [this]
            exact Nat.le_refl _
        · intro hb
          have hcontent : t.wbuf.content = [] ∧
              ((bytesOfAll enc sent').drop emitted.length).take t.wbuf.room = [] := by
            have g1 := e3.bytes
            have g2 := h.pipe.bytes
            have g3 := h.pipe.bound
            simp only [asPipe, hb, List.append_nil] at g1 g2
            rw [List.drop_append_of_le_length g3, g2, List.append_assoc] at g1
            have g5 := congrArg List.length g1
            simp only [List.length_append] at g5
            refine ⟨List.length_eq_zero_iff.mp (by omega), List.length_eq_zero_iff.mp (by omega)⟩
          have hempty := (WriteBuf.content_nil h.pipe.w).mp hcontent.1
          have hni : E.isIdle t.enc = false := by
            cases hi : E.isIdle t.enc with
            | false => rfl
            | true => exact absurd ⟨hi, h6 hi, hempty⟩ hq
          have htail : t.wbuf.tail = 0 := by simpa [WriteBuf.isEmpty, asPipe] using hempty
          have hwc : t.wbuf.inner.length = wcap := h.pipe.wcap
          have hroom : 0 < t.wbuf.room := by simp only [WriteBuf.room]; omega
          have : E.isIdle s' = true := e2.mpr (by
            show (bytesOfAll enc sent').length - emitted.length ≤ t.wbuf.room
            have := congrArg List.length hcontent.2
            simp only [List.length_take, List.length_drop, List.length_nil] at this
            omega)
          rw [this, hni]
          exact Nat.le_refl _
    simp only [h1, e1']
    cases hpoll : (b.pollFlush (Channel.writer cap) t.chan).1 with
    | pending =>
      rcases hres : b.pollFlush (Channel.writer cap) t.chan with ⟨r, b', c'⟩
      rw [hres] at hpoll hp hwire hrecv hflag hflag1 f
      simp only at hpoll hp hwire hrecv hflag hflag1 f
      subst hpoll
      refine ⟨sent', emitted ++ ((bytesOfAll enc sent').drop emitted.length).take t.wbuf.room, ⟨?_, h2, h.ok, h.want, h.le, h.all, ?_, ?_, ?_, ?_⟩, ?_⟩
      · have : c'.closed = t.chan.closed := f.closed
        simp only [asPipe, this]
        exact hp
      · simp only [f.closed]
        exact h.fin
      · intro hc
        simp only [f.closed, hcl] at hc
        cases hc
      · intro _ _
        exact f.pending rfl
      · intro g1 g2
        obtain ⟨r1, r2, r3, r4, r5⟩ := hrecv g1 g2
        exact ⟨r1, r2, by simp only [f.closed]; exact r3, r4, r5⟩
      · simp only [work, hwire, hr1, Bool.toNat_true, Bool.toNat_false]
        rcases henc with g | ⟨g1, g2, _⟩
        · omega
        · rw [g1]
          omega
    | ready r =>
      obtain ⟨f1, f2⟩ := f.ready (by rw [hpoll]; intro h; cases h)
      rcases hres : b.pollFlush (Channel.writer cap) t.chan with ⟨r, b', c'⟩
      rw [hres] at f1 f2 hp hwire hrecv hflag hflag1 f
      simp only at f1 f2 hp hwire hrecv hflag hflag1 f
      subst f1
      refine ⟨sent', emitted ++ ((bytesOfAll enc sent').drop emitted.length).take t.wbuf.room, ⟨?_, h2, h.ok, h.want, h.le, h.all, ?_, ?_, ?_, ?_⟩, ?_⟩
      · have : c'.closed = t.chan.closed := f.closed
        simp only [asPipe, this]
        exact hp
      · simp only [f.closed]
        exact h.fin
      · intro hc
        simp only [f.closed, hcl] at hc
        cases hc
      · intro g _
        simp only [f.sendRuns, hr1] at g
        cases g
      · intro g1 g2
        obtain ⟨r1, r2, r3, r4, r5⟩ := hrecv g1 g2
        exact ⟨r1, r2, by simp only [f.closed]; exact r3, r4, r5⟩
      · simp only [work, hwire, f.sendRuns]
        rcases henc with g | ⟨g1, g2, g3⟩
        · omega
        · rw [g1]
          by_cases hk : k = 0
          · have := g3 (by
              have := f.content
              rw [f2, hk] at this
              exact this.symm)
            omega
          · omega

/-- The next message the receiver is going to get. -/
theorem next_message {got : List α} (h : got.take msgs.length = msgs.take got.length)
    (hlt : got.length < msgs.length) : ∃ x more, msgs = got ++ x :: more := by
  rw [List.take_of_length_le (by omega)] at h
  refine ⟨msgs[got.length], msgs.drop (got.length + 1), ?_⟩
  conv => lhs; rw [← List.take_append_drop got.length msgs, ← h, List.drop_eq_getElem_cons hlt]

/-- One round of the receiver. -/
theorem TasksInv.recv (hM : Matched strict delim again E sE D sD dom enc) (hS : SafeFrom D sD)
    (hrc : rcap < 2 ^ 64) (hr0 : 0 < rcap) (hm : ∀ x ∈ msgs, dom x ∧ ∃ b, enc x = .ok b)
    (hl : (bytesOfAll enc msgs).length < 2 ^ 64) (ha : delim = true ∧ again = true ∨ msgs.length ≤ 1)
    {t : Tasks τ σ α} {sent : List α} {pos : Nat} {emitted : Bytes}
    (h : TasksInv E sE D sD dom enc wcap rcap cap msgs t sent pos emitted) (hr : t.receiverReady) :
    ∃ pos', TasksInv E sE D sD dom enc wcap rcap cap msgs (t.recvRound D) sent pos' emitted ∧
      work E D (bytesOfAll enc msgs).length msgs.length (t.recvRound D) pos' + 1 ≤
        work E D (bytesOfAll enc msgs).length msgs.length t pos := by
  obtain ⟨hr1, hr2, hr3⟩ := hr
  have hE := matched_emits hM
  obtain ⟨hR, hD, _⟩ := h.pipe.receives_all hM hm hl ha h.split h.done
  have hlt : t.got.length < msgs.length := by rw [← h.want]; exact hr2
  obtain ⟨x, more, hx⟩ := next_message (hR.inOrder hD) hlt
  unfold Tasks.recvRound
  cases hi : D.isIdle t.dec with
  | true =>
    obtain ⟨⟨s', hf⟩, hpos⟩ := hR.ready hD hx hi
    have hf' : D.finish t.dec = (.ok x, s') := hf
    simp only [if_true, hf']
    refine ⟨pos, ⟨h.pipe.finish hi hf, h.split, h.ok, h.want, ?_, ?_, h.fin, h.done, h.sleepS, ?_⟩, ?_⟩
    · simp only [List.length_append, List.length_singleton]
      omega
    · intro g
      have hmore : more = [] := by
        have := congrArg List.length hx
        simp only [asPipe, List.length_append, List.length_cons, List.length_nil] at this g
        exact List.length_eq_zero_iff.mp (by omega)
      rw [hpos, hx, hmore]
      simp only [bytesOfAll, List.length_flatMap]
    · intro g
      simp only [hr1] at g
      cases g
    · simp only [work, hi, List.length_append, List.length_singleton]
      have : (!D.isIdle s').toNat ≤ 1 := Bool.toNat_le _
      omega
  | false =>
    simp only [Bool.false_eq_true, if_false]
    obtain ⟨k, f⟩ := chan_pollFill t.rbuf t.chan h.pipe.r
    have hp := h.pipe.filled f rfl rfl
    rcases hres : t.rbuf.pollFill Channel.reader t.chan with ⟨r, b', c'⟩
    rw [hres] at f hp
    simp only at f hp
    obtain ⟨_, _, hO⟩ := hp.receives_all hM hm hl ha h.split h.done
    obtain ⟨n, s', hd, hn, hall, _⟩ := hR.going hD hx hi hO
    have hn' : n ≤ b'.content.length := hn
    obtain ⟨d1, d2⟩ := hp.decode hE hS hrc hi hd
    have d1' : decodeFromReadBuf D t.dec b' = (.ok (), s', b'.consume n) := d1
    have hcons := ReadBuf.consume_spec f.inv (n := n) (by rw [← ReadBuf.content_length f.inv]; exact hn')
    have hclen : (b'.consume n).content.length = b'.content.length - n := by
      rw [hcons.2.1, List.length_drop]
    have hblen : b'.content.length = t.rbuf.content.length + k := by
      rw [f.content, List.length_append, List.length_take, Nat.min_eq_left f.le]
    have hwlen : c'.wire.length = t.chan.wire.length - k := by rw [f.wire, List.length_drop]
    have hT := h.total hE
    have hkle := f.le
    have hsend : c'.sendRuns = false → t.finished = false → c'.writeWaker = true ∧ cap ≤ c'.wire.length := by
      intro g1 g2
      by_cases hk : k = 0
      · obtain ⟨f1, f2⟩ := f.same hk
        rw [f1] at g1
        obtain ⟨r1, r2⟩ := h.sleepS g1 g2
        exact ⟨by rw [f2]; exact r1, by rw [hwlen, hk]; exact r2⟩
      · obtain ⟨f1, f2⟩ := f.woken (by omega)
        rw [f1, Bool.or_eq_false_iff] at g1
        obtain ⟨r1, _⟩ := h.sleepS g1.1 g2
        rw [g1.2] at r1
        cases r1
    have hflag : c'.sendRuns.toNat ≤ t.chan.sendRuns.toNat + k := by
      by_cases hk : k = 0
      · rw [(f.same hk).1]
        omega
      · have := Bool.toNat_le c'.sendRuns
        omega
    have hflag1 : c'.sendRuns.toNat ≤ 1 := Bool.toNat_le _
    have hidle1 : (!D.isIdle s').toNat ≤ 1 := Bool.toNat_le _
    have hrr : c'.recvRuns = true := by rw [f.recvRuns]; exact hr1
    -- the poll was pending or ready
    have hcases : r = .pending ∨ (r = .ready (.ok ()) ∧ (b'.content = [] → D.isIdle s' = true)) := by
      cases hrp : r with
      | pending => exact .inl rfl
      | ready q =>
        obtain ⟨f1, f2⟩ := f.ready (by rw [hrp]; intro h; cases h)
        rw [hrp] at f1
        refine .inr ⟨f1, fun hb => ?_⟩
        rcases f2 with f2 | ⟨f2, f3, f4⟩
        · exfalso
          have g1 := ReadBuf.content_nil f.inv hb
          have g2 : b'.inner.length = rcap := hp.rcap
          simp only [ReadBuf.isFull, beq_iff_eq] at f2
          omega
        · have hcl : t.chan.closed = true := by rw [← f.closed]; exact f2
          have hsent : msgs = sent := by rw [h.split, h.done hcl, List.append_nil]
          obtain ⟨g1, g2⟩ := h.pipe.closed hcl
          have hem : emitted = bytesOfAll enc sent := hE.complete h.pipe.sends g1
          have hrest : (bytesOfAll enc msgs).drop pos = b'.content := by
            have := hp.bytes
            have g2' : t.wbuf.content = [] := g2
            simp only [asPipe, f3, g2', List.append_nil] at this
            rw [hsent, ← hem]
            exact this
          have hc := hR.complete hD hx hi
          rw [hrest] at hc
          have hd' : D.decode t.dec b'.content (Eos.new b'.state.isEos) = (.ok n, s') := hd
          rw [f4] at hd'
          have hc' : D.isIdle (D.decode t.dec b'.content (Eos.new true)).2 = true := hc
          rw [hd'] at hc'
          exact hc'
    have hbase : ∀ c'' : Channel, c''.wire = c'.wire → c''.closed = c'.closed →
        PipeInv E sE D sD dom enc wcap rcap
          (asPipe { t with dec := s', rbuf := b'.consume n, chan := c'' } sent) (pos + n) emitted := by
      intro c'' g1 g2
      simp only [asPipe, g1, g2, f.closed]
      exact d2
    rcases hcases with rfl | ⟨rfl, hready⟩
    · simp only [Tasks.decodeRound, d1']
      obtain ⟨p1, p2, p3⟩ := f.pending rfl
      cases hi' : D.isIdle s' with
      | true =>
        simp only [Bool.true_eq_false, and_false, if_false]
        refine ⟨pos + n, ⟨hbase c' rfl rfl, h.split, h.ok, h.want, h.le, fun g => absurd g (Nat.ne_of_lt hlt), ?_, ?_, hsend, ?_⟩, ?_⟩
        · simp only [f.closed]; exact h.fin
        · intro hc
          simp only [p3] at hc
          cases hc
        · intro g
          simp only [hrr] at g
          cases g
        · simp only [work, hi, hi', hclen, hblen, hwlen, hrr, hr1, Bool.not_true, Bool.not_false, Bool.toNat_true,
            Bool.toNat_false]
          omega
      | false =>
        simp only [and_self, if_true]
        have hnall := hall hi'
        have hnall' : n = b'.content.length := hnall
        refine ⟨pos + n, ⟨hbase { c' with recvRuns := false } rfl rfl, h.split, h.ok, h.want, h.le, fun g => absurd g (Nat.ne_of_lt hlt), ?_, ?_, hsend, ?_⟩, ?_⟩
        · simp only [f.closed]; exact h.fin
        · intro hc
          simp only [p3] at hc
          cases hc
        · intro _ _
          exact ⟨p1, p2, p3, List.length_eq_zero_iff.mp (by simp only [hclen]; omega), hi'⟩
        · simp only [work, hi, hi', hclen, hblen, hwlen, hr1, Bool.not_false, Bool.toNat_true, Bool.toNat_false]
          omega
    · simp only [Tasks.decodeRound, d1', Bool.false_eq_true, false_and, if_false]
      refine ⟨pos + n, ⟨hbase c' rfl rfl, h.split, h.ok, h.want, h.le, fun g => absurd g (Nat.ne_of_lt hlt), ?_, ?_, hsend, ?_⟩, ?_⟩
      · simp only [f.closed]; exact h.fin
      · intro hc
        simp only [f.closed] at hc
        exact h.done hc
      · intro g
        simp only [hrr] at g
        cases g
      · simp only [work, hi, hclen, hblen, hwlen, hrr, hr1, Bool.not_false, Bool.toNat_true]
        by_cases hb : b'.content = []
        · rw [hready hb]
          have := congrArg List.length hb
          simp only [Bool.not_true, Bool.toNat_false]
          omega
        · have hpos := List.length_pos_iff.mpr hb
          cases hi' : D.isIdle s' with
          | true =>
            simp only [Bool.not_true, Bool.toNat_false]
            omega
          | false =>
            have hnall : n = b'.content.length := hall hi'
            simp only [Bool.not_false, Bool.toNat_true]
            omega

/-- Whatever the executor does, the invariant holds, and the work that is left shrinks with each round. -/
theorem tasks_inv (hM : Matched strict delim again E sE D sD dom enc) (hS : SafeFrom D sD)
    {wstore rstore : Bytes} (hcap : rstore.length < 2 ^ 64) (hw : wstore ≠ []) (hr : rstore ≠ [])
    (hm : ∀ x ∈ msgs, dom x ∧ ∃ b, enc x = .ok b)
    (hl : (bytesOfAll enc msgs).length < 2 ^ 64) (ha : delim = true ∧ again = true ∨ msgs.length ≤ 1)
    {sizes : Nat → Nat} {k w : Nat} {t : Tasks τ σ α}
    (h : Rounds E D cap (.new sE sD wstore rstore sizes msgs) k w t) :
    ∃ sent pos emitted,
      TasksInv E sE D sD dom enc wstore.length rstore.length cap msgs t sent pos emitted ∧
      work E D (bytesOfAll enc msgs).length msgs.length t pos + k ≤
        12 * (bytesOfAll enc msgs).length + 7 * msgs.length + 7 + w := by
  have hE := matched_emits hM
  induction h with
  | new =>
    obtain ⟨pos, em, hI⟩ := pipe_inv (p := Pipe.new sE sD wstore rstore) hE hS hcap .refl
    refine ⟨[], 0, [], ⟨?_, rfl, rfl, rfl, Nat.zero_le _, ?_, rfl, fun h => (by cases h), fun h => (by cases h),
      fun h => (by cases h)⟩, ?_⟩
    · exact ⟨fun x hx => (by cases hx), .new, Nat.le_refl _, by simp [asPipe, Tasks.new, Channel.new, ReadBuf.new, WriteBuf.new, ReadBuf.content, WriteBuf.content],
        hI.w, hI.wstate, hI.wcap, hI.r, hI.rcap, .new, .refl, fun h => (by cases h), fun h => (by cases h)⟩
    · intro g
      have : msgs = [] := List.length_eq_zero_iff.mp g.symm
      rw [this]
      rfl
    · have h1 : (!D.isIdle sD).toNat ≤ 1 := Bool.toNat_le _
      have h2 : (!E.isIdle sE).toNat ≤ 1 := Bool.toNat_le _
      have h3 : E.isIdle sE = true := hE.new
      rw [h3] at h2
      simp only [work, Tasks.new, Channel.new, ReadBuf.new, ReadBuf.content, h3, List.take_zero, List.drop_nil,
        List.length_nil, Bool.not_true, Bool.not_false, Bool.toNat_true, Bool.toNat_false]
      omega
  | send _ hrdy ih =>
    obtain ⟨sent, pos, em, hI, hb⟩ := ih
    obtain ⟨sent', em', hI', hb'⟩ := hI.send hE (List.length_pos_iff.mpr hw) hm hrdy
    exact ⟨sent', pos, em', hI', by omega⟩
  | recv _ hrdy ih =>
    obtain ⟨sent, pos, em, hI, hb⟩ := ih
    obtain ⟨pos', hI', hb'⟩ := hI.recv hM hS hcap (List.length_pos_iff.mpr hr) hm hl ha hrdy
    exact ⟨sent, pos', em, hI', by omega⟩
  | @wakeSender k w t _ ih =>
    obtain ⟨sent, pos, em, hI, hb⟩ := ih
    refine ⟨sent, pos, em, ⟨hI.pipe, hI.split, hI.ok, hI.want, hI.le, hI.all, hI.fin, hI.done, fun h => (by cases h),
      hI.sleepR⟩, ?_⟩
    simp only [work, Bool.toNat_true] at hb ⊢
    omega
  | @wakeReceiver k w t _ ih =>
    obtain ⟨sent, pos, em, hI, hb⟩ := ih
    refine ⟨sent, pos, em, ⟨hI.pipe, hI.split, hI.ok, hI.want, hI.le, hI.all, hI.fin, hI.done, hI.sleepS,
      fun h => (by cases h)⟩, ?_⟩
    simp only [work, Bool.toNat_true] at hb ⊢
    omega

end

end Bytecodec
