import Verif.Lemmas.Matched
import Verif.Lemmas.Buf
import Verif.Spec.Pipeline
/-!
# Lemmas: the pipeline
-/
namespace Bytecodec
open Spec

variable {σ τ α : Type}

/-! ## Receivers of a growing stream -/

/-- What a receiver has seen so far does not depend on what follows, nor on where the stream ends, as long
as no end was announced. -/
theorem decRun_extend {D : Decoder σ α} {stream : Bytes} {s₀ s : σ} {pos : Nat} {items : List α}
    (h : DecRun D stream (Eos.new false) s₀ s pos items) (more : Bytes) (e : Eos) :
    DecRun D (stream ++ more) e s₀ s pos items := by
  induction h with
  | new => exact .new
  | @decode s s' pos n items c ec _ hi ho hd ih =>
    refine .decode ih hi ?_ hd
    obtain ⟨rest, hc, he⟩ := ho
    have he' : ec = Eos.new false := by rcases he with h | h <;> rw [h] <;> rfl
    by_cases hp : pos ≤ stream.length
    · exact ⟨rest ++ more, by rw [List.drop_append_of_le_length hp, hc, List.append_assoc], .inl he'⟩
    · rw [List.drop_eq_nil_of_le (by omega)] at hc
      have : c = [] := by
        cases c with
        | nil => rfl
        | cons x xs => cases hc
      subst this
      exact ⟨_, rfl, .inl he'⟩
  | finish _ hi hf ih => exact .finish ih hi hf

/-! ## Buffers -/

theorem decodeFromReadBuf_eq {D : Decoder σ α} {d : σ} {b : ReadBuf} (h : b.Inv) :
    decodeFromReadBuf D d b =
      Res.step (D.decode d b.content (Eos.new b.state.isEos)) (fun s' => (s', b))
        (fun size s' => (.ok (), s', b.consume size)) := by
  have h1 := h.le
  have h2 := h.cap
  rw [decodeFromReadBuf, if_neg (by omega)]
  rfl

theorem ReadBuf.consume_state (b : ReadBuf) (n : Nat) : (b.consume n).state = b.state := by
  unfold ReadBuf.consume
  split <;> rfl

theorem ReadBuf.content_nil {b : ReadBuf} (h : b.Inv) (hc : b.content = []) : b.tail = 0 := by
  have h1 := b.content_length h
  rw [hc] at h1
  simp only [List.length_nil, ReadBuf.len] at h1
  have := h.le
  exact h.zero (by omega)

theorem WriteBuf.content_nil {b : WriteBuf} (h : b.Inv) : b.content = [] ↔ b.isEmpty = true := by
  have h1 := b.content_length h
  have h2 := h.le
  have h3 := h.zero
  rw [← List.length_eq_zero_iff, h1]
  simp only [WriteBuf.len, WriteBuf.isEmpty, beq_iff_eq]
  omega

/-! ## The invariant -/

/-- What holds in every reachable situation: the bytes emitted by the encoder are those consumed by the
decoder followed by the contents of the read buffer, the pipe and the write buffer. -/
structure PipeInv (E : Encoder τ α) (sE : τ) (D : Decoder σ α) (sD : σ) (dom : α → Prop)
    (enc : α → Except ErrorKind Bytes) (wcap rcap : Nat) (p : Pipe τ σ α) (pos : Nat) (emitted : Bytes) : Prop where
  msgs : ∀ x ∈ p.sent, dom x ∧ ∃ b, enc x = .ok b
  sends : EncRun E dom enc sE p.enc (bytesOfAll enc p.sent) emitted
  bound : pos ≤ emitted.length
  bytes : emitted.drop pos = p.rbuf.content ++ (p.wire ++ p.wbuf.content)
  w : p.wbuf.Inv
  wstate : p.wbuf.state.isEos = false
  wcap : p.wbuf.inner.length = wcap
  r : p.rbuf.Inv
  rcap : p.rbuf.inner.length = rcap
  dec : DecRun D (bytesOfAll enc p.sent) (Eos.new p.closed) sD p.dec pos p.got
  reach : Reach D sD p.dec
  eos : p.rbuf.state.isEos = true → p.closed = true ∧ p.wire = []
  closed : p.closed = true → E.isIdle p.enc = true ∧ p.wbuf.content = []

section

variable {strict delim again : Bool} {E : Encoder τ α} {sE : τ} {D : Decoder σ α} {sD : σ} {dom : α → Prop}
  {enc : α → Except ErrorKind Bytes} {wcap rcap : Nat}

theorem sane_new (b : Bool) {n : Nat} (h : n < 2 ^ 64) : EosSane (Eos.new b) n := by
  intro k hk
  cases b
  · cases hk
  · cases hk; omega

/-- What the receiver is going to see is what was sent and not yet consumed. -/
theorem PipeInv.offer (hE : Emits strict E sE dom enc) {p : Pipe τ σ α} {pos : Nat} {emitted : Bytes}
    (h : PipeInv E sE D sD dom enc wcap rcap p pos emitted) :
    Offer (bytesOfAll enc p.sent) (Eos.new p.closed) pos p.rbuf.content (Eos.new p.rbuf.state.isEos) := by
  obtain ⟨rest, hr⟩ := hE.inOrder h.sends
  have hb : (bytesOfAll enc p.sent).drop pos = p.rbuf.content ++ (p.wire ++ p.wbuf.content ++ rest) := by
    rw [← hr, List.drop_append_of_le_length h.bound, h.bytes, List.append_assoc]
  refine ⟨_, hb, ?_⟩
  cases hs : p.rbuf.state.isEos with
  | false => exact .inl rfl
  | true =>
    obtain ⟨hc, hw⟩ := h.eos hs
    obtain ⟨hi, hv⟩ := h.closed hc
    have hem := hE.complete h.sends hi
    have : rest = [] := by
      have := congrArg List.length hr
      rw [hem, List.length_append] at this
      exact List.length_eq_zero_iff.mp (by omega)
    right
    rw [hw, hv, this, hc]
    rfl

theorem PipeInv.start (hE : Emits strict E sE dom enc) {p : Pipe τ σ α} {pos : Nat} {emitted : Bytes}
    (h : PipeInv E sE D sD dom enc wcap rcap p pos emitted) {s' : τ} {x : α} (hc : p.closed = false)
    (hi : E.isIdle p.enc = true) (hx : dom x) (hs : E.start p.enc x = (.ok (), s')) :
    PipeInv E sE D sD dom enc wcap rcap { p with enc := s', sent := p.sent ++ [x] } pos emitted := by
  have hb : ∃ b, enc x = .ok b := by
    cases hb : enc x with
    | ok b => exact ⟨b, rfl⟩
    | error k =>
      have := hE.rejects h.sends hi hx hb
      rw [hs] at this
      cases this
  obtain ⟨b, hb⟩ := hb
  have hall : bytesOfAll enc (p.sent ++ [x]) = bytesOfAll enc p.sent ++ b := by
    simp [bytesOfAll, bytesOf_ok hb]
  refine ⟨?_, ?_, h.bound, h.bytes, h.w, h.wstate, h.wcap, h.r, h.rcap, ?_, h.reach, h.eos, ?_⟩
  · intro y hy
    simp only [List.mem_append, List.mem_singleton] at hy
    rcases hy with hy | rfl
    · exact h.msgs y hy
    · exact ⟨hx, b, hb⟩
  · simp only [hall]
    exact .start h.sends hi hx hb hs
  · simp only [hall, hc]
    have := h.dec
    rw [hc] at this
    exact decRun_extend this b _
  · intro hc'
    simp only [hc] at hc'
    cases hc'

theorem PipeInv.encode (hE : Emits strict E sE dom enc) {p : Pipe τ σ α} {pos : Nat} {emitted : Bytes}
    (h : PipeInv E sE D sD dom enc wcap rcap p pos emitted) :
    ∃ s' b', encodeToWriteBuf E p.enc p.wbuf = (.ok (), s', b') ∧
      (E.isIdle s' = true ↔ (bytesOfAll enc p.sent).length - emitted.length ≤ p.wbuf.room) ∧
      PipeInv E sE D sD dom enc wcap rcap { p with enc := s', wbuf := b' } pos
        (emitted ++ ((bytesOfAll enc p.sent).drop emitted.length).take p.wbuf.room) := by
  obtain ⟨t, h1, h2⟩ := hE.encode (cap := p.wbuf.room) (e := Eos.new false) h.sends (by intro h; cases h)
  have hlen : ((bytesOfAll enc p.sent).drop emitted.length |>.take p.wbuf.room).length ≤ p.wbuf.room := by
    simp only [List.length_take]; omega
  have hcw := h.w.cap
  have heq : encodeToWriteBuf E p.enc p.wbuf = (.ok (), t, { p.wbuf with
      inner := splice p.wbuf.inner p.wbuf.tail ((bytesOfAll enc p.sent).drop emitted.length |>.take p.wbuf.room)
      tail := p.wbuf.tail + ((bytesOfAll enc p.sent).drop emitted.length |>.take p.wbuf.room).length }) := by
    rw [encodeToWriteBuf, if_neg (by omega), h.wstate]
    simp only [WriteBuf.room] at h1
    rw [h1]
    rfl
  refine ⟨_, _, heq, h2, ?_⟩
  clear heq
  generalize hbs : ((bytesOfAll enc p.sent).drop emitted.length).take p.wbuf.room = bs at *
  have hroom : p.wbuf.tail + bs.length ≤ p.wbuf.inner.length := by
    simp only [WriteBuf.room] at hlen; omega
  have hcont : (splice p.wbuf.inner p.wbuf.tail bs |>.take (p.wbuf.tail + bs.length)).drop p.wbuf.head
      = p.wbuf.content ++ bs := splice_take_drop h.w.le hroom
  have hle := h.w.le
  have hz := h.w.zero
  refine ⟨h.msgs, ?_, ?_, ?_, ?_, h.wstate, ?_, h.r, h.rcap, h.dec, h.reach, h.eos, ?_⟩
  · exact .encode h.sends (by intro h; cases h) h1
  · have := h.bound
    simp only [List.length_append]
    omega
  · rw [List.drop_append_of_le_length h.bound, h.bytes]
    simp only [WriteBuf.content]
    rw [hcont]
    simp only [WriteBuf.content, List.append_assoc]
  · refine ⟨by simp only; omega, ?_, by simp only; omega⟩
    simp only [splice_len hroom]
    exact hroom
  · simp only [splice_len hroom]
    exact h.wcap
  · intro hc
    obtain ⟨hi, hv⟩ := h.closed hc
    have hem := hE.complete h.sends hi
    have hnil : bs = [] := by
      rw [← hbs, hem]
      simp
    refine ⟨h2.mpr ?_, ?_⟩
    · rw [hem]; omega
    · simp only [WriteBuf.content]
      rw [hcont, hv, hnil]
      rfl

theorem PipeInv.flush {p : Pipe τ σ α} {pos : Nat} {emitted : Bytes}
    (h : PipeInv E sE D sD dom enc wcap rcap p pos emitted) {ω : Type} {W : Writer ω} {w w' : ω} {r : Res Unit}
    {b' : WriteBuf} {log : List (Bytes × WriteRes)} (hW : HonestWriter W)
    (hf : p.wbuf.flush (loggedWriter W) (w, []) = (r, b', (w', log))) (hz : ∀ a ∈ log, a.2 ≠ .wrote 0) :
    PipeInv E sE D sD dom enc wcap rcap { p with wbuf := b', wire := p.wire ++ accepted log } pos emitted := by
  obtain ⟨as, h1, h2, h3, h4, _, _, _, h8, _⟩ := flushLoop_spec hW p.wbuf (w, []) h.w
  obtain ⟨e1, e2, e3, e4⟩ := flush_same (W := loggedWriter W) p.wbuf (w, [])
  have e5 := (flush_eq (W := loggedWriter W) p.wbuf (w, [])).2.1
  rw [hf] at e1 e2 e3 e4 e5
  simp only at e1 e2 e3 e4 e5
  rw [← e5] at h1
  simp only [List.nil_append] at h1
  subst h1
  obtain ⟨c1, c2⟩ := writeInv_congr h3 e1 e2 e3
  refine ⟨h.msgs, h.sends, h.bound, ?_, c1, ?_, ?_, h.r, h.rcap, h.dec, h.reach, ?_, ?_⟩
  · simp only [c2, List.append_assoc]
    rw [h2, h.bytes]
  · simp only [e4, h8]
    cases hl : log.getLast? with
    | none => exact h.wstate
    | some a =>
      have ha : a ∈ log := List.mem_of_getLast? hl
      have := hz a ha
      rcases a with ⟨b, a⟩
      simp only [Option.map_some, Option.getD_some]
      cases a with
      | wrote n =>
        cases n with
        | zero => exact absurd rfl this
        | succ n => rfl
      | error k => cases k <;> rfl
  · simp only [e1, h4, h.wcap]
  · intro he
    obtain ⟨g1, g2⟩ := h.eos he
    obtain ⟨_, g3⟩ := h.closed g1
    rw [g3] at h2
    have := (List.append_eq_nil_iff.mp h2).1
    exact ⟨g1, by simp only [g2, this]; rfl⟩
  · intro hc
    obtain ⟨g1, g3⟩ := h.closed hc
    rw [g3] at h2
    exact ⟨g1, by simp only [c2]; exact (List.append_eq_nil_iff.mp h2).2⟩

theorem PipeInv.close {p : Pipe τ σ α} {pos : Nat} {emitted : Bytes}
    (h : PipeInv E sE D sD dom enc wcap rcap p pos emitted) (hi : E.isIdle p.enc = true)
    (he : p.wbuf.isEmpty = true) :
    PipeInv E sE D sD dom enc wcap rcap { p with closed := true } pos emitted := by
  refine ⟨h.msgs, h.sends, h.bound, h.bytes, h.w, h.wstate, h.wcap, h.r, h.rcap, ?_, h.reach, ?_, ?_⟩
  · cases hc : p.closed with
    | false =>
      have := h.dec
      rw [hc] at this
      have := decRun_extend this [] (Eos.new true)
      rwa [List.append_nil] at this
    | true =>
      have := h.dec
      rwa [hc] at this
  · intro he'
    exact ⟨rfl, (h.eos he').2⟩
  · intro _
    exact ⟨hi, (WriteBuf.content_nil h.w).mpr he⟩

theorem PipeInv.fill {p : Pipe τ σ α} {pos : Nat} {emitted : Bytes}
    (h : PipeInv E sE D sD dom enc wcap rcap p pos emitted) {ρ : Type} {R : Reader ρ} {r r' : ρ} {res : Res Unit}
    {b' : ReadBuf} {log : List ReadRes} {wire' : Bytes} (hR : HonestReader R)
    (hf : p.rbuf.fill (loggedReader R) (r, []) = (res, b', (r', log))) (hw : p.wire = delivered log ++ wire')
    (hz : .data [] ∈ log → p.closed = true ∧ wire' = []) :
    PipeInv E sE D sD dom enc wcap rcap { p with rbuf := b', wire := wire' } pos emitted := by
  obtain ⟨as, h1, h2, h3, h4, _, h6, _⟩ := fill_spec hR p.rbuf (r, []) h.r
  rw [hf] at h1 h2 h3 h4 h6
  simp only [List.nil_append] at h1 h2 h3 h4 h6
  subst h1
  refine ⟨h.msgs, h.sends, h.bound, ?_, h.w, h.wstate, h.wcap, h3, ?_, h.dec, h.reach, ?_, h.closed⟩
  · rw [h.bytes, hw, h2]
    simp only [List.append_assoc]
  · rw [h4, h.rcap]
  · simp only [h6]
    intro he
    cases hl : log.getLast? with
    | none =>
      rw [hl] at he
      obtain ⟨g1, g2⟩ := h.eos he
      rw [g2] at hw
      exact ⟨g1, (List.append_eq_nil_iff.mp hw.symm).2⟩
    | some a =>
      have ha : a ∈ log := List.mem_of_getLast? hl
      rw [hl] at he
      simp only [Option.map_some, Option.getD_some] at he
      have : a = .data [] := by
        cases a with
        | data bs =>
          cases bs with
          | nil => rfl
          | cons x xs => cases he
        | error k => cases k <;> cases he
      exact hz (this ▸ ha)

theorem PipeInv.decode (hE : Emits strict E sE dom enc) (hS : SafeFrom D sD) (hcap : rcap < 2 ^ 64)
    {p : Pipe τ σ α} {pos : Nat} {emitted : Bytes}
    (h : PipeInv E sE D sD dom enc wcap rcap p pos emitted) {s' : σ} {n : Nat} (hi : D.isIdle p.dec = false)
    (hq : D.decode p.dec p.rbuf.content (Eos.new p.rbuf.state.isEos) = (.ok n, s')) :
    decodeFromReadBuf D p.dec p.rbuf = (.ok (), s', p.rbuf.consume n) ∧
    PipeInv E sE D sD dom enc wcap rcap { p with dec := s', rbuf := p.rbuf.consume n } (pos + n) emitted := by
  refine ⟨by rw [decodeFromReadBuf_eq h.r, hq]; rfl, ?_⟩
  have hlen : p.rbuf.content.length < 2 ^ 64 := by
    rw [p.rbuf.content_length h.r]
    have h1 := h.r.cap
    have h2 := h.rcap
    simp only [ReadBuf.len]
    omega
  have hsane := sane_new p.rbuf.state.isEos hlen
  have hs := (hS _ h.reach).1 p.rbuf.content _ hsane
  have hre := Reach.decode p.rbuf.content _ h.reach hsane
  rw [hq] at hs hre
  have hn := hs.2 n rfl
  have hn' : n ≤ p.rbuf.len := by rwa [p.rbuf.content_length h.r] at hn
  obtain ⟨c1, c2, c3, _⟩ := p.rbuf.consume_spec h.r hn'
  have hb : emitted.drop (pos + n) = p.rbuf.content.drop n ++ (p.wire ++ p.wbuf.content) := by
    rw [← List.drop_drop, h.bytes, List.drop_append_of_le_length hn]
  have hb2 : pos + n ≤ emitted.length := by
    have h1 := congrArg List.length h.bytes
    have h2 := h.bound
    simp only [List.length_drop, List.length_append] at h1
    omega
  refine ⟨h.msgs, h.sends, hb2, ?_, h.w, h.wstate, h.wcap, c1, ?_, ?_, hre, ?_, h.closed⟩
  · rw [hb, c2]
  · rw [c3, h.rcap]
  · exact .decode h.dec hi (h.offer hE) hq
  · simp only [ReadBuf.consume_state]
    exact h.eos

theorem PipeInv.finish {p : Pipe τ σ α} {pos : Nat} {emitted : Bytes}
    (h : PipeInv E sE D sD dom enc wcap rcap p pos emitted) {s' : σ} {x : α} (hi : D.isIdle p.dec = true)
    (hf : D.finish p.dec = (.ok x, s')) :
    PipeInv E sE D sD dom enc wcap rcap { p with dec := s', got := p.got ++ [x] } pos emitted := by
  refine ⟨h.msgs, h.sends, h.bound, h.bytes, h.w, h.wstate, h.wcap, h.r, h.rcap, .finish h.dec hi hf, ?_,
    h.eos, h.closed⟩
  have := Reach.finish h.reach
  rwa [hf] at this

theorem PipeInv.step (hE : Emits strict E sE dom enc) (hS : SafeFrom D sD) (hcap : rcap < 2 ^ 64)
    {p q : Pipe τ σ α} {pos : Nat} {emitted : Bytes}
    (h : PipeInv E sE D sD dom enc wcap rcap p pos emitted) (hst : PipeStep E D dom p q) :
    ∃ pos' emitted', PipeInv E sE D sD dom enc wcap rcap q pos' emitted' := by
  cases hst with
  | start x hc hi hx hs => exact ⟨_, _, h.start hE hc hi hx hs⟩
  | encode hs =>
    obtain ⟨s', b', h1, _, h2⟩ := h.encode hE
    rw [h1] at hs
    cases hs
    exact ⟨_, _, h2⟩
  | flush hW hf hz => exact ⟨_, _, h.flush hW hf hz⟩
  | close hi he => exact ⟨_, _, h.close hi he⟩
  | fill hR hf hw hz => exact ⟨_, _, h.fill hR hf hw hz⟩
  | decode hi hd =>
    rcases hq : D.decode p.dec p.rbuf.content (Eos.new p.rbuf.state.isEos) with ⟨r, t⟩
    rw [decodeFromReadBuf_eq h.r, hq] at hd
    cases r with
    | ok n =>
      simp only [Res.step] at hd
      cases hd
      exact ⟨_, _, (h.decode hE hS hcap hi hq).2⟩
    | _ => simp only [Res.step] at hd; cases hd
  | finish hi hf => exact ⟨_, _, h.finish hi hf⟩

theorem pipe_inv (hE : Emits strict E sE dom enc) (hS : SafeFrom D sD) {wstore rstore : Bytes}
    (hcap : rstore.length < 2 ^ 64) {p : Pipe τ σ α}
    (h : PipeSteps E D dom (.new sE sD wstore rstore) p) :
    ∃ pos emitted, PipeInv E sE D sD dom enc wstore.length rstore.length p pos emitted := by
  generalize hp₀ : Pipe.new sE sD wstore rstore = p₀ at h
  induction h with
  | refl =>
    subst hp₀
    refine ⟨0, [], by simp [Pipe.new], .new, Nat.le_refl _, ?_, ?_, rfl, rfl, ?_, rfl, .new, .refl, ?_, ?_⟩
    · simp [Pipe.new, ReadBuf.new, ReadBuf.content, WriteBuf.new, WriteBuf.content]
    · exact ⟨Nat.le_refl _, by simp [Pipe.new, WriteBuf.new], fun _ => rfl⟩
    · exact ⟨Nat.le_refl _, by simp [Pipe.new, ReadBuf.new], fun _ => rfl⟩
    · intro h; cases h
    · intro h; cases h
  | step _ hst ih =>
    obtain ⟨pos, em, hi⟩ := ih
    exact hi.step hE hS hcap hst

end

/-! ## Making progress -/

/-- A reader that delivers the given pieces (as far as they fit) and would block afterwards. -/
def scriptReader : Reader (List Bytes) where
  read r n := match r with
    | [] => (.error .wouldBlock, [])
    | b :: bs => (.data (b.take n), bs)

theorem scriptReader_honest : HonestReader scriptReader := by
  intro r n bs r' h
  cases r with
  | nil => cases h
  | cons b r =>
    simp only [scriptReader] at h
    cases h
    simp only [List.length_take]
    omega

theorem vecWriter_honest : HonestWriter vecWriter := by
  intro w b n w' h
  simp only [vecWriter] at h
  cases h
  exact Nat.le_refl _

/-- A writer that accepts everything empties the buffer. -/
theorem flush_all {b : WriteBuf} (h : b.Inv) :
    ∃ b' log, b.flush (loggedWriter vecWriter) ([], []) = (.ok (), b', (b.content, log)) ∧
      accepted log = b.content ∧ b'.content = [] ∧ (∀ a ∈ log, a.2 ≠ .wrote 0) := by
  have h1 := h.le
  have h2 := h.cap
  by_cases he : b.isEmpty = true
  · have hc := (WriteBuf.content_nil h).mpr he
    have hw := b.wake_eq
    refine ⟨b.wakeIfRoom, [], ?_, by rw [hc]; rfl, ?_, by simp⟩
    · rw [WriteBuf.flush, WriteBuf.flushLoop, dif_pos he, hc]; rfl
    · simp only [WriteBuf.content, hw.1, hw.2.1, hw.2.2.1]
      exact hc
  · have hcl := b.content_length h
    have hne : b.content ≠ [] := fun hc => he ((WriteBuf.content_nil h).mp hc)
    obtain ⟨k, hk⟩ : ∃ k, b.content.length = k + 1 := by
      cases hq : b.content with
      | nil => exact absurd hq hne
      | cons x xs => exact ⟨xs.length, rfl⟩
    have hI : ({ b with state := .normal } : WriteBuf).Inv := ⟨h.1, h.2, h.3⟩
    have hcons := WriteBuf.consume_spec (b := { b with state := .normal }) hI (n := k + 1)
      (by rw [← hk, hcl]; exact Nat.le_refl _)
    have hcc : (({ b with state := .normal } : WriteBuf).consume (k + 1)).content = [] := by
      rw [hcons.2.1]
      exact List.drop_eq_nil_of_le (by rw [← hk]; exact Nat.le_refl _)
    have hem := (WriteBuf.content_nil hcons.1).mp hcc
    have hw := (({ b with state := .normal } : WriteBuf).consume (k + 1)).wake_eq
    refine ⟨(({ b with state := .normal } : WriteBuf).consume (k + 1)).wakeIfRoom, [(b.content, .wrote (k + 1))],
      ?_, ?_, ?_, ?_⟩
    · rw [WriteBuf.flush, WriteBuf.flushLoop, dif_neg he, dif_neg (by omega)]
      have hwr : (loggedWriter vecWriter).write ([], []) ((b.inner.take b.tail).drop b.head) =
          (.wrote (k + 1), (b.content, [(b.content, .wrote (k + 1))])) := by
        have : (b.inner.take b.tail).drop b.head = b.content := rfl
        simp only [loggedWriter, vecWriter, this, hk]
        rfl
      rw [hwr]
      simp only
      rw [WriteBuf.flushLoop, dif_pos hem]
      rfl
    · simp only [accepted, List.flatMap_cons, List.flatMap_nil, taken, List.append_nil]
      exact List.take_of_length_le (by omega)
    · simp only [WriteBuf.content, hw.1, hw.2.1, hw.2.2.1]
      exact hcc
    · simp

/-- One round of reading from a pipe that holds `wire`: takes what fits; on an empty closed pipe reports
the end of the stream. -/
theorem fill_some {b : ReadBuf} (h : b.Inv) (hroom : b.tail < b.inner.length) {wire : Bytes} (hw : wire ≠ []) :
    ∃ b' res r' log, b.fill (loggedReader scriptReader) ([wire], []) = (res, b', (r', log)) ∧
      wire = delivered log ++ wire.drop (b.inner.length - b.tail) ∧ .data [] ∉ log := by
  obtain ⟨x, xs, hx⟩ : ∃ x xs, wire.take (b.inner.length - b.tail) = x :: xs := by
    cases hq : wire.take (b.inner.length - b.tail) with
    | nil =>
      rcases List.take_eq_nil_iff.mp hq with h | h
      · omega
      · exact absurd h hw
    | cons x xs => exact ⟨x, xs, rfl⟩
  have hxl : (x :: xs).length ≤ b.inner.length - b.tail := by
    rw [← hx, List.length_take]; omega
  have hrd : (loggedReader scriptReader).read ([wire], []) (b.inner.length - b.tail) =
      (.data (x :: xs), ([], [.data (x :: xs)])) := by
    simp only [loggedReader, scriptReader, hx]
    rfl
  have hnf : ¬ b.isFull = true := by simp only [ReadBuf.isFull, beq_iff_eq]; omega
  rw [ReadBuf.fill, dif_neg hnf, dif_neg (by omega), hrd]
  simp only
  generalize hb1 : (ReadBuf.mk (splice b.inner b.tail ((x :: xs).take (b.inner.length - b.tail))) b.head
    (b.tail + (x :: xs).length) .normal) = b1
  have hdel : wire = delivered [.data (x :: xs)] ++ wire.drop (b.inner.length - b.tail) := by
    simp only [delivered, List.flatMap_cons, List.flatMap_nil, ReadRes.bytes, List.append_nil]
    rw [← hx, List.take_append_drop]
  by_cases hf : b1.isFull = true
  · rw [ReadBuf.fill, dif_pos hf]
    exact ⟨_, _, _, _, rfl, hdel, by simp⟩
  · have hb1c : ¬ b1.inner.length < b1.tail := by
      rw [← hb1]
      simp only
      rw [List.take_of_length_le hxl, splice_len (by omega)]
      omega
    rw [ReadBuf.fill, dif_neg hf, dif_neg hb1c]
    refine ⟨_, _, _, [.data (x :: xs), .error .wouldBlock], rfl, ?_, by simp⟩
    simpa [delivered, ReadRes.bytes] using hdel

theorem fill_eos {b : ReadBuf} (hroom : b.tail < b.inner.length) :
    b.fill (loggedReader scriptReader) ([[]], []) = (.ok (), { b with state := .eos }, ([], [.data []])) := by
  have hnf : ¬ b.isFull = true := by simp only [ReadBuf.isFull, beq_iff_eq]; omega
  rw [ReadBuf.fill, dif_neg hnf, dif_neg (by omega)]
  simp [loggedReader, scriptReader]

theorem pipe_trans {E : Encoder τ α} {D : Decoder σ α} {dom : α → Prop} {p q r : Pipe τ σ α}
    (h1 : PipeSteps E D dom p q) (h2 : PipeSteps E D dom q r) : PipeSteps E D dom p r := by
  induction h2 with
  | refl => exact h1
  | step _ hst ih => exact .step ih hst

section

variable {strict delim again : Bool} {E : Encoder τ α} {sE : τ} {D : Decoder σ α} {sD : σ} {dom : α → Prop}
  {enc : α → Except ErrorKind Bytes} {wcap rcap : Nat}

/-- The sender can hand everything to the pipe. -/
theorem pipe_drain (hE : Emits strict E sE dom enc) (hS : SafeFrom D sD) (hr : rcap < 2 ^ 64) (hw : 0 < wcap) :
    ∀ (n : Nat) {p : Pipe τ σ α} {pos : Nat} {emitted : Bytes},
      PipeInv E sE D sD dom enc wcap rcap p pos emitted → (bytesOfAll enc p.sent).length - emitted.length ≤ n →
      ∃ q, PipeSteps E D dom p q ∧ q.sent = p.sent ∧ q.got = p.got ∧ E.isIdle q.enc = true ∧
        q.wbuf.isEmpty = true ∧ q.closed = p.closed := by
  intro n
  induction n with
  | zero =>
    intro p pos emitted h hn
    -- one more call of `encode`, in case the item is complete but the encoder has not noticed
    obtain ⟨s', b', h1, h2, hI1⟩ := h.encode hE
    have st1 : PipeStep E D dom p _ := .encode h1
    obtain ⟨b2, log, h3, h4, h5, h6⟩ := flush_all hI1.w
    have st2 := PipeStep.flush (E := E) (D := D) (dom := dom) vecWriter_honest h3 h6
    have hI2 := hI1.flush vecWriter_honest h3 h6
    exact ⟨_, .step (.step .refl st1) st2, rfl, rfl, h2.mpr (by omega), (WriteBuf.content_nil hI2.w).mp h5, rfl⟩
  | succ n ih =>
    intro p pos emitted h hn
    -- empty the buffer, then fill it again
    obtain ⟨b2, log, h3, h4, h5, h6⟩ := flush_all h.w
    have st1 := PipeStep.flush (E := E) (D := D) (dom := dom) vecWriter_honest h3 h6
    have hI1 := h.flush vecWriter_honest h3 h6
    obtain ⟨s', b', h7, h8, hI2⟩ := hI1.encode hE
    have st2 := PipeStep.encode (D := D) (dom := dom) h7
    have htail : b2.tail = 0 := by
      have := (WriteBuf.content_nil hI1.w).mp h5
      simpa [WriteBuf.isEmpty] using this
    have hcapw := hI1.wcap
    simp only at hcapw
    obtain ⟨q, hq1, hq2, hq3, hq4, hq5⟩ := ih hI2 (by
      simp only [List.length_append, List.length_take, List.length_drop, WriteBuf.room]
      omega)
    exact ⟨q, pipe_trans (.step (.step .refl st1) st2) hq1, hq2, hq3, hq4, hq5⟩

/-- What the receiver gets, whatever has happened. -/
theorem PipeInv.receives (hM : Matched strict delim again E sE D sD dom enc)
    {p : Pipe τ σ α} {pos : Nat} {emitted : Bytes} (h : PipeInv E sE D sD dom enc wcap rcap p pos emitted)
    (hl : (bytesOfAll enc p.sent).length < 2 ^ 64) (ha : delim = true ∧ again = true ∨ p.sent.length ≤ 1) :
    Receives D sD (bytesOfAll enc p.sent) (Eos.new true) p.sent (fun x => (bytesOf (enc x)).length) ∧
      DecRun D (bytesOfAll enc p.sent) (Eos.new true) sD p.dec pos p.got ∧
      Offer (bytesOfAll enc p.sent) (Eos.new true) pos p.rbuf.content (Eos.new p.rbuf.state.isEos) := by
  have hd : ∀ x ∈ p.sent, dom x ∧ ∃ b, enc x = .ok b ∧ (bytesOf (enc x)).length = b.length := by
    intro x hx
    obtain ⟨h1, b, h2⟩ := h.msgs x hx
    exact ⟨h1, b, h2, by rw [bytesOf_ok h2]⟩
  refine ⟨?_, ?_, ?_⟩
  · have := matched_receives hM (tail := []) (e := Eos.new true) hd
      (by rw [List.append_nil]; exact sane_new true hl) ha (.inr ⟨rfl, rfl⟩)
    rwa [List.append_nil] at this
  · have := h.dec
    cases hc : p.closed with
    | true => rwa [hc] at this
    | false =>
      rw [hc] at this
      have := decRun_extend this [] (Eos.new true)
      rwa [List.append_nil] at this
  · obtain ⟨rest, h1, h2⟩ := h.offer (matched_emits hM)
    refine ⟨rest, h1, ?_⟩
    cases hc : p.closed with
    | true => rwa [hc] at h2
    | false =>
      rw [hc] at h2
      left
      rcases h2 with h2 | h2 <;> rw [h2]
      rfl

/-- The receiver can take everything from the closed pipe. -/
theorem pipe_receive (hM : Matched strict delim again E sE D sD dom enc) (hS : SafeFrom D sD)
    (hcap : rcap < 2 ^ 64) (hr : 0 < rcap) :
    ∀ (k m : Nat) {p : Pipe τ σ α} {pos : Nat} {emitted : Bytes},
      PipeInv E sE D sD dom enc wcap rcap p pos emitted → p.closed = true →
      (bytesOfAll enc p.sent).length < 2 ^ 64 → (delim = true ∧ again = true ∨ p.sent.length ≤ 1) →
      p.sent.length - p.got.length ≤ k → (bytesOfAll enc p.sent).length - pos + p.wire.length ≤ m →
      ∃ q, PipeSteps E D dom p q ∧ q.sent = p.sent ∧ q.got = p.got ++ p.sent.drop p.got.length := by
  intro k
  induction k with
  | zero =>
    intro m p pos em h hc hl ha hk hm
    exact ⟨p, .refl, rfl, by rw [List.drop_eq_nil_of_le (by omega), List.append_nil]⟩
  | succ k ihk =>
    intro m
    induction m using Nat.strongRecOn with
    | ind m ihm =>
    intro p pos em h hc hl ha hk hm
    by_cases hk0 : p.sent.length ≤ p.got.length
    · exact ⟨p, .refl, rfl, by rw [List.drop_eq_nil_of_le hk0, List.append_nil]⟩
    have hE := matched_emits hM
    obtain ⟨hR, hD, hO⟩ := h.receives hM hl ha
    have hgot : p.got = p.sent.take p.got.length := by
      have := hR.inOrder hD
      rwa [List.take_of_length_le (by omega)] at this
    obtain ⟨x, more, hx⟩ : ∃ x more, p.sent.drop p.got.length = x :: more := by
      cases hq : p.sent.drop p.got.length with
      | nil =>
        have := List.drop_eq_nil_iff.mp hq
        omega
      | cons x more => exact ⟨x, more, rfl⟩
    have hsent : p.sent = p.got ++ x :: more := by
      rw [← hx]
      conv => lhs; rw [← List.take_append_drop p.got.length p.sent, ← hgot]
    -- an idle decoder hands out the next message
    have fin : ∀ {p' : Pipe τ σ α} {pos' em'}, PipeInv E sE D sD dom enc wcap rcap p' pos' em' → p'.closed = true →
        p'.sent = p.sent → p'.got = p.got → D.isIdle p'.dec = true →
        ∃ q, PipeSteps E D dom p' q ∧ q.sent = p.sent ∧ q.got = p.got ++ p.sent.drop p.got.length := by
      intro p' pos' em' h' hc' e1 e2 hi
      obtain ⟨hR', hD', _⟩ := h'.receives hM (by rwa [e1]) (by rwa [e1])
      obtain ⟨⟨s', hf⟩, _⟩ := hR'.ready hD' (x := x) (more := more) (by rw [e1, e2]; exact hsent) hi
      have hst := PipeStep.finish (E := E) (dom := dom) hi hf
      obtain ⟨q, q1, q2, q3⟩ := ihk _ (h'.finish hi hf) hc' (by simpa only [e1] using hl)
        (by simpa only [e1] using ha)
        (by simp only [e1, e2, List.length_append, List.length_singleton]; omega) (Nat.le_refl _)
      refine ⟨q, pipe_trans (.step .refl hst) q1, by rw [q2]; exact e1, ?_⟩
      rw [q3]
      simp only [e1, e2, List.length_append, List.length_singleton]
      rw [hx, ← List.drop_drop, hx]
      simp
    cases hi : D.isIdle p.dec with
    | true => exact fin h hc rfl rfl hi
    | false =>
    by_cases hcont : p.rbuf.content = []
    · have htail := ReadBuf.content_nil h.r hcont
      have hrc := h.rcap
      by_cases hwire : p.wire = []
      · -- the end of the stream
        have hdrop : (bytesOfAll enc p.sent).drop pos = [] := by
          obtain ⟨g1, g2⟩ := h.closed hc
          rw [← hE.complete h.sends g1, h.bytes, hcont, hwire, g2]
          rfl
        obtain ⟨p', hs', h', hsp⟩ : ∃ p', PipeSteps E D dom p p' ∧
            PipeInv E sE D sD dom enc wcap rcap p' pos em ∧ p' = { p with rbuf := { p.rbuf with state := .eos } } := by
          have hf := fill_eos (b := p.rbuf) (by omega)
          have hz : ReadRes.data [] ∈ [ReadRes.data []] → p.closed = true ∧ ([] : Bytes) = [] :=
            fun _ => ⟨hc, rfl⟩
          have hst := PipeStep.fill (E := E) (D := D) (dom := dom) (wire' := []) scriptReader_honest hf
            (by rw [hwire]; rfl) hz
          have hinv := h.fill (wire' := []) scriptReader_honest hf (by rw [hwire]; rfl) hz
          rw [← hwire] at hst hinv
          exact ⟨_, .step .refl hst, hinv, rfl⟩
        subst hsp
        have hcont' : (ReadBuf.content { p.rbuf with state := .eos }) = [] := hcont
        have hO' : Offer (bytesOfAll enc p.sent) (Eos.new true) pos [] (Eos.new true) :=
          ⟨[], by rw [hdrop]; rfl, .inr rfl⟩
        obtain ⟨n, s', hd, hn, _⟩ := hR.going hD hsent hi hO'
        have hcomp := hR.complete hD hsent hi
        rw [hdrop, hd] at hcomp
        obtain ⟨g1, g2⟩ := h'.decode hE hS hcap (n := n) (s' := s') hi (by
          simp only [hcont']
          exact hd)
        have hst := PipeStep.decode (E := E) (D := D) (dom := dom) (p := { p with rbuf := { p.rbuf with state := .eos } })
          hi g1
        obtain ⟨q, q1, q2, q3⟩ := fin g2 hc rfl rfl hcomp
        exact ⟨q, pipe_trans (.step hs' hst) q1, q2, q3⟩
      · obtain ⟨b', res, r', log, hf, hw, hz⟩ := fill_some h.r (by omega) hwire
        have hz' : ReadRes.data [] ∈ log → p.closed = true ∧
            p.wire.drop (p.rbuf.inner.length - p.rbuf.tail) = [] := fun h => absurd h hz
        have hst := PipeStep.fill (E := E) (D := D) (dom := dom) scriptReader_honest hf hw hz'
        have hinv := h.fill scriptReader_honest hf hw hz'
        have hwl : 0 < p.wire.length := List.length_pos_iff.mpr hwire
        obtain ⟨q, q1, q2, q3⟩ := ihm _ (by
            simp only [List.length_drop]
            omega : (bytesOfAll enc p.sent).length - pos +
              (p.wire.drop (p.rbuf.inner.length - p.rbuf.tail)).length < m) hinv hc hl ha hk (Nat.le_refl _)
        exact ⟨q, pipe_trans (.step .refl hst) q1, q2, q3⟩
    · obtain ⟨n, s', hd, hn, hfull, _⟩ := hR.going hD hsent hi hO
      obtain ⟨g1, g2⟩ := h.decode hE hS hcap hi hd
      have hst := PipeStep.decode (E := E) (D := D) (dom := dom) hi g1
      cases hi' : D.isIdle s' with
      | true =>
        obtain ⟨q, q1, q2, q3⟩ := fin g2 hc rfl rfl hi'
        exact ⟨q, pipe_trans (.step .refl hst) q1, q2, q3⟩
      | false =>
        have hnl := hfull hi'
        have hcl : 0 < p.rbuf.content.length := List.length_pos_iff.mpr hcont
        have hb1 := g2.bound
        have hb2 := (hE.inOrder h.sends).length_le
        obtain ⟨q, q1, q2, q3⟩ := ihm _ (by
            omega : (bytesOfAll enc p.sent).length - (pos + n) + p.wire.length < m) g2 hc hl ha hk (Nat.le_refl _)
        exact ⟨q, pipe_trans (.step .refl hst) q1, q2, q3⟩

end
end Bytecodec
