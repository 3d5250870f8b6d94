import Verif.Lemmas.Tasks
import Verif.Spec.Session
/-!
# Lemmas: a client and a server over one connection
-/
namespace Bytecodec
open Spec

variable {τ σ τ' σ' α β : Type}

/-! ## `execute_io` over the connection -/

/-- What `fill` does over the connection: it moves `k` bytes. -/
structure LineFilled (b : ReadBuf) (l : Line) (b' : ReadBuf) (l' : Line) (k : Nat) : Prop where
  le : k ≤ l.inc.length
  inv : b'.Inv
  storage : b'.inner.length = b.inner.length
  content : b'.content = b.content ++ l.inc.take k
  inc : l'.inc = l.inc.drop k
  out : l'.out = l.out
  eos : b.state.isEos = false → b'.state.isEos = false
  stop : b'.isFull = true ∨ l'.inc = []

theorem line_fill (cap : Nat) (b : ReadBuf) (l : Line) (h : b.Inv) :
    (b.fill (Line.stream cap).reader l).1 = .ok () ∧
    ∃ k, LineFilled b l (b.fill (Line.stream cap).reader l).2.1 (b.fill (Line.stream cap).reader l).2.2 k := by
  induction b, l using ReadBuf.fill.induct (Line.stream cap).reader with
  | case1 b l h1 =>
    rw [ReadBuf.fill, dif_pos h1]
    exact ⟨rfl, 0, Nat.zero_le _, h, rfl, by simp, rfl, rfl, id, .inl h1⟩
  | case2 b l h1 h2 => exact absurd h2 (by have := h.cap; omega)
  | case3 b l h1 h2 l' hr =>
    rw [ReadBuf.fill, dif_neg h1, dif_neg h2, hr]
    simp only [Line.stream] at hr
    split at hr
    · next hw =>
      cases hr
      exact ⟨rfl, 0, Nat.zero_le _, ⟨h.le, h.cap, h.zero⟩, rfl, by simp [ReadBuf.content], rfl, rfl,
        fun _ => rfl, .inr hw⟩
    · cases hr
  | case4 b l h1 h2 k l' hr hk =>
    exfalso
    simp only [Line.stream] at hr
    split at hr
    · cases hr; exact hk rfl
    · cases hr
  | case5 b l h1 h2 l' hr =>
    exfalso
    simp only [Line.stream] at hr
    split at hr
    · cases hr
    · next hw =>
      simp only [Prod.mk.injEq, ReadRes.data.injEq] at hr
      have hl := congrArg List.length hr.1
      have := List.length_pos_iff.mpr hw
      have h3 : ¬ b.tail = b.inner.length := by simpa [ReadBuf.isFull] using h1
      simp only [List.length_take, List.length_nil] at hl
      omega
  | case6 b l h1 h2 x xs l' hr ih =>
    rw [ReadBuf.fill, dif_neg h1, dif_neg h2, hr]
    simp only
    simp only [Line.stream] at hr
    split at hr
    · cases hr
    · next hw =>
      simp only [Prod.mk.injEq, ReadRes.data.injEq] at hr
      obtain ⟨hx, rfl⟩ := hr
      have hlen := congrArg List.length hx
      have hcap := h.cap
      simp only [List.length_take] at hlen
      have hxl : (x :: xs).length ≤ b.inner.length - b.tail := by omega
      have htake : (x :: xs).take (b.inner.length - b.tail) = x :: xs := List.take_of_length_le hxl
      rw [htake] at ih ⊢
      have hsl := splice_len (inner := b.inner) (src := x :: xs) (tail := b.tail) (by omega)
      have hle := h.le
      have hInv : (⟨splice b.inner b.tail (x :: xs), b.head, b.tail + (x :: xs).length, .normal⟩ : ReadBuf).Inv := by
        refine ⟨?_, ?_, ?_⟩
        · simp only; omega
        · simp only [hsl]; omega
        · simp only [List.length_cons]; omega
      have hcont : (⟨splice b.inner b.tail (x :: xs), b.head, b.tail + (x :: xs).length, .normal⟩ : ReadBuf).content = b.content ++ (x :: xs) := by
        simp only [ReadBuf.content]
        exact splice_take_drop h.le (by omega)
      obtain ⟨hok, k, f⟩ := ih hInv
      refine ⟨hok, ?_⟩
      have hfl := f.le
      simp only [List.length_drop] at hfl
      have e1 : x :: xs = l.inc.take (x :: xs).length := by
        rw [← hlen, ← List.take_eq_take_min]
        exact hx.symm
      have e2 : l.inc.drop (min (b.inner.length - b.tail) (l.sizes 0 + 1)) = l.inc.drop (x :: xs).length := by
        rw [← hlen]
        generalize min (b.inner.length - b.tail) (l.sizes 0 + 1) = m
        by_cases hq : m ≤ l.inc.length
        · rw [Nat.min_eq_left hq]
        · rw [Nat.min_eq_right (by omega), List.drop_length]
          exact List.drop_eq_nil_of_le (by omega)
      refine ⟨(x :: xs).length + k, by omega, f.inv, by rw [f.storage]; exact hsl, ?_, ?_, f.out,
        fun _ => f.eos rfl, f.stop⟩
      · rw [f.content, hcont, List.append_assoc, List.take_add, ← e1]
        simp only [e2]
      · rw [f.inc]
        simp only [e2, List.drop_drop]

/-- What `flush` does over the connection: it moves `k` bytes. -/
structure LineFlushed (cap : Nat) (b : WriteBuf) (l : Line) (b' : WriteBuf) (l' : Line) (k : Nat) : Prop where
  le : k ≤ b.content.length
  inv : b'.Inv
  storage : b'.inner.length = b.inner.length
  content : b'.content = b.content.drop k
  out : l'.out = l.out ++ b.content.take k
  inc : l'.inc = l.inc
  eos : b.state.isEos = false → b'.state.isEos = false
  stop : b'.content = [] ∨ cap ≤ l'.out.length

theorem line_flushLoop (cap : Nat) (b : WriteBuf) (l : Line) (h : b.Inv) :
    (b.flushLoop (Line.stream cap).writer l).1 = .ok () ∧
    ∃ k, LineFlushed cap b l (b.flushLoop (Line.stream cap).writer l).2.1
      (b.flushLoop (Line.stream cap).writer l).2.2 k := by
  induction b, l using WriteBuf.flushLoop.induct (Line.stream cap).writer with
  | case1 b l h1 =>
    rw [WriteBuf.flushLoop, dif_pos h1]
    exact ⟨rfl, 0, Nat.zero_le _, h, rfl, rfl, by simp, rfl, id, .inl ((WriteBuf.content_nil h).mpr h1)⟩
  | case2 b l h1 h2 => exact absurd h2 (by have := h.le; have := h.cap; omega)
  | case3 b l h1 h2 l' hw =>
    rw [WriteBuf.flushLoop, dif_neg h1, dif_neg h2, hw]
    simp only [Line.stream] at hw
    split at hw
    · next hfull =>
      cases hw
      exact ⟨rfl, 0, Nat.zero_le _, ⟨h.le, h.cap, h.zero⟩, rfl, rfl, by simp, rfl, fun _ => rfl, .inr hfull⟩
    · cases hw
  | case4 b l h1 h2 k l' hw hk =>
    exfalso
    simp only [Line.stream] at hw
    split at hw
    · cases hw; exact hk rfl
    · cases hw
  | case5 b l h1 h2 l' hw =>
    exfalso
    simp only [Line.stream] at hw
    split at hw
    · cases hw
    · have hne : b.content ≠ [] := fun hn => h1 ((WriteBuf.content_nil h).mp hn)
      have hlen : 0 < b.content.length := List.length_pos_iff.mpr hne
      simp only [WriteBuf.content] at hlen
      simp only [Prod.mk.injEq, WriteRes.wrote.injEq] at hw
      omega
  | case6 b l h1 h2 n l' hw ih =>
    rw [WriteBuf.flushLoop, dif_neg h1, dif_neg h2, hw]
    simp only [Line.stream] at hw
    split at hw
    · cases hw
    · next hroom =>
      simp only [Prod.mk.injEq, WriteRes.wrote.injEq] at hw
      obtain ⟨hn, rfl⟩ := hw
      have hcl := b.content_length h
      have hle : n + 1 ≤ b.content.length := by simp only [WriteBuf.content]; omega
      have hInv0 : ({ b with state := .normal } : WriteBuf).Inv := ⟨h.le, h.cap, h.zero⟩
      obtain ⟨g1, g2, g3, _, _, g6⟩ := WriteBuf.consume_spec hInv0 (n := n + 1) (by
        have : ({ b with state := .normal } : WriteBuf).len = b.len := rfl
        omega)
      obtain ⟨hok, k, f⟩ := ih g1
      refine ⟨hok, ?_⟩
      have hcont : ({ b with state := .normal } : WriteBuf).content = b.content := rfl
      rw [hcont] at g2
      have hfl := f.le
      rw [g2, List.length_drop] at hfl
      refine ⟨n + 1 + k, by omega, f.inv, by rw [f.storage, g3], ?_, ?_, f.inc, fun _ => f.eos (by rw [g6]; rfl),
        f.stop⟩
      · rw [f.content, g2, List.drop_drop]
      · rw [f.out, g2, hn, List.append_assoc]
        congr 1
        rw [List.take_add]
        rfl

theorem line_flush (cap : Nat) (b : WriteBuf) (l : Line) (h : b.Inv) :
    (b.flush (Line.stream cap).writer l).1 = .ok () ∧
    ∃ k, LineFlushed cap b l (b.flush (Line.stream cap).writer l).2.1 (b.flush (Line.stream cap).writer l).2.2 k := by
  obtain ⟨h1, k, f⟩ := line_flushLoop cap b l h
  rcases hf : b.flushLoop (Line.stream cap).writer l with ⟨r, b', l'⟩
  rw [hf] at h1 f
  simp only at h1 f
  subst h1
  simp only [WriteBuf.flush, hf, Res.step]
  obtain ⟨e1, e2, e3, e4⟩ : b'.wakeIfRoom.inner = b'.inner ∧ b'.wakeIfRoom.head = b'.head ∧
      b'.wakeIfRoom.tail = b'.tail ∧ b'.wakeIfRoom.state = b'.state := by
    unfold WriteBuf.wakeIfRoom
    split
    · split <;> exact ⟨rfl, rfl, rfl, rfl⟩
    · exact ⟨rfl, rfl, rfl, rfl⟩
  obtain ⟨c1, c2⟩ := writeInv_congr f.inv e1 e2 e3
  exact ⟨trivial, k, f.le, c1, by rw [e1, f.storage], by rw [c2, f.content], f.out, f.inc,
    fun h => by rw [e4]; exact f.eos h, by rw [c2]; exact f.stop⟩

theorem exchange_eq (cap : Nat) (l : Line) (r : ReadBuf) (w : WriteBuf) (hr : r.Inv) (hw : w.Inv) :
    ∃ l' r' w' k j l₁, exchange cap l r w = some (l', r', w') ∧ LineFilled r l r' l₁ k ∧
      LineFlushed cap w l₁ w' l' j := by
  obtain ⟨h1, k, f⟩ := line_fill cap r l hr
  rcases hf : r.fill (Line.stream cap).reader l with ⟨x, r', l₁⟩
  rw [hf] at h1 f
  simp only at h1 f
  subst h1
  obtain ⟨h2, j, g⟩ := line_flush cap w l₁ hw
  rcases hg : w.flush (Line.stream cap).writer l₁ with ⟨x, w', l'⟩
  rw [hg] at h2 g
  simp only at h2 g
  subst h2
  exact ⟨l', r', w', k, j, l₁, by simp [exchange, BufferedIo.executeIo, hf, hg, Res.step], f, g⟩

/-! ## One direction of the connection -/

section

variable {strict : Bool} {E : Encoder τ α} {sE : τ} {D : Decoder σ α} {sD : σ} {dom : α → Prop}
  {enc : α → Except ErrorKind Bytes} {wcap rcap cap : Nat}

theorem PipeInv.notEos {p : Pipe τ σ α} {pos : Nat} {emitted : Bytes}
    (h : PipeInv E sE D sD dom enc wcap rcap p pos emitted) (hc : p.closed = false) : p.rbuf.state.isEos = false := by
  cases hs : p.rbuf.state.isEos with
  | false => rfl
  | true => exact absurd (h.eos hs).1 (by simp [hc])

theorem PipeInv.lineFilled {p : Pipe τ σ α} {pos : Nat} {emitted : Bytes}
    (h : PipeInv E sE D sD dom enc wcap rcap p pos emitted) (hc : p.closed = false) {l l' : Line} {b' : ReadBuf}
    {k : Nat} (f : LineFilled p.rbuf l b' l' k) (hw : l.inc = p.wire) :
    PipeInv E sE D sD dom enc wcap rcap { p with rbuf := b', wire := l'.inc } pos emitted := by
  refine ⟨h.msgs, h.sends, h.bound, ?_, h.w, h.wstate, h.wcap, f.inv, by rw [f.storage, h.rcap], h.dec, h.reach,
    ?_, h.closed⟩
  · simp only [f.inc, f.content, hw, h.bytes, List.append_assoc]
    rw [← List.append_assoc (p.wire.take k), List.take_append_drop]
  · intro he
    rw [f.eos (h.notEos hc)] at he
    cases he

theorem PipeInv.lineFlushed {p : Pipe τ σ α} {pos : Nat} {emitted : Bytes}
    (h : PipeInv E sE D sD dom enc wcap rcap p pos emitted) (hc : p.closed = false) {l l' : Line} {b' : WriteBuf}
    {k : Nat} (f : LineFlushed cap p.wbuf l b' l' k) (hw : l.out = p.wire) :
    PipeInv E sE D sD dom enc wcap rcap { p with wbuf := b', wire := l'.out } pos emitted := by
  refine ⟨h.msgs, h.sends, h.bound, ?_, f.inv, f.eos h.wstate, by rw [f.storage, h.wcap], h.r, h.rcap, h.dec, h.reach,
    ?_, ?_⟩
  · simp only [f.out, f.content, hw, h.bytes, List.append_assoc, List.take_append_drop]
  · intro he
    rw [h.notEos hc] at he
    cases he
  · intro hc'
    simp only [hc] at hc'
    cases hc'

/-- An idle decoder has a message that was sent. -/
theorem PipeInv.idle (hM : Matched strict true true E sE D sD dom enc)
    {z : α} {bz : Bytes} (hz : dom z) (hbz : enc z = .ok bz) (hne : bz ≠ [])
    {p : Pipe τ σ α} {pos : Nat} {emitted : Bytes}
    (h : PipeInv E sE D sD dom enc wcap rcap p pos emitted) (hc : p.closed = false)
    (hg : p.got <+: p.sent) (hi : D.isIdle p.dec = true) :
    ∃ x s', D.finish p.dec = (.ok x, s') ∧ p.got ++ [x] <+: p.sent := by
  have hE := matched_emits hM
  have hall : bytesOfAll enc (p.sent ++ [z]) = bytesOfAll enc p.sent ++ bz := by
    simp [bytesOfAll, bytesOf_ok hbz]
  have hd : ∀ x ∈ p.sent ++ [z], dom x ∧ ∃ b, enc x = .ok b ∧ (bytesOf (enc x)).length = b.length := by
    intro x hx
    simp only [List.mem_append, List.mem_singleton] at hx
    rcases hx with hx | rfl
    · obtain ⟨h1, b, h2⟩ := h.msgs x hx
      exact ⟨h1, b, h2, by rw [bytesOf_ok h2]⟩
    · exact ⟨hz, bz, hbz, by rw [bytesOf_ok hbz]⟩
  have hR := matched_receives hM (tail := []) (e := Eos.new false) hd
    (by intro n hn; cases hn) (.inl ⟨rfl, rfl⟩) (.inl rfl)
  rw [List.append_nil] at hR
  have hD := h.dec
  rw [hc] at hD
  have hD := decRun_extend hD bz (Eos.new false)
  rw [← hall] at hD
  obtain ⟨more, hmore⟩ := hg
  cases more with
  | nil =>
    rw [List.append_nil] at hmore
    obtain ⟨_, hpos⟩ := hR.ready hD (x := z) (more := []) (by rw [hmore]) hi
    have hb := h.bound
    have hb2 := (hE.inOrder h.sends).length_le
    have hsum : ((p.got ++ [z]).map fun x => (bytesOf (enc x)).length).sum =
        (bytesOfAll enc p.sent).length + bz.length := by
      rw [hmore]
      simp [bytesOfAll, bytesOf_ok hbz, List.length_flatMap]
    have : 0 < bz.length := List.length_pos_iff.mpr hne
    omega
  | cons x more =>
    obtain ⟨⟨s', hf⟩, _⟩ := hR.ready hD (x := x) (more := more ++ [z]) (by rw [← hmore]; simp) hi
    exact ⟨x, s', hf, more, by rw [← hmore]; simp⟩

/-- One attempt of the receiver: decode what is in the buffer, and take the message if it is complete. -/
theorem PipeInv.attempt (hM : Matched strict true true E sE D sD dom enc) (hS : SafeFrom D sD) (hrc : rcap < 2 ^ 64)
    {z : α} {bz : Bytes} (hz : dom z) (hbz : enc z = .ok bz) (hne : bz ≠ [])
    {p : Pipe τ σ α} {pos : Nat} {emitted : Bytes}
    (h : PipeInv E sE D sD dom enc wcap rcap p pos emitted) (hc : p.closed = false) (hg : p.got <+: p.sent) :
    ∃ dec₁ r₁ dec₂ y n, decodeIn D p.dec p.rbuf = some (dec₁, r₁) ∧ takeItem D dec₁ = some (dec₂, y) ∧
      PipeInv E sE D sD dom enc wcap rcap { p with dec := dec₂, rbuf := r₁, got := p.got ++ y.toList } (pos + n)
        emitted ∧
      r₁.content.length + n = p.rbuf.content.length ∧ p.got ++ y.toList <+: p.sent ∧
      (y = none → r₁.content = []) ∧
      (y = none → emitted.length = (bytesOfAll enc p.sent).length → p.wire = [] → p.wbuf.content = [] →
        p.got = p.sent) := by
  have hE := matched_emits hM
  by_cases hi : D.isIdle p.dec = true
  · obtain ⟨x, s', hf, hp⟩ := h.idle hM hz hbz hne hc hg hi
    exact ⟨p.dec, p.rbuf, s', some x, 0, by simp [decodeIn, hi], by simp [takeItem, hi, hf], h.finish hi hf, rfl, hp,
      nofun, nofun⟩
  · simp only [Bool.not_eq_true] at hi
    have hall : bytesOfAll enc (p.sent ++ [z]) = bytesOfAll enc p.sent ++ bz := by
      simp [bytesOfAll, bytesOf_ok hbz]
    have hd : ∀ x ∈ p.sent ++ [z], dom x ∧ ∃ b, enc x = .ok b ∧ (bytesOf (enc x)).length = b.length := by
      intro x hx
      simp only [List.mem_append, List.mem_singleton] at hx
      rcases hx with hx | rfl
      · obtain ⟨h1, b, h2⟩ := h.msgs x hx
        exact ⟨h1, b, h2, by rw [bytesOf_ok h2]⟩
      · exact ⟨hz, bz, hbz, by rw [bytesOf_ok hbz]⟩
    have hR := matched_receives hM (tail := []) (e := Eos.new false) hd
      (by intro n hn; cases hn) (.inl ⟨rfl, rfl⟩) (.inl rfl)
    rw [List.append_nil] at hR
    have hD := h.dec
    rw [hc] at hD
    have hD' := decRun_extend hD bz (Eos.new false)
    rw [← hall] at hD'
    have hO : Offer (bytesOfAll enc (p.sent ++ [z])) (Eos.new false) pos p.rbuf.content
        (Eos.new p.rbuf.state.isEos) := by
      obtain ⟨rest, h1, h2⟩ := h.offer hE
      have hle : pos ≤ (bytesOfAll enc p.sent).length := by
        have := (hE.inOrder h.sends).length_le
        have := h.bound
        omega
      refine ⟨rest ++ bz, ?_, .inl (by rw [h.notEos hc])⟩
      rw [hall, List.drop_append_of_le_length hle, h1, List.append_assoc]
    obtain ⟨x, more, hx⟩ : ∃ x more, p.sent ++ [z] = p.got ++ x :: more := by
      obtain ⟨more, hmore⟩ := hg
      cases more with
      | nil => exact ⟨z, [], by rw [← hmore]; simp⟩
      | cons x more => exact ⟨x, more ++ [z], by rw [← hmore]; simp⟩
    obtain ⟨n, s', hd', hn, hnall, _⟩ := hR.going hD' hx hi hO
    obtain ⟨d1, d2⟩ := h.decode hE hS hrc hi hd'
    have hcons := ReadBuf.consume_spec h.r (n := n) (by rw [← ReadBuf.content_length h.r]; exact hn)
    have hclen : (p.rbuf.consume n).content.length + n = p.rbuf.content.length := by
      rw [hcons.2.1, List.length_drop]
      omega
    by_cases hi' : D.isIdle s' = true
    · obtain ⟨x, s'', hf, hp⟩ := d2.idle hM hz hbz hne hc hg hi'
      have hf' : D.finish s' = (.ok x, s'') := hf
      exact ⟨s', p.rbuf.consume n, s'', some x, n, by simp [decodeIn, hi, d1], by simp [takeItem, hi', hf'],
        d2.finish hi' hf, hclen, hp, nofun, nofun⟩
    · simp only [Bool.not_eq_true] at hi'
      refine ⟨s', p.rbuf.consume n, s', none, n, by simp [decodeIn, hi, d1], by simp [takeItem, hi'],
        by simpa using d2, hclen, by simpa using hg, fun _ => ?_, fun _ he hw hv => ?_⟩
      · have := hnall hi'
        exact List.length_eq_zero_iff.mp (by omega)
      · obtain ⟨more, hmore⟩ := hg
        cases more with
        | nil => rw [← hmore, List.append_nil]
        | cons y more =>
          exfalso
          have hR0 := matched_receives hM (tail := []) (e := Eos.new false)
            (fun x hx => hd x (List.mem_append_left _ hx)) (by intro n hn; cases hn) (.inl ⟨rfl, rfl⟩) (.inl rfl)
          rw [List.append_nil] at hR0
          have hcomp := hR0.complete hD hmore.symm hi
          obtain ⟨rest, hr⟩ := hE.inOrder h.sends
          have hrest : rest = [] := by
            have := congrArg List.length hr
            rw [List.length_append] at this
            exact List.length_eq_zero_iff.mp (by omega)
          rw [hrest, List.append_nil] at hr
          have hb := h.bytes
          rw [hw, hv, List.append_nil, List.append_nil] at hb
          have hcomp' : D.isIdle (D.decode p.dec ((bytesOfAll enc p.sent).drop pos) (Eos.new false)).2 = true := hcomp
          rw [← hr, hb] at hcomp'
          rw [h.notEos hc] at hd'
          rw [hd', hi'] at hcomp'
          cases hcomp'

/-- The sender encodes as much as fits. -/
theorem PipeInv.encodeOut (hE : Emits strict E sE dom enc) {p : Pipe τ σ α} {pos : Nat} {emitted : Bytes}
    (h : PipeInv E sE D sD dom enc wcap rcap p pos emitted) :
    ∃ s' b' emitted', encodeOut E p.enc p.wbuf = some (s', b') ∧
      PipeInv E sE D sD dom enc wcap rcap { p with enc := s', wbuf := b' } pos emitted' ∧
      emitted'.length = emitted.length + min p.wbuf.room ((bytesOfAll enc p.sent).length - emitted.length) ∧
      (E.isIdle s' = true ↔ emitted'.length = (bytesOfAll enc p.sent).length) := by
  obtain ⟨s', b', h1, h2, h3⟩ := h.encode hE
  refine ⟨s', b', _, by simp [Spec.encodeOut, h1], h3, by simp, ?_⟩
  have := (hE.inOrder h.sends).length_le
  rw [h2]
  simp only [List.length_append, List.length_take, List.length_drop]
  omega

end

end Bytecodec
