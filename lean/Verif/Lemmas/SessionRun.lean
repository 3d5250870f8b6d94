import Verif.Lemmas.Session
/-!
# Lemmas: a client and a server over one connection, turn by turn
-/
namespace Bytecodec
open Spec

variable {τ σ τ' σ' α β : Type}

/-! ## Counters -/

/-- What has happened in one direction: bytes encoded, written to the connection, read from the connection, decoded;
messages started and messages taken. -/
structure Cnt where
  em : Nat
  a : Nat
  b : Nat
  pos : Nat
  sent : Nat
  got : Nat

def Cnt.sum (c : Cnt) : Nat := c.em + c.a + c.b + c.pos + c.sent + c.got

structure Cnt.Le (c d : Cnt) : Prop where
  em : c.em ≤ d.em
  a : c.a ≤ d.a
  b : c.b ≤ d.b
  pos : c.pos ≤ d.pos
  sent : c.sent ≤ d.sent
  got : c.got ≤ d.got

theorem Cnt.Le.sum {c d : Cnt} (h : Cnt.Le c d) : c.sum ≤ d.sum := by
  have := h.em; have := h.a; have := h.b; have := h.pos; have := h.sent; have := h.got
  simp only [Cnt.sum]
  omega

theorem Cnt.Le.eq {c d : Cnt} (h : Cnt.Le c d) (hs : d.sum ≤ c.sum) : d = c := by
  have h1 := h.em; have h2 := h.a; have h3 := h.b; have h4 := h.pos; have h5 := h.sent; have h6 := h.got
  cases c; cases d
  simp only [Cnt.sum] at *
  simp only [Cnt.mk.injEq]
  omega

theorem Cnt.Le.refl (c : Cnt) : Cnt.Le c c :=
  ⟨Nat.le_refl _, Nat.le_refl _, Nat.le_refl _, Nat.le_refl _, Nat.le_refl _, Nat.le_refl _⟩

theorem Cnt.Le.trans {c d e : Cnt} (h : Cnt.Le c d) (g : Cnt.Le d e) : Cnt.Le c e :=
  ⟨Nat.le_trans h.em g.em, Nat.le_trans h.a g.a, Nat.le_trans h.b g.b, Nat.le_trans h.pos g.pos,
    Nat.le_trans h.sent g.sent, Nat.le_trans h.got g.got⟩

def cnt (p : Pipe τ σ α) (pos : Nat) (emitted : Bytes) : Cnt :=
  ⟨emitted.length, pos + p.rbuf.content.length + p.wire.length, pos + p.rbuf.content.length, pos, p.sent.length,
    p.got.length⟩

theorem PipeInv.emLength {E : Encoder τ α} {sE : τ} {D : Decoder σ α} {sD : σ} {dom : α → Prop}
    {enc : α → Except ErrorKind Bytes} {wcap rcap : Nat} {p : Pipe τ σ α} {pos : Nat} {emitted : Bytes}
    (h : PipeInv E sE D sD dom enc wcap rcap p pos emitted) :
    emitted.length = pos + p.rbuf.content.length + p.wire.length + p.wbuf.content.length := by
  have h1 := congrArg List.length h.bytes
  have h2 := h.bound
  simp only [List.length_drop, List.length_append] at h1
  omega

theorem ReadBuf.notFull {b : ReadBuf} (h : b.Inv) (hc : b.content = []) (hn : 0 < b.inner.length) : ¬ b.isFull = true := by
  have h1 := ReadBuf.content_length h
  rw [hc, List.length_nil, ReadBuf.len] at h1
  have h2 := h.zero
  have h3 := h.le
  simp only [ReadBuf.isFull, beq_iff_eq]
  omega

theorem WriteBuf.roomy {b : WriteBuf} (h : b.Inv) (hc : b.content = []) (hn : 0 < b.inner.length) : 0 < b.room := by
  have h1 := WriteBuf.content_length h
  rw [hc, List.length_nil, WriteBuf.len] at h1
  have h2 := h.zero
  have h3 := h.le
  simp only [WriteBuf.room]
  omega

section

variable {strict : Bool} {E : Encoder τ α} {sE : τ} {D : Decoder σ α} {sD : σ} {dom : α → Prop}
  {enc : α → Except ErrorKind Bytes} {wcap rcap : Nat}

theorem PipeInv.submit (hE : Emits strict E sE dom enc) {p : Pipe τ σ α} {pos : Nat} {emitted : Bytes}
    (h : PipeInv E sE D sD dom enc wcap rcap p pos emitted) (hc : p.closed = false) {todo : List α}
    (hm : ∀ x ∈ todo, dom x ∧ ∃ b, enc x = .ok b) :
    ∃ s' todo' sent', submit E p.enc todo = some (s', todo') ∧
      PipeInv E sE D sD dom enc wcap rcap { p with enc := s', sent := sent' } pos emitted ∧
      p.sent ++ todo = sent' ++ todo' ∧ p.sent <+: sent' ∧
      (E.isIdle p.enc = true → sent'.length = p.sent.length → todo = []) := by
  by_cases hi : E.isIdle p.enc = true
  · cases todo with
    | nil => exact ⟨p.enc, [], p.sent, by simp [Spec.submit, hi], h, rfl, List.prefix_refl _, fun _ _ => rfl⟩
    | cons x rest =>
      obtain ⟨hx, b, hb⟩ := hm x (by simp)
      have hok := hE.accepts h.sends hi hx hb
      rcases hs : E.start p.enc x with ⟨r, s'⟩
      rw [hs] at hok
      simp only at hok
      subst hok
      refine ⟨s', rest, p.sent ++ [x], by simp [Spec.submit, hi, hs], h.start hE hc hi hx hs, by simp,
        List.prefix_append _ _, fun _ hl => ?_⟩
      simp at hl
  · simp only [Bool.not_eq_true] at hi
    refine ⟨p.enc, todo, p.sent, by simp [Spec.submit, hi], h, rfl, List.prefix_refl _, fun h => ?_⟩
    rw [hi] at h
    cases h

end

/-! ## The invariant -/

section

variable {strict strict' : Bool} {E : Encoder τ α} {sE : τ} {D : Decoder σ α} {sD : σ} {dom : α → Prop}
  {enc : α → Except ErrorKind Bytes} {E' : Encoder τ' β} {sE' : τ'} {D' : Decoder σ' β} {sD' : σ'} {dom' : β → Prop}
  {enc' : β → Except ErrorKind Bytes} {answer : α → β} {n₁ n₂ n₃ n₄ cap : Nat} {reqs : List α}

/-- The bytes of the requests that were started and of the answers that were started. -/
def owed₁ (enc : α → Except ErrorKind Bytes) (reqs : List α) (c : Cnt) : Nat :=
  (bytesOfAll enc (reqs.take c.sent)).length

def owed₂ (enc' : β → Except ErrorKind Bytes) (answer : α → β) (reqs : List α) (c : Cnt) : Nat :=
  (bytesOfAll enc' ((reqs.take c.sent).map answer)).length

/-- A client that can do nothing. -/
structure ClientStuck (enc : α → Except ErrorKind Bytes) (enc' : β → Except ErrorKind Bytes) (answer : α → β) (cap : Nat)
    (reqs : List α) (c d : Cnt) : Prop where
  read : d.b = d.pos
  wire : d.a = d.b
  write : c.em = c.a ∨ cap ≤ c.a - c.b
  encoded : c.em = c.a → c.em = owed₁ enc reqs c
  todo : c.em = owed₁ enc reqs c → c.sent = reqs.length
  got : d.em = owed₂ enc' answer reqs d → d.em = d.a → d.got = d.sent

/-- A server that can do nothing. -/
structure ServerStuck (enc : α → Except ErrorKind Bytes) (enc' : β → Except ErrorKind Bytes) (answer : α → β) (cap : Nat)
    (reqs : List α) (c d : Cnt) : Prop where
  write : d.em = d.a ∨ cap ≤ d.a - d.b
  encoded : d.em = d.a → d.em = owed₂ enc' answer reqs d
  read : d.em = owed₂ enc' answer reqs d → c.b = c.pos ∧ c.a = c.b
  got : d.em = owed₂ enc' answer reqs d → c.em = owed₁ enc reqs c → c.em = c.a → c.got = c.sent

/-- If neither can do anything, the client has got all answers. -/
theorem stuck_done {c d : Cnt} (hcap : 0 < cap) (hcd : d.sent = c.got)
    (hc : ClientStuck enc enc' answer cap reqs c d) (hs : ServerStuck enc enc' answer cap reqs c d) :
    d.got = reqs.length := by
  have h1 := hc.wire
  have h2 : d.em = d.a := by rcases hs.write with h | h <;> omega
  have h3 := hs.encoded h2
  obtain ⟨h4, h5⟩ := hs.read h3
  have h6 : c.em = c.a := by rcases hc.write with h | h <;> omega
  have h7 := hc.encoded h6
  have h8 := hc.todo h7
  have h9 := hs.got h3 h7 h6
  have h10 := hc.got h3 h2
  omega

structure SInv (E : Encoder τ α) (sE : τ) (D : Decoder σ α) (sD : σ) (dom : α → Prop)
    (enc : α → Except ErrorKind Bytes) (E' : Encoder τ' β) (sE' : τ') (D' : Decoder σ' β) (sD' : σ') (dom' : β → Prop)
    (enc' : β → Except ErrorKind Bytes) (answer : α → β) (n₁ n₂ n₃ n₄ : Nat) (reqs : List α)
    (t : Session τ σ τ' σ' α β) (sent : List α) (pos₁ : Nat) (em₁ : Bytes) (pos₂ : Nat) (em₂ : Bytes) : Prop where
  split : reqs = sent ++ t.todo
  p₁ : PipeInv E sE D sD dom enc n₁ n₃
    ⟨t.clientEnc, t.clientW, sent, t.toServer, false, t.serverR, t.serverDec, t.handled⟩ pos₁ em₁
  p₂ : PipeInv E' sE' D' sD' dom' enc' n₄ n₂
    ⟨t.serverEnc, t.serverW, t.handled.map answer, t.toClient, false, t.clientR, t.clientDec, t.got⟩ pos₂ em₂
  idle₁ : E.isIdle t.clientEnc = true ↔ em₁.length = (bytesOfAll enc sent).length
  idle₂ : E'.isIdle t.serverEnc = true ↔ em₂.length = (bytesOfAll enc' (t.handled.map answer)).length
  got₁ : t.handled <+: sent
  got₂ : t.got <+: t.handled.map answer
  ok : t.failed = false
  want : t.want = reqs.length

/-- The two directions of a session. -/
def cnt₁ (t : Session τ σ τ' σ' α β) (sent : List α) (pos : Nat) (em : Bytes) : Cnt :=
  cnt (⟨t.clientEnc, t.clientW, sent, t.toServer, false, t.serverR, t.serverDec, t.handled⟩ : Pipe τ σ α) pos em

def cnt₂ (answer : α → β) (t : Session τ σ τ' σ' α β) (pos : Nat) (em : Bytes) : Cnt :=
  cnt (⟨t.serverEnc, t.serverW, t.handled.map answer, t.toClient, false, t.clientR, t.clientDec, t.got⟩ : Pipe τ' σ' β)
    pos em

theorem SInv.taken {t : Session τ σ τ' σ' α β} {sent : List α} {pos₁ pos₂ : Nat} {em₁ em₂ : Bytes}
    (h : SInv E sE D sD dom enc E' sE' D' sD' dom' enc' answer n₁ n₂ n₃ n₄ reqs t sent pos₁ em₁ pos₂ em₂) :
    reqs.take sent.length = sent ∧ reqs.take t.handled.length = t.handled := by
  have h1 : reqs.take sent.length = sent := by rw [h.split]; simp
  refine ⟨h1, ?_⟩
  have h2 : t.handled <+: reqs := h.got₁.trans ⟨t.todo, h.split.symm⟩
  exact (List.prefix_iff_eq_take.mp h2).symm

theorem client_turn (hM : Matched strict true true E sE D sD dom enc) (hM' : Matched strict' true true E' sE' D' sD' dom' enc')
    (hS' : SafeFrom D' sD') (h₁ : 0 < n₁) (h₂ : 0 < n₂) (hn₂ : n₂ < 2 ^ 64)
    (hm : ∀ x ∈ reqs, dom x ∧ ∃ b, enc x = .ok b)
    {z : β} {bz : Bytes} (hz : dom' z) (hbz : enc' z = .ok bz) (hne : bz ≠ [])
    {t : Session τ σ τ' σ' α β} {sent : List α} {pos₁ pos₂ : Nat} {em₁ em₂ : Bytes}
    (h : SInv E sE D sD dom enc E' sE' D' sD' dom' enc' answer n₁ n₂ n₃ n₄ reqs t sent pos₁ em₁ pos₂ em₂) :
    ∃ t' sent' em₁' pos₂', clientTurn E D' cap t = some t' ∧
      SInv E sE D sD dom enc E' sE' D' sD' dom' enc' answer n₁ n₂ n₃ n₄ reqs t' sent' pos₁ em₁' pos₂' em₂ ∧
      Cnt.Le (cnt₁ t sent pos₁ em₁) (cnt₁ t' sent' pos₁ em₁') ∧
      Cnt.Le (cnt₂ answer t pos₂ em₂) (cnt₂ answer t' pos₂' em₂) ∧
      (cnt₁ t' sent' pos₁ em₁' = cnt₁ t sent pos₁ em₁ → cnt₂ answer t' pos₂' em₂ = cnt₂ answer t pos₂ em₂ →
        ClientStuck enc enc' answer cap reqs (cnt₁ t sent pos₁ em₁) (cnt₂ answer t pos₂ em₂)) := by
  have hE := matched_emits hM
  have hE' := matched_emits hM'
  obtain ⟨hk₁, hk₂⟩ := h.taken
  -- submit
  obtain ⟨s₁, todo', sent', a1, a2, a3, a4, a5⟩ := h.p₁.submit hE rfl (todo := t.todo)
    (fun x hx => hm x (by rw [h.split]; exact List.mem_append_right _ hx))
  simp only at a1 a2 a3 a4 a5
  -- encode
  obtain ⟨s₂, w₁, em₁', b1, b2, b3, b4⟩ := a2.encodeOut hE
  simp only at b1 b2 b3 b4
  -- exchange
  obtain ⟨l', r', w', k, j, l₁, c1, c2, c3⟩ := exchange_eq cap ⟨t.toClient, t.toServer, t.sizes⟩ t.clientR w₁ h.p₂.r b2.w
  have d2 := h.p₂.lineFilled rfl c2 rfl
  have d1 := b2.lineFlushed rfl c3 (by simpa using c2.out)
  simp only at d1 d2
  -- decode
  obtain ⟨dec₁, r₁, dec₂, y, n, e1, e2, e3, e4, e5, e6, e7⟩ := d2.attempt hM' hS' hn₂ hz hbz hne rfl h.got₂
  simp only at e1 e2 e3 e4 e5 e6 e7
  have f1 := h.p₁.emLength
  have f2 := d1.emLength
  have f3 := h.p₂.emLength
  have f4 := e3.emLength
  have f5 := b2.emLength
  simp only at f1 f2 f3 f4 f5
  have g1 := congrArg List.length c3.out
  have g2 := congrArg List.length c3.content
  have g3 := congrArg List.length c2.content
  have g4 := congrArg List.length c2.inc
  have g5 := congrArg List.length c2.out
  have g6 := congrArg List.length c3.inc
  have g7 := c2.le
  have g8 := c3.le
  simp only [List.length_append, List.length_take, List.length_drop] at g1 g2 g3 g4 g5 g6 g7
  rw [← c3.inc] at e3 e7
  refine ⟨{ t with
      clientEnc := s₂, clientW := w', clientR := r₁, clientDec := dec₂, todo := todo', got := t.got ++ y.toList,
      toServer := l'.out, toClient := l'.inc, sizes := l'.sizes }, sent', em₁', pos₂ + n,
    by simp only [clientTurn, a1, b1, c1, e1, e2, Option.bind_some],
    ⟨by rw [h.split]; exact a3, d1, e3, b4, h.idle₂, h.got₁.trans a4, e5, h.ok, h.want⟩, ?_, ?_, ?_⟩
  · refine ⟨?_, ?_, Nat.le_refl _, Nat.le_refl _, a4.length_le, Nat.le_refl _⟩ <;> simp only [cnt₁, cnt] <;> omega
  · refine ⟨Nat.le_refl _, ?_, ?_, ?_, Nat.le_refl _, ?_⟩ <;> simp only [cnt₂, cnt, List.length_append] <;> omega
  · intro q1 q2
    simp only [cnt₁, cnt, Cnt.mk.injEq] at q1
    simp only [cnt₂, cnt, Cnt.mk.injEq, List.length_append] at q2
    obtain ⟨q3, q4, _, _, q7, _⟩ := q1
    obtain ⟨_, q9, q10, q11, _, q13⟩ := q2
    have hy : y = none := by
      cases y with
      | none => rfl
      | some y => simp at q13
    have hn0 : n = 0 := by omega
    have hr₁ := e6 hy
    rw [hr₁, List.length_nil] at e4 q10 q9
    have hr' : r'.content = [] := List.length_eq_zero_iff.mp (by omega)
    have hinc : l'.inc = [] := by
      rcases c2.stop with hfull | hnil
      · exact absurd hfull (ReadBuf.notFull c2.inv hr' (by rw [c2.storage]; have := h.p₂.rcap; simp only at this; omega))
      · rw [c3.inc]; exact hnil
    rw [hinc, List.length_nil] at q9 g6
    have hsent : sent' = sent := by
      obtain ⟨more, hmore⟩ := a4
      have := congrArg List.length hmore
      rw [List.length_append] at this
      have : more = [] := List.length_eq_zero_iff.mp (by omega)
      rw [← hmore, this, List.append_nil]
    subst hsent
    have hroom : t.clientW.content = [] → 0 < t.clientW.room := fun hc =>
      WriteBuf.roomy h.p₁.w hc (by have := h.p₁.wcap; simp only at this; omega)
    refine ⟨by simp only [cnt₂, cnt]; omega, by simp only [cnt₂, cnt]; omega, ?_, ?_, ?_, ?_⟩
    · simp only [cnt₁, cnt]
      rcases c3.stop with hs | hs
      · left
        rw [hs, List.length_nil] at f2
        omega
      · right; omega
    · simp only [cnt₁, cnt, owed₁, hk₁]
      intro hem
      have hc : t.clientW.content = [] := List.length_eq_zero_iff.mp (by omega)
      have := hroom hc
      have := (hE.inOrder h.p₁.sends).length_le
      simp only at this
      omega
    · simp only [cnt₁, cnt, owed₁, hk₁]
      intro hem
      have htodo := a5 (h.idle₁.mpr hem) rfl
      rw [h.split, htodo, List.append_nil]
    · simp only [cnt₂, cnt, owed₂, List.length_map, hk₂]
      intro hem ha
      have hwc : t.serverW.content = [] := List.length_eq_zero_iff.mp (by omega)
      have := e7 hy hem hinc hwc
      rw [this, List.length_map]

/-- What the server does between the exchange and the encoding. -/
theorem serve_eq (hM : Matched strict true true E sE D sD dom enc) (hE' : Emits strict' E' sE' dom' enc')
    (hS : SafeFrom D sD) (hn₃ : n₃ < 2 ^ 64)
    {z : α} {bz : Bytes} (hz : dom z) (hbz : enc z = .ok bz) (hne : bz ≠ [])
    {p : Pipe τ σ α} {q : Pipe τ' σ' β} {pos₁ pos₂ : Nat} {em₁ em₂ : Bytes}
    (h₁ : PipeInv E sE D sD dom enc n₁ n₃ p pos₁ em₁) (h₂ : PipeInv E' sE' D' sD' dom' enc' n₄ n₂ q pos₂ em₂)
    (hp : p.closed = false) (hq : q.closed = false) (hg : p.got <+: p.sent)
    (ha : ∀ x ∈ p.sent, dom' (answer x) ∧ ∃ b, enc' (answer x) = .ok b) :
    ∃ s' dec' r' y n, serve D E' answer q.enc p.dec p.rbuf = some (s', dec', r', y) ∧
      PipeInv E sE D sD dom enc n₁ n₃ { p with dec := dec', rbuf := r', got := p.got ++ y.toList } (pos₁ + n) em₁ ∧
      PipeInv E' sE' D' sD' dom' enc' n₄ n₂ { q with enc := s', sent := q.sent ++ (y.toList.map answer) } pos₂ em₂ ∧
      r'.content.length + n = p.rbuf.content.length ∧ p.got ++ y.toList <+: p.sent ∧
      (E'.isIdle q.enc = true → y = none → r'.content = [] ∧
        (em₁.length = (bytesOfAll enc p.sent).length → p.wire = [] → p.wbuf.content = [] → p.got = p.sent)) := by
  by_cases hi : E'.isIdle q.enc = true
  · obtain ⟨dec₁, r₁, dec₂, y, n, e1, e2, e3, e4, e5, e6, e7⟩ := h₁.attempt hM hS hn₃ hz hbz hne hp hg
    cases y with
    | none =>
      exact ⟨q.enc, dec₂, r₁, none, n, by simp [serve, hi, e1, e2, reply], e3, by simpa using h₂, e4, e5,
        fun _ _ => ⟨e6 rfl, e7 rfl⟩⟩
    | some x =>
      obtain ⟨hx, b, hb⟩ := ha x (e5.subset (by simp))
      have hok := hE'.accepts h₂.sends hi hx hb
      rcases hs : E'.start q.enc (answer x) with ⟨r, s'⟩
      rw [hs] at hok
      simp only at hok
      subst hok
      exact ⟨s', dec₂, r₁, some x, n, by simp [serve, hi, e1, e2, reply, hs], e3,
        by simpa using h₂.start hE' hq hi hx hs, e4, e5, nofun⟩
  · simp only [Bool.not_eq_true] at hi
    refine ⟨q.enc, p.dec, p.rbuf, none, 0, by simp [serve, hi], by simpa using h₁, by simpa using h₂, rfl,
      by simpa using hg, fun h => ?_⟩
    rw [hi] at h
    cases h

theorem server_turn (hM : Matched strict true true E sE D sD dom enc) (hM' : Matched strict' true true E' sE' D' sD' dom' enc')
    (hS : SafeFrom D sD) (h₃ : 0 < n₃) (h₄ : 0 < n₄) (hn₃ : n₃ < 2 ^ 64)
    (ha : ∀ x ∈ reqs, dom' (answer x) ∧ ∃ b, enc' (answer x) = .ok b)
    {z : α} {bz : Bytes} (hz : dom z) (hbz : enc z = .ok bz) (hne : bz ≠ [])
    {t : Session τ σ τ' σ' α β} {sent : List α} {pos₁ pos₂ : Nat} {em₁ em₂ : Bytes}
    (h : SInv E sE D sD dom enc E' sE' D' sD' dom' enc' answer n₁ n₂ n₃ n₄ reqs t sent pos₁ em₁ pos₂ em₂) :
    ∃ t' pos₁' em₂', serverTurn D E' answer cap t = some t' ∧
      SInv E sE D sD dom enc E' sE' D' sD' dom' enc' answer n₁ n₂ n₃ n₄ reqs t' sent pos₁' em₁ pos₂ em₂' ∧
      Cnt.Le (cnt₁ t sent pos₁ em₁) (cnt₁ t' sent pos₁' em₁) ∧
      Cnt.Le (cnt₂ answer t pos₂ em₂) (cnt₂ answer t' pos₂ em₂') ∧
      (cnt₁ t' sent pos₁' em₁ = cnt₁ t sent pos₁ em₁ → cnt₂ answer t' pos₂ em₂' = cnt₂ answer t pos₂ em₂ →
        ServerStuck enc enc' answer cap reqs (cnt₁ t sent pos₁ em₁) (cnt₂ answer t pos₂ em₂)) := by
  have hE := matched_emits hM
  have hE' := matched_emits hM'
  obtain ⟨hk₁, hk₂⟩ := h.taken
  -- exchange
  obtain ⟨l', r', w', k, j, l₁, c1, c2, c3⟩ :=
    exchange_eq cap ⟨t.toServer, t.toClient, t.sizes⟩ t.serverR t.serverW h.p₁.r h.p₂.w
  have d1 := h.p₁.lineFilled rfl c2 rfl
  have d2 := h.p₂.lineFlushed rfl c3 (by simpa using c2.out)
  simp only at d1 d2
  -- decode and answer
  obtain ⟨s₁, dec', r₁, y, n, e1, e2, e3, e4, e5, e6⟩ := serve_eq (answer := answer) hM hE' hS hn₃ hz hbz hne d1 d2 rfl rfl
    h.got₁ (fun x hx => ha x (by rw [h.split]; exact List.mem_append_left _ hx))
  simp only at e1 e2 e3 e4 e5 e6
  -- encode
  obtain ⟨s₂, w₁, em₂', b1, b2, b3, b4⟩ := e3.encodeOut hE'
  simp only at b1 b2 b3 b4
  have hmap : t.handled.map answer ++ y.toList.map answer = (t.handled ++ y.toList).map answer := by simp
  rw [hmap] at b2 b3 b4
  have f1 := h.p₁.emLength
  have f2 := d1.emLength
  have f3 := h.p₂.emLength
  have f4 := d2.emLength
  have f5 := b2.emLength
  have f6 := e2.emLength
  simp only at f1 f2 f3 f4 f5 f6
  have g1 := congrArg List.length c3.out
  have g2 := congrArg List.length c3.content
  have g3 := congrArg List.length c2.content
  have g4 := congrArg List.length c2.inc
  have g5 := congrArg List.length c2.out
  have g6 := congrArg List.length c3.inc
  have g7 := c2.le
  have g8 := c3.le
  simp only [List.length_append, List.length_take, List.length_drop] at g1 g2 g3 g4 g5 g6 g7
  rw [← c3.inc] at e2 e6
  refine ⟨{ t with
      serverEnc := s₂, serverW := w₁, serverR := r₁, serverDec := dec', handled := t.handled ++ y.toList,
      toServer := l'.inc, toClient := l'.out, sizes := l'.sizes }, pos₁ + n, em₂',
    by simp only [serverTurn, b1, c1, e1, Option.bind_some],
    ⟨h.split, e2, b2, h.idle₁, b4, e5, h.got₂.trans (by rw [← hmap]; exact List.prefix_append _ _), h.ok, h.want⟩,
    ?_, ?_, ?_⟩
  · refine ⟨Nat.le_refl _, ?_, ?_, ?_, Nat.le_refl _, ?_⟩ <;> simp only [cnt₁, cnt, List.length_append] <;> omega
  · refine ⟨?_, ?_, Nat.le_refl _, Nat.le_refl _, ?_, Nat.le_refl _⟩ <;>
      simp only [cnt₂, cnt, List.length_map, List.length_append] <;> omega
  · intro q1 q2
    simp only [cnt₁, cnt, Cnt.mk.injEq, List.length_append] at q1
    simp only [cnt₂, cnt, Cnt.mk.injEq] at q2
    obtain ⟨_, q4, q5, q6, _, q8⟩ := q1
    obtain ⟨q9, q10, _, _, _, _⟩ := q2
    have hy : y = none := by
      cases y with
      | none => rfl
      | some y => simp at q8
    subst hy
    have hn0 : n = 0 := by omega
    subst hn0
    simp only [Option.toList, List.append_nil] at b3
    have hroom : w'.content = [] → 0 < w'.room := fun hc =>
      WriteBuf.roomy d2.w hc (by have := d2.wcap; simp only at this; omega)
    have hread : em₂.length = (bytesOfAll enc' (t.handled.map answer)).length →
        r₁.content = [] ∧ l'.inc = [] := by
      intro hem
      obtain ⟨hr₁, _⟩ := e6 (h.idle₂.mpr hem) rfl
      refine ⟨hr₁, ?_⟩
      rw [hr₁, List.length_nil] at e4
      have hr' : r'.content = [] := List.length_eq_zero_iff.mp (by omega)
      rcases c2.stop with hfull | hnil
      · exact absurd hfull (ReadBuf.notFull c2.inv hr' (by rw [c2.storage]; have := h.p₁.rcap; simp only at this; omega))
      · rw [c3.inc]; exact hnil
    refine ⟨?_, ?_, ?_, ?_⟩
    · simp only [cnt₂, cnt]
      rcases c3.stop with hs | hs
      · left
        rw [hs, List.length_nil] at f4
        omega
      · right; omega
    · simp only [cnt₂, cnt, owed₂, List.length_map, hk₂]
      intro hem
      have hc : w'.content = [] := List.length_eq_zero_iff.mp (by omega)
      have := hroom hc
      have := (hE'.inOrder h.p₂.sends).length_le
      simp only at this
      omega
    · simp only [cnt₂, cnt₁, cnt, owed₂, List.length_map, hk₂]
      intro hem
      obtain ⟨x1, x2⟩ := hread hem
      rw [x1, List.length_nil] at q5 q4
      rw [x2, List.length_nil] at q4
      omega
    · simp only [cnt₂, cnt₁, cnt, owed₂, owed₁, List.length_map, hk₁, hk₂]
      intro hem hem₁ ha₁
      obtain ⟨x1, x2⟩ := hread hem
      have hwc : t.clientW.content = [] := List.length_eq_zero_iff.mp (by omega)
      rw [(e6 (h.idle₂.mpr hem) rfl).2 hem₁ x2 hwc]

/-! ## Any schedule -/

/-- The invariant, and how far everything is. -/
def SessionAt (E : Encoder τ α) (sE : τ) (D : Decoder σ α) (sD : σ) (dom : α → Prop)
    (enc : α → Except ErrorKind Bytes) (E' : Encoder τ' β) (sE' : τ') (D' : Decoder σ' β) (sD' : σ') (dom' : β → Prop)
    (enc' : β → Except ErrorKind Bytes) (answer : α → β) (n₁ n₂ n₃ n₄ : Nat) (reqs : List α)
    (t : Session τ σ τ' σ' α β) (c d : Cnt) : Prop :=
  ∃ sent pos₁ em₁ pos₂ em₂,
    SInv E sE D sD dom enc E' sE' D' sD' dom' enc' answer n₁ n₂ n₃ n₄ reqs t sent pos₁ em₁ pos₂ em₂ ∧
    c = cnt₁ t sent pos₁ em₁ ∧ d = cnt₂ answer t pos₂ em₂

/-- The hypotheses of the claims. -/
structure Setting (strict strict' : Bool) (E : Encoder τ α) (sE : τ) (D : Decoder σ α) (sD : σ) (dom : α → Prop)
    (enc : α → Except ErrorKind Bytes) (E' : Encoder τ' β) (sE' : τ') (D' : Decoder σ' β) (sD' : σ') (dom' : β → Prop)
    (enc' : β → Except ErrorKind Bytes) (answer : α → β) (n₁ n₂ n₃ n₄ : Nat) (reqs : List α) : Prop where
  hM : Matched strict true true E sE D sD dom enc
  hM' : Matched strict' true true E' sE' D' sD' dom' enc'
  hS : SafeFrom D sD
  hS' : SafeFrom D' sD'
  h₁ : 0 < n₁
  h₂ : 0 < n₂
  h₃ : 0 < n₃
  h₄ : 0 < n₄
  hn₂ : n₂ < 2 ^ 64
  hn₃ : n₃ < 2 ^ 64
  hm : ∀ x ∈ reqs, dom x ∧ ∃ b, enc x = .ok b
  ha : ∀ x ∈ reqs, dom' (answer x) ∧ ∃ b, enc' (answer x) = .ok b
  hz : ∃ z b, dom z ∧ enc z = .ok b ∧ b ≠ []
  hz' : ∃ z b, dom' z ∧ enc' z = .ok b ∧ b ≠ []

/-- The side cannot do anything. -/
def Stuck (enc : α → Except ErrorKind Bytes) (enc' : β → Except ErrorKind Bytes) (answer : α → β) (cap : Nat)
    (reqs : List α) (c d : Cnt) : Side → Prop
  | .client => d.got = reqs.length ∨ ClientStuck enc enc' answer cap reqs c d
  | .server => ServerStuck enc enc' answer cap reqs c d

theorem turn_at (S : Setting strict strict' E sE D sD dom enc E' sE' D' sD' dom' enc' answer n₁ n₂ n₃ n₄ reqs)
    {t : Session τ σ τ' σ' α β} {c d : Cnt}
    (h : SessionAt E sE D sD dom enc E' sE' D' sD' dom' enc' answer n₁ n₂ n₃ n₄ reqs t c d) (side : Side) :
    ∃ c' d', SessionAt E sE D sD dom enc E' sE' D' sD' dom' enc' answer n₁ n₂ n₃ n₄ reqs
        (t.turn E D E' D' answer cap side) c' d' ∧ Cnt.Le c c' ∧ Cnt.Le d d' ∧
      (c' = c → d' = d → Stuck enc enc' answer cap reqs c d side) := by
  obtain ⟨sent, pos₁, em₁, pos₂, em₂, hI, rfl, rfl⟩ := h
  cases side with
  | client =>
    by_cases hw : t.got.length < t.want
    · obtain ⟨z, b, hz, hb, hne⟩ := S.hz'
      obtain ⟨t', sent', em₁', pos₂', x1, x2, x3, x4, x5⟩ :=
        client_turn (cap := cap) S.hM S.hM' S.hS' S.h₁ S.h₂ S.hn₂ S.hm hz hb hne hI
      have ht : t.turn E D E' D' answer cap .client = t' := by simp [Session.turn, hI.ok, hw, x1]
      rw [ht]
      exact ⟨_, _, ⟨sent', pos₁, em₁', pos₂', em₂, x2, rfl, rfl⟩, x3, x4, fun a b => .inr (x5 a b)⟩
    · have ht : t.turn E D E' D' answer cap .client = t := by simp [Session.turn, hI.ok, hw]
      rw [ht]
      refine ⟨_, _, ⟨sent, pos₁, em₁, pos₂, em₂, hI, rfl, rfl⟩, .refl _, .refl _, fun _ _ => .inl ?_⟩
      have h1 := hI.got₂.length_le
      have h2 := hI.got₁.length_le
      have h3 := congrArg List.length hI.split
      have h4 := hI.want
      simp only [List.length_append, List.length_map] at h1 h3
      simp only [cnt₂, cnt]
      omega
  | server =>
    obtain ⟨z, b, hz, hb, hne⟩ := S.hz
    obtain ⟨t', pos₁', em₂', x1, x2, x3, x4, x5⟩ :=
      server_turn (cap := cap) S.hM S.hM' S.hS S.h₃ S.h₄ S.hn₃ S.ha hz hb hne hI
    have ht : t.turn E D E' D' answer cap .server = t' := by simp [Session.turn, hI.ok, x1]
    rw [ht]
    exact ⟨_, _, ⟨sent, pos₁', em₁, pos₂, em₂', x2, rfl, rfl⟩, x3, x4, x5⟩

theorem run_at (S : Setting strict strict' E sE D sD dom enc E' sE' D' sD' dom' enc' answer n₁ n₂ n₃ n₄ reqs)
    (schedule : List Side) {t : Session τ σ τ' σ' α β} {c d : Cnt}
    (h : SessionAt E sE D sD dom enc E' sE' D' sD' dom' enc' answer n₁ n₂ n₃ n₄ reqs t c d) :
    ∃ c' d', SessionAt E sE D sD dom enc E' sE' D' sD' dom' enc' answer n₁ n₂ n₃ n₄ reqs
        (t.run E D E' D' answer cap schedule) c' d' ∧ Cnt.Le c c' ∧ Cnt.Le d d' ∧
      (c'.sum + d'.sum ≤ c.sum + d.sum → ∀ side ∈ schedule, Stuck enc enc' answer cap reqs c d side) := by
  induction schedule generalizing t c d with
  | nil => exact ⟨c, d, h, .refl _, .refl _, nofun⟩
  | cons side rest ih =>
    obtain ⟨c₁, d₁, x1, x2, x3, x4⟩ := turn_at (cap := cap) S h side
    obtain ⟨c₂, d₂, y1, y2, y2', y3⟩ := ih x1
    have := x2.sum
    have := x3.sum
    have := y2.sum
    have := y2'.sum
    refine ⟨c₂, d₂, y1, x2.trans y2, x3.trans y2', fun hle s hs => ?_⟩
    have e1 := x2.eq (by omega)
    have e2 := x3.eq (by omega)
    rcases List.mem_cons.mp hs with rfl | hs
    · exact x4 e1 e2
    · have := y3 (by omega) s hs
      rwa [e1, e2] at this

theorem at_new (S : Setting strict strict' E sE D sD dom enc E' sE' D' sD' dom' enc' answer n₁ n₂ n₃ n₄ reqs)
    {store₁ store₂ store₃ store₄ : Bytes} (e₁ : store₁.length = n₁) (e₂ : store₂.length = n₂) (e₃ : store₃.length = n₃)
    (e₄ : store₄.length = n₄) (sizes : Nat → Nat) :
    ∃ c d, SessionAt E sE D sD dom enc E' sE' D' sD' dom' enc' answer n₁ n₂ n₃ n₄ reqs
      (Session.new sE sD sE' sD' store₁ store₂ store₃ store₄ sizes reqs) c d := by
  have hE := matched_emits S.hM
  have hE' := matched_emits S.hM'
  have hw : ∀ s : Bytes, (WriteBuf.new s).Inv := fun s => ⟨Nat.le_refl _, Nat.zero_le _, fun _ => rfl⟩
  have hr : ∀ s : Bytes, (ReadBuf.new s).Inv := fun s => ⟨Nat.le_refl _, Nat.zero_le _, fun _ => rfl⟩
  refine ⟨_, _, [], 0, [], 0, [], ⟨rfl, ?_, ?_, ?_, ?_, List.prefix_refl _, List.prefix_refl _, rfl, rfl⟩, rfl, rfl⟩
  · exact ⟨fun x hx => (by cases hx), .new, Nat.le_refl _,
      by simp [Session.new, ReadBuf.new, WriteBuf.new, ReadBuf.content, WriteBuf.content],
      hw _, rfl, e₁, hr _, e₃, .new, .refl, fun h => (by cases h), fun h => (by cases h)⟩
  · exact ⟨fun x hx => (by cases hx), .new, Nat.le_refl _,
      by simp [Session.new, ReadBuf.new, WriteBuf.new, ReadBuf.content, WriteBuf.content],
      hw _, rfl, e₄, hr _, e₂, .new, .refl, fun h => (by cases h), fun h => (by cases h)⟩
  · simp [Session.new, hE.new, bytesOfAll]
  · simp [Session.new, hE'.new, bytesOfAll]

theorem bytesOfAll_prefix {enc : α → Except ErrorKind Bytes} {xs ys : List α} (h : xs <+: ys) :
    (bytesOfAll enc xs).length ≤ (bytesOfAll enc ys).length := by
  obtain ⟨zs, rfl⟩ := h
  simp [bytesOfAll]

theorem SInv.bounds (hE : Emits strict E sE dom enc) (hE' : Emits strict' E' sE' dom' enc')
    {t : Session τ σ τ' σ' α β} {sent : List α} {pos₁ pos₂ : Nat} {em₁ em₂ : Bytes}
    (h : SInv E sE D sD dom enc E' sE' D' sD' dom' enc' answer n₁ n₂ n₃ n₄ reqs t sent pos₁ em₁ pos₂ em₂) :
    (cnt₁ t sent pos₁ em₁).sum + (cnt₂ answer t pos₂ em₂).sum ≤
      4 * ((bytesOfAll enc reqs).length + (bytesOfAll enc' (reqs.map answer)).length) + 3 * reqs.length + t.got.length := by
  have h1 := (hE.inOrder h.p₁.sends).length_le
  have h2 := (hE'.inOrder h.p₂.sends).length_le
  have h3 := h.p₁.emLength
  have h4 := h.p₂.emLength
  have h5 : sent <+: reqs := ⟨t.todo, h.split.symm⟩
  have h6 := h.got₁.length_le
  have h7 := bytesOfAll_prefix (enc := enc) h5
  have h8 := bytesOfAll_prefix (enc := enc') ((h.got₁.trans h5).map answer)
  have h9 := h5.length_le
  simp only [cnt₁, cnt₂, cnt, Cnt.sum, List.length_map] at *
  omega

theorem SessionAt.le {t : Session τ σ τ' σ' α β} {c d : Cnt}
    (h : SessionAt E sE D sD dom enc E' sE' D' sD' dom' enc' answer n₁ n₂ n₃ n₄ reqs t c d) : d.got ≤ reqs.length := by
  obtain ⟨sent, _, _, _, _, hI, rfl, rfl⟩ := h
  have h1 := hI.got₂.length_le
  have h2 := hI.got₁.length_le
  have h3 := congrArg List.length hI.split
  simp only [List.length_append, List.length_map] at h1 h3
  simp only [cnt₂, cnt]
  omega

/-- Blocks of turns; in each, both sides have at least one turn. -/
theorem blocks_at (S : Setting strict strict' E sE D sD dom enc E' sE' D' sD' dom' enc' answer n₁ n₂ n₃ n₄ reqs)
    (hcap : 0 < cap) (blocks : List (List Side)) (hb : ∀ l ∈ blocks, Side.client ∈ l ∧ Side.server ∈ l)
    {t : Session τ σ τ' σ' α β} {c d : Cnt}
    (h : SessionAt E sE D sD dom enc E' sE' D' sD' dom' enc' answer n₁ n₂ n₃ n₄ reqs t c d) :
    ∃ c' d', SessionAt E sE D sD dom enc E' sE' D' sD' dom' enc' answer n₁ n₂ n₃ n₄ reqs
        (t.run E D E' D' answer cap blocks.flatten) c' d' ∧ Cnt.Le d d' ∧
      (d'.got = reqs.length ∨ blocks.length + c.sum + d.sum ≤ c'.sum + d'.sum) := by
  induction blocks generalizing t c d with
  | nil => exact ⟨c, d, h, .refl _, .inr (by simp)⟩
  | cons l rest ih =>
    obtain ⟨c₁, d₁, x1, x2, x2', x3⟩ := run_at (cap := cap) S l h
    have := x2.sum
    have := x2'.sum
    obtain ⟨c₂, d₂, y1, y3, y2⟩ := ih (fun l hl => hb l (List.mem_cons_of_mem _ hl)) x1
    have hrun : t.run E D E' D' answer cap (l :: rest).flatten =
        (t.run E D E' D' answer cap l).run E D E' D' answer cap rest.flatten := by
      simp [Session.run, List.foldl_append]
    rw [hrun]
    refine ⟨c₂, d₂, y1, x2'.trans y3, ?_⟩
    rcases y2 with y2 | y2
    · exact .inl y2
    · by_cases hle : c₁.sum + d₁.sum ≤ c.sum + d.sum
      · left
        obtain ⟨hcl, hsv⟩ := hb l (by simp)
        have k1 := x3 hle _ hcl
        have k2 := x3 hle _ hsv
        have hcd : d.sent = c.got := by
          obtain ⟨_, _, _, _, _, hI, rfl, rfl⟩ := h
          simp [cnt₁, cnt₂, cnt]
        have hdone : d.got = reqs.length := by
          rcases k1 with k1 | k1
          · exact k1
          · exact stuck_done hcap hcd k1 k2
        have hle' := (x2'.trans y3).got
        have := y1.le
        omega
      · right
        simp only [List.length_cons]
        omega

end

end Bytecodec
