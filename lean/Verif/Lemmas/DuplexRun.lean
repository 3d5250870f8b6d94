import Verif.Lemmas.Duplex
/-!
# Lemmas: a client and a server as asynchronous tasks, round by round
-/
namespace Bytecodec
open Spec

variable {τ σ τ' σ' α β : Type}

theorem serve_keeps {D : Decoder σ α} {E' : Encoder τ' β} {answer : α → β} {s s' : τ'} {dec dec' : σ} {r r' : ReadBuf}
    {y : Option α} (h : r.Inv) (hs : serve D E' answer s dec r = some (s', dec', r', y)) :
    r'.state = r.state ∧ (¬ r.isFull = true → ¬ r'.isFull = true) := by
  unfold serve at hs
  split at hs
  · rcases hd : decodeIn D dec r with _ | ⟨dec₁, r₁⟩
    · simp [hd] at hs
    · rw [hd, Option.bind_some] at hs
      simp only at hs
      rcases ht : takeItem D dec₁ with _ | ⟨dec₂, x⟩
      · simp [ht] at hs
      · rw [ht, Option.bind_some] at hs
        simp only at hs
        rcases hp : reply E' answer s x with _ | s₁
        · simp [hp] at hs
        · rw [hp] at hs
          cases hs
          exact decodeIn_keeps h hd
  · cases hs; exact ⟨rfl, id⟩

theorem WriteBuf.not_full {b : WriteBuf} (h : b.Inv) (hc : b.content = []) (hn : 0 < b.inner.length) :
    b.isFull = false := by
  have := WriteBuf.roomy h hc hn
  have := h.cap
  simp only [WriteBuf.room, WriteBuf.isFull, beq_eq_false_iff_ne] at *
  omega

/-- Messages that can be told apart in a stream have at least one byte. -/
theorem matched_nonempty {strict : Bool} {E : Encoder τ α} {sE : τ} {D : Decoder σ α} {sD : σ} {dom : α → Prop}
    {enc : α → Except ErrorKind Bytes} (hM : Matched strict true true E sE D sD dom enc)
    {z : α} {bz : Bytes} (hz : dom z) (hbz : enc z = .ok bz) (hne : bz ≠ []) {x : α} {b : Bytes} (hx : dom x)
    (hb : enc x = .ok b) : b ≠ [] := by
  rintro rfl
  have hlen : 0 < bz.length := List.length_pos_iff.mpr hne
  have hd : ∀ y ∈ [x, z], dom y ∧ ∃ c, enc y = .ok c ∧ (bytesOf (enc y)).length = c.length := by
    intro y hy
    simp only [List.mem_cons, List.not_mem_nil, or_false] at hy
    rcases hy with rfl | rfl
    · exact ⟨hx, [], hb, by rw [bytesOf_ok hb]⟩
    · exact ⟨hz, bz, hbz, by rw [bytesOf_ok hbz]⟩
  have hR := matched_receives hM (msgs := [x, z]) (tail := []) (e := Eos.new false) hd
    (by intro n hn; cases hn) (.inl ⟨rfl, rfl⟩) (.inl rfl)
  have hR2 := matched_receives hM (msgs := [z]) (tail := []) (e := Eos.new false)
    (fun y hy => hd y (List.mem_cons_of_mem _ hy)) (by intro n hn; cases hn) (.inl ⟨rfl, rfl⟩) (.inl rfl)
  simp only [List.flatMap_cons, List.flatMap_nil, List.append_nil, bytesOf_ok hb, bytesOf_ok hbz, List.nil_append]
    at hR hR2
  by_cases hi : D.isIdle sD = true
  · have := (hR2.ready .new (x := z) (more := []) rfl hi).2
    simp [bytesOf_ok hbz] at this
    omega
  · simp only [Bool.not_eq_true] at hi
    have hO : Offer bz (Eos.new false) 0 bz (Eos.new false) := ⟨[], by simp, .inl rfl⟩
    obtain ⟨n, s', h1, _, _, _⟩ := hR.going .new (x := x) (more := [z]) rfl hi hO
    have hc := hR.complete .new (x := x) (more := [z]) rfl hi
    rw [List.drop_zero, h1] at hc
    have k1 := (hR.ready (.decode .new hi hO h1) (x := x) (more := [z]) rfl hc).2
    have k2 := (hR2.ready (.decode .new hi hO h1) (x := z) (more := []) rfl hc).2
    simp [bytesOf_ok hb] at k1
    simp [bytesOf_ok hbz] at k2
    omega

theorem bytesOfAll_strict {enc : α → Except ErrorKind Bytes} {xs : List α} {m n : Nat}
    (h : ∀ x ∈ xs, bytesOf (enc x) ≠ []) (hmn : m < n) (hn : n ≤ xs.length) :
    (bytesOfAll enc (xs.take m)).length < (bytesOfAll enc (xs.take n)).length := by
  have h1 : bytesOfAll enc (xs.take (m + 1)) = bytesOfAll enc (xs.take m) ++ bytesOf (enc xs[m]) := by
    have hm : m < xs.length := by omega
    rw [List.take_succ_eq_append_getElem hm, bytesOfAll, List.flatMap_append, List.flatMap_cons, List.flatMap_nil,
      List.append_nil, bytesOfAll]
  have h2 : 0 < (bytesOf (enc xs[m])).length := List.length_pos_iff.mpr (h _ (List.getElem_mem _))
  have h3 : xs.take (m + 1) <+: xs.take n := by
    have := List.take_prefix (m + 1) (xs.take n)
    rwa [List.take_take, Nat.min_eq_left (by omega)] at this
  have h4 := bytesOfAll_prefix (enc := enc) h3
  rw [h1, List.length_append] at h4
  omega

/-! ## Wakers of the other side -/

/-- How the flags of the other side change: whether it runs, its read waker, its write waker. -/
structure Wakes (runs runs' rd rd' wr wr' : Bool) (wrote read : Prop) : Prop where
  keep : runs = true → runs' = true
  off : runs' = false → (wrote → rd = false) ∧ (read → wr = false)
  same : ¬ wrote → ¬ read → runs' = runs
  rd : ¬ wrote → rd' = rd
  wr : ¬ read → wr' = wr

theorem wakes_of {cap : Nat} {r r' : ReadBuf} {w w' : WriteBuf} {l l₁ l' : Endpoint} {k j : Nat}
    (f : EndFilled r l r' l₁ k) (g : EndFlushed cap w l₁ w' l' j) :
    Wakes l.peerRuns l'.peerRuns l.peerReadWaker l'.peerReadWaker l.peerWriteWaker l'.peerWriteWaker (0 < j) (0 < k) := by
  have f1 := f.same; have f2 := f.woken; have f3 := f.peerRead
  have g1 := g.same; have g2 := g.woken; have g3 := g.peerWrite
  by_cases hk : 0 < k <;> by_cases hj : 0 < j
  · obtain ⟨f2, f2'⟩ := f2 hk
    obtain ⟨g2, g2'⟩ := g2 hj
    constructor <;> simp_all
  · obtain ⟨f2, f2'⟩ := f2 hk
    obtain ⟨g1, g1', _⟩ := g1 (by omega)
    constructor <;> simp_all
  · obtain ⟨f1, f1'⟩ := f1 (by omega)
    obtain ⟨g2, g2'⟩ := g2 hj
    constructor <;> simp_all
  · obtain ⟨f1, f1'⟩ := f1 (by omega)
    obtain ⟨g1, g1', _⟩ := g1 (by omega)
    constructor <;> simp_all

theorem Wakes.congr {runs runs' rd rd' wr wr' : Bool} {p q p' q' : Prop} (h : Wakes runs runs' rd rd' wr wr' p q)
    (hp : p' ↔ p) (hq : q' ↔ q) : Wakes runs runs' rd rd' wr wr' p' q' := by
  rw [propext hp, propext hq]; exact h

/-- The recorded states of the buffers are not outdated. -/
structure FreshStates (t : Session τ σ τ' σ' α β) : Prop where
  cr : t.clientR.state.isWouldBlock = true → ¬ t.clientR.isFull = true
  cw : t.clientW.state.isWouldBlock = true → t.clientW.content ≠ []
  sr : t.serverR.state.isWouldBlock = true → ¬ t.serverR.isFull = true
  sw : t.serverW.state.isWouldBlock = true → t.serverW.content ≠ []

section

variable {strict strict' : Bool} {E : Encoder τ α} {sE : τ} {D : Decoder σ α} {sD : σ} {dom : α → Prop}
  {enc : α → Except ErrorKind Bytes} {E' : Encoder τ' β} {sE' : τ'} {D' : Decoder σ' β} {sD' : σ'} {dom' : β → Prop}
  {enc' : β → Except ErrorKind Bytes} {answer : α → β} {n₁ n₂ n₃ n₄ cap : Nat} {reqs : List α}

/-- A sleeping client has nothing to do and will be woken. -/
structure ClientSleeps (enc : α → Except ErrorKind Bytes) (enc' : β → Except ErrorKind Bytes) (answer : α → β)
    (cap : Nat) (reqs : List α) (rd wr : Bool) (c d : Cnt) : Prop where
  stuck : ClientStuck enc enc' answer cap reqs c d
  read : rd = true
  write : c.em ≠ c.a → wr = true

/-- A sleeping server has nothing to do and will be woken. -/
structure ServerSleeps (enc : α → Except ErrorKind Bytes) (enc' : β → Except ErrorKind Bytes) (answer : α → β)
    (cap : Nat) (reqs : List α) (rd wr : Bool) (c d : Cnt) : Prop where
  stuck : ServerStuck enc enc' answer cap reqs c d
  read : d.em = owed₂ enc' answer reqs d → rd = true
  write : d.em ≠ d.a → wr = true

theorem client_round (hM : Matched strict true true E sE D sD dom enc)
    (hM' : Matched strict' true true E' sE' D' sD' dom' enc')
    (hS' : SafeFrom D' sD') (h₁ : 0 < n₁) (h₂ : 0 < n₂) (hn₂ : n₂ < 2 ^ 64)
    (hm : ∀ x ∈ reqs, dom x ∧ ∃ b, enc x = .ok b)
    {z : β} {bz : Bytes} (hz : dom' z) (hbz : enc' z = .ok bz) (hne : bz ≠ [])
    {t : Duplex τ σ τ' σ' α β} {sent : List α} {pos₁ pos₂ : Nat} {em₁ em₂ : Bytes}
    (h : SInv E sE D sD dom enc E' sE' D' sD' dom' enc' answer n₁ n₂ n₃ n₄ reqs t.s sent pos₁ em₁ pos₂ em₂)
    (hF : FreshStates t.s) :
    ∃ t' sent' em₁' pos₂', clientRound E D' cap t = some t' ∧
      SInv E sE D sD dom enc E' sE' D' sD' dom' enc' answer n₁ n₂ n₃ n₄ reqs t'.s sent' pos₁ em₁' pos₂' em₂ ∧
      FreshStates t'.s ∧
      Cnt.Le (cnt₁ t.s sent pos₁ em₁) (cnt₁ t'.s sent' pos₁ em₁') ∧
      Cnt.Le (cnt₂ answer t.s pos₂ em₂) (cnt₂ answer t'.s pos₂' em₂) ∧
      (cnt₁ t'.s sent' pos₁ em₁' = cnt₁ t.s sent pos₁ em₁ → cnt₂ answer t'.s pos₂' em₂ = cnt₂ answer t.s pos₂ em₂ →
        t'.clientRuns = false) ∧
      (t'.clientRuns = false → ClientSleeps enc enc' answer cap reqs t'.clientReadWaker t'.clientWriteWaker
        (cnt₁ t'.s sent' pos₁ em₁') (cnt₂ answer t'.s pos₂' em₂)) ∧
      Wakes t.serverRuns t'.serverRuns t.serverReadWaker t'.serverReadWaker t.serverWriteWaker t'.serverWriteWaker
        ((cnt₁ t'.s sent' pos₁ em₁').a ≠ (cnt₁ t.s sent pos₁ em₁).a)
        ((cnt₂ answer t'.s pos₂' em₂).b ≠ (cnt₂ answer t.s pos₂ em₂).b) ∧
      t'.s.handled = t.s.handled ∧ t'.s.serverR = t.s.serverR ∧
      (cnt₂ answer t'.s pos₂' em₂).a = (cnt₂ answer t.s pos₂ em₂).a := by
  have hE := matched_emits hM
  have hE' := matched_emits hM'
  obtain ⟨hk₁, hk₂⟩ := h.taken
  -- submit
  obtain ⟨s₁, todo', sent', a1, a2, a3, a4, a5⟩ := h.p₁.submit hE rfl (todo := t.s.todo)
    (fun x hx => hm x (by rw [h.split]; exact List.mem_append_right _ hx))
  simp only at a1 a2 a3 a4 a5
  -- encode
  obtain ⟨s₂, w₁, em₁', b1, b2, b3, b4⟩ := a2.encodeOut hE
  obtain ⟨bk1, bk2, bk3⟩ := encodeOut_keeps b1
  simp only at b1 b2 b3 b4 bk1 bk2 bk3
  -- exchange
  obtain ⟨l', r', w', k, j, l₁, c1, c2, c3⟩ := pollExchange_eq cap ⟨t.s.toClient, t.s.toServer, t.s.sizes,
    t.clientReadWaker, t.clientWriteWaker, t.serverReadWaker, t.serverWriteWaker, t.serverRuns⟩ t.s.clientR w₁ h.p₂.r b2.w
  have hwk := wakes_of c2 c3
  have d2 := h.p₂.lineFilled rfl c2.line rfl
  have d1 := b2.lineFlushed rfl c3.line (by simpa [Endpoint.line] using c2.out)
  simp only [Endpoint.line] at d1 d2
  -- decode
  obtain ⟨dec₁, r₁, dec₂, y, n, e1, e2, e3, e4, e5, e6, e7⟩ := d2.attempt hM' hS' hn₂ hz hbz hne rfl h.got₂
  obtain ⟨ek1, ek2⟩ := decodeIn_keeps d2.r e1
  simp only at e1 e2 e3 e4 e5 e6 e7 ek1 ek2
  have f1 := h.p₁.emLength
  have f2 := d1.emLength
  have f3 := h.p₂.emLength
  have f4 := e3.emLength
  have f5 := b2.emLength
  simp only at f1 f2 f3 f4 f5
  have g1 := congrArg List.length c3.out
  have g2 := congrArg List.length c3.content
  have g3 := congrArg List.length c2.content
  have g4 := congrArg List.length c2.inc
  have g5 := congrArg List.length c2.out
  have g6 := congrArg List.length c3.inc
  have g7 := c2.le
  have g8 := c3.le
  simp only [List.length_append, List.length_take, List.length_drop] at g1 g2 g3 g4 g5 g6 g7
  rw [← c3.inc] at e3 e7
  have hw₁ : w₁.state.isWouldBlock = true → w₁.content ≠ [] := by
    intro hs hn
    rw [bk1] at hs
    have := List.length_pos_iff.mpr (hF.cw hs)
    rw [hn, List.length_nil] at f5
    omega
  have hw' := c3.fresh hw₁
  have hr' := c2.fresh hF.cr
  have hkeep : reqs = sent' ++ todo' := by rw [h.split]; exact a3
  have hk₁' : reqs.take sent'.length = sent' := by rw [hkeep]; simp
  refine ⟨{
      s := { t.s with
        clientEnc := s₂, clientW := w', clientR := r₁, clientDec := dec₂, todo := todo', got := t.s.got ++ y.toList,
        toServer := l'.out, toClient := l'.inc, sizes := l'.sizes }
      clientReadWaker := l'.readWaker
      clientWriteWaker := l'.writeWaker
      serverReadWaker := l'.peerReadWaker
      serverWriteWaker := l'.peerWriteWaker
      clientRuns := !((⟨l', r₁, w'⟩ : BufferedIo Endpoint).wouldBlock && y.isNone &&
        (if E.isIdle s₂ then todo'.isEmpty else w'.isFull))
      serverRuns := l'.peerRuns }, sent', em₁', pos₂ + n,
    by simp only [clientRound, a1, b1, c1, e1, e2, Option.bind_some],
    ⟨hkeep, d1, e3, b4, h.idle₂, h.got₁.trans a4, e5, h.ok, h.want⟩,
    ⟨fun hs => ek2 (hr' (by rw [← ek1]; exact hs)).1, fun hs => (hw' hs).1, hF.sr, hF.sw⟩, ?_, ?_, ?_, ?_, ?_, rfl, rfl,
    by simp only [cnt₂, cnt]; omega⟩
  · refine ⟨?_, ?_, Nat.le_refl _, Nat.le_refl _, a4.length_le, Nat.le_refl _⟩ <;> simp only [cnt₁, cnt] <;> omega
  · refine ⟨Nat.le_refl _, ?_, ?_, ?_, Nat.le_refl _, ?_⟩ <;> simp only [cnt₂, cnt, List.length_append] <;> omega
  · intro q1 q2
    simp only [cnt₁, cnt, Cnt.mk.injEq] at q1
    simp only [cnt₂, cnt, Cnt.mk.injEq, List.length_append] at q2
    obtain ⟨q3, q4, _, _, q7, _⟩ := q1
    obtain ⟨_, q9, q10, q11, _, q13⟩ := q2
    have hy : y = none := by
      cases y with
      | none => rfl
      | some y => simp at q13
    have hn0 : n = 0 := by omega
    have hr₁ := e6 hy
    rw [hr₁, List.length_nil] at e4
    have hr'n : r'.content = [] := List.length_eq_zero_iff.mp (by omega)
    have hrb : r₁.state.isWouldBlock = true := by
      rw [ek1]
      rcases c2.stop with hfull | hnil
      · exact absurd hfull (ReadBuf.notFull c2.inv hr'n (by rw [c2.storage]; have := h.p₂.rcap; simp only at this; omega))
      · exact hnil.1
    have hwb : w'.isEmpty = true ∨ w'.state.isWouldBlock = true :=
      c3.stop.imp (fun h => (WriteBuf.isEmpty_content c3.inv).mpr h) fun h => h.1
    have hsent : sent' = sent := by
      obtain ⟨more, hmore⟩ := a4
      have := congrArg List.length hmore
      rw [List.length_append] at this
      have : more = [] := List.length_eq_zero_iff.mp (by omega)
      rw [← hmore, this, List.append_nil]
    subst hsent
    have htodo : t.s.todo = todo' := List.append_cancel_left a3
    have hjob : (if E.isIdle s₂ then todo'.isEmpty else w'.isFull) = true := by
      by_cases hi : E.isIdle s₂ = true
      · rw [if_pos hi, ← htodo, a5 (h.idle₁.mpr (by rw [← q3]; exact b4.mp hi)) rfl]
        rfl
      · rw [if_neg hi]
        have hlt : ¬ em₁'.length = (bytesOfAll enc sent').length := fun he => hi (b4.mpr he)
        have hle := (hE.inOrder b2.sends).length_le
        have hroom : t.s.clientW.room = 0 := by simp only at hle; omega
        have hj : j = 0 := by omega
        have hjt := (c3.same hj).2.2
        have hcl := WriteBuf.content_length h.p₁.w
        have hcl₁ := WriteBuf.content_length b2.w
        have hcap := h.p₁.w.cap
        have hle0 := h.p₁.w.le
        have hle1 := b2.w.le
        have hst := c3.storage
        have hwc := b2.wcap
        have hwc0 := h.p₁.wcap
        simp only [WriteBuf.room, WriteBuf.len] at hroom hcl hcl₁
        simp only at hcap hle0 hle1 hwc hwc0
        simp only [WriteBuf.isFull, beq_iff_eq]
        omega
    simp only [BufferedIo.wouldBlock, hrb, hy, hjob, Option.isNone_none, Bool.true_and, Bool.and_true]
    rcases hwb with hwb | hwb <;> simp [hwb]
  · intro hruns
    simp only [BufferedIo.wouldBlock, Bool.not_eq_false', Bool.and_eq_true, Bool.or_eq_true, Option.isNone_iff_eq_none]
      at hruns
    obtain ⟨⟨⟨hrb, hwb⟩, hy⟩, hjob⟩ := hruns
    obtain ⟨x1, x2, x3⟩ := hr' (by rw [← ek1]; exact hrb)
    have hinc : l'.inc = [] := by rw [c3.inc]; exact x2
    have hr₁ := e6 hy
    have hwb' : w'.content = [] ∨ w'.state.isWouldBlock = true :=
      hwb.imp (fun h => (WriteBuf.isEmpty_content c3.inv).mp h) id
    refine ⟨⟨?_, ?_, ?_, ?_, ?_, ?_⟩, by simp only [c3.readWaker]; exact x3, ?_⟩
    · simp [cnt₂, cnt, hr₁]
    · simp [cnt₂, cnt, hinc]
    · simp only [cnt₁, cnt]
      rcases hwb' with hs | hs
      · left
        rw [hs, List.length_nil] at f2
        omega
      · right
        have := (hw' hs).2.1
        omega
    · simp only [cnt₁, cnt, owed₁, hk₁']
      intro hem
      have hc : w'.content = [] := List.length_eq_zero_iff.mp (by omega)
      by_cases hi : E.isIdle s₂ = true
      · exact b4.mp hi
      · rw [if_neg hi, WriteBuf.not_full c3.inv hc (by rw [c3.storage]; have := b2.wcap; simp only at this; omega)] at hjob
        cases hjob
    · simp only [cnt₁, cnt, owed₁, hk₁']
      intro hem
      rw [if_pos (b4.mpr hem), List.isEmpty_iff] at hjob
      rw [hkeep, hjob, List.append_nil]
    · simp only [cnt₂, cnt, owed₂, List.length_map, hk₂]
      intro hem ha
      have hwc : t.s.serverW.content = [] := List.length_eq_zero_iff.mp (by omega)
      have := e7 hy hem hinc hwc
      rw [hy, Option.toList, List.append_nil, this, List.length_map]
    · simp only [cnt₁, cnt]
      intro hne
      rcases hwb' with hs | hs
      · rw [hs, List.length_nil] at f2
        omega
      · exact (hw' hs).2.2
  · refine hwk.congr ?_ ?_
    · simp only [cnt₁, cnt]
      omega
    · simp only [cnt₂, cnt]
      omega

theorem server_round (hM : Matched strict true true E sE D sD dom enc)
    (hM' : Matched strict' true true E' sE' D' sD' dom' enc')
    (hS : SafeFrom D sD) (h₃ : 0 < n₃) (h₄ : 0 < n₄) (hn₃ : n₃ < 2 ^ 64)
    (ha : ∀ x ∈ reqs, dom' (answer x) ∧ ∃ b, enc' (answer x) = .ok b)
    {z : α} {bz : Bytes} (hz : dom z) (hbz : enc z = .ok bz) (hne : bz ≠ [])
    {t : Duplex τ σ τ' σ' α β} {sent : List α} {pos₁ pos₂ : Nat} {em₁ em₂ : Bytes}
    (h : SInv E sE D sD dom enc E' sE' D' sD' dom' enc' answer n₁ n₂ n₃ n₄ reqs t.s sent pos₁ em₁ pos₂ em₂)
    (hF : FreshStates t.s) :
    ∃ t' pos₁' em₂', serverRound D E' answer cap t = some t' ∧
      SInv E sE D sD dom enc E' sE' D' sD' dom' enc' answer n₁ n₂ n₃ n₄ reqs t'.s sent pos₁' em₁ pos₂ em₂' ∧
      FreshStates t'.s ∧
      Cnt.Le (cnt₁ t.s sent pos₁ em₁) (cnt₁ t'.s sent pos₁' em₁) ∧
      Cnt.Le (cnt₂ answer t.s pos₂ em₂) (cnt₂ answer t'.s pos₂ em₂') ∧
      (cnt₁ t'.s sent pos₁' em₁ = cnt₁ t.s sent pos₁ em₁ → cnt₂ answer t'.s pos₂ em₂' = cnt₂ answer t.s pos₂ em₂ →
        t'.serverRuns = false) ∧
      (t'.serverRuns = false → ServerSleeps enc enc' answer cap reqs t'.serverReadWaker t'.serverWriteWaker
        (cnt₁ t'.s sent pos₁' em₁) (cnt₂ answer t'.s pos₂ em₂')) ∧
      Wakes t.clientRuns t'.clientRuns t.clientReadWaker t'.clientReadWaker t.clientWriteWaker t'.clientWriteWaker
        ((cnt₂ answer t'.s pos₂ em₂').a ≠ (cnt₂ answer t.s pos₂ em₂).a)
        ((cnt₁ t'.s sent pos₁' em₁).b ≠ (cnt₁ t.s sent pos₁ em₁).b) ∧
      t'.s.got = t.s.got ∧ t'.s.clientR = t.s.clientR ∧
      (cnt₁ t'.s sent pos₁' em₁).a = (cnt₁ t.s sent pos₁ em₁).a := by
  have hE := matched_emits hM
  have hE' := matched_emits hM'
  obtain ⟨hk₁, hk₂⟩ := h.taken
  -- exchange
  obtain ⟨l', r', w', k, j, l₁, c1, c2, c3⟩ :=
    pollExchange_eq cap ⟨t.s.toServer, t.s.toClient, t.s.sizes, t.serverReadWaker, t.serverWriteWaker,
      t.clientReadWaker, t.clientWriteWaker, t.clientRuns⟩ t.s.serverR t.s.serverW h.p₁.r h.p₂.w
  have hwk := wakes_of c2 c3
  have d1 := h.p₁.lineFilled rfl c2.line rfl
  have d2 := h.p₂.lineFlushed rfl c3.line (by simpa [Endpoint.line] using c2.out)
  simp only [Endpoint.line] at d1 d2
  -- decode and answer
  obtain ⟨s₁, dec', r₁, y, n, e1, e2, e3, e4, e5, e6⟩ := serve_eq (answer := answer) hM hE' hS hn₃ hz hbz hne d1 d2 rfl rfl
    h.got₁ (fun x hx => ha x (by rw [h.split]; exact List.mem_append_left _ hx))
  obtain ⟨ek1, ek2⟩ := serve_keeps d1.r e1
  simp only at e1 e2 e3 e4 e5 e6 ek1 ek2
  -- encode
  obtain ⟨s₂, w₁, em₂', b1, b2, b3, b4⟩ := e3.encodeOut hE'
  obtain ⟨bk1, bk2, bk3⟩ := encodeOut_keeps b1
  simp only at b1 b2 b3 b4 bk1 bk2 bk3
  have hmap : t.s.handled.map answer ++ y.toList.map answer = (t.s.handled ++ y.toList).map answer := by simp
  rw [hmap] at b2 b3 b4
  have f1 := h.p₁.emLength
  have f2 := d1.emLength
  have f3 := h.p₂.emLength
  have f4 := d2.emLength
  have f5 := b2.emLength
  have f6 := e2.emLength
  simp only at f1 f2 f3 f4 f5 f6
  have g1 := congrArg List.length c3.out
  have g2 := congrArg List.length c3.content
  have g3 := congrArg List.length c2.content
  have g4 := congrArg List.length c2.inc
  have g5 := congrArg List.length c2.out
  have g6 := congrArg List.length c3.inc
  have g7 := c2.le
  have g8 := c3.le
  simp only [List.length_append, List.length_take, List.length_drop] at g1 g2 g3 g4 g5 g6 g7
  rw [← c3.inc] at e2 e6
  have hw' := c3.fresh hF.sw
  have hr' := c2.fresh hF.sr
  have hprefix : t.s.handled ++ y.toList <+: reqs := e5.trans ⟨_, h.split.symm⟩
  have hk₂' : reqs.take (t.s.handled ++ y.toList).length = t.s.handled ++ y.toList :=
    (List.prefix_iff_eq_take.mp hprefix).symm
  refine ⟨{
      s := { t.s with
        serverEnc := s₂, serverW := w₁, serverR := r₁, serverDec := dec', handled := t.s.handled ++ y.toList,
        toServer := l'.inc, toClient := l'.out, sizes := l'.sizes }
      clientReadWaker := l'.peerReadWaker
      clientWriteWaker := l'.peerWriteWaker
      serverReadWaker := l'.readWaker
      serverWriteWaker := l'.writeWaker
      clientRuns := l'.peerRuns
      serverRuns := !((if E'.isIdle t.s.serverEnc then (⟨l', r₁, w₁⟩ : BufferedIo Endpoint).wouldBlock
        else w₁.state.isWouldBlock) && y.isNone && E'.isIdle s₂ == E'.isIdle t.s.serverEnc) }, pos₁ + n, em₂',
    by simp only [serverRound, b1, c1, e1, Option.bind_some],
    ⟨h.split, e2, b2, h.idle₁, b4, e5, h.got₂.trans (by rw [← hmap]; exact List.prefix_append _ _), h.ok, h.want⟩,
    ⟨hF.cr, hF.cw, fun hs => ek2 (hr' (by rw [← ek1]; exact hs)).1, fun hs hn => ?_⟩, ?_, ?_, ?_, ?_, ?_, rfl, rfl,
    by simp only [cnt₁, cnt]; omega⟩
  · have := List.length_pos_iff.mpr (hw' (by rw [← bk1]; exact hs)).1
    simp only at hn
    rw [hn, List.length_nil] at f5
    omega
  · refine ⟨Nat.le_refl _, ?_, ?_, ?_, Nat.le_refl _, ?_⟩ <;> simp only [cnt₁, cnt, List.length_append] <;> omega
  · refine ⟨?_, ?_, Nat.le_refl _, Nat.le_refl _, ?_, Nat.le_refl _⟩ <;>
      simp only [cnt₂, cnt, List.length_map, List.length_append] <;> omega
  · intro q1 q2
    simp only [cnt₁, cnt, Cnt.mk.injEq, List.length_append] at q1
    simp only [cnt₂, cnt, Cnt.mk.injEq] at q2
    obtain ⟨_, q4, q5, q6, _, q8⟩ := q1
    obtain ⟨q9, q10, _, _, _, _⟩ := q2
    have hy : y = none := by
      cases y with
      | none => rfl
      | some y => simp at q8
    subst hy
    have hn0 : n = 0 := by omega
    subst hn0
    simp only [Option.toList, List.append_nil] at b3 b4
    have hsame : E'.isIdle s₂ = E'.isIdle t.s.serverEnc := by
      rw [Bool.eq_iff_iff, b4, h.idle₂, q9]
    have hblock : (if E'.isIdle t.s.serverEnc then (⟨l', r₁, w₁⟩ : BufferedIo Endpoint).wouldBlock
        else w₁.state.isWouldBlock) = true := by
      by_cases hi : E'.isIdle t.s.serverEnc = true
      · rw [if_pos hi]
        have hr₁ := (e6 hi rfl).1
        rw [hr₁, List.length_nil] at e4
        have hr'n : r'.content = [] := List.length_eq_zero_iff.mp (by omega)
        have hrb : r₁.state.isWouldBlock = true := by
          rw [ek1]
          rcases c2.stop with hfull | hnil
          · exact absurd hfull
              (ReadBuf.notFull c2.inv hr'n (by rw [c2.storage]; have := h.p₁.rcap; simp only at this; omega))
          · exact hnil.1
        have hwb : w₁.isEmpty = true ∨ w₁.state.isWouldBlock = true := by
          rcases c3.stop with hs | hs
          · rw [hs, List.length_nil] at f4
            exact .inl ((WriteBuf.isEmpty_content b2.w).mpr (List.length_eq_zero_iff.mp (by simp only; omega)))
          · exact .inr (by rw [bk1]; exact hs.1)
        simp only [BufferedIo.wouldBlock, hrb, Bool.true_and]
        rcases hwb with hwb | hwb <;> simp [hwb]
      · rw [if_neg hi, bk1]
        have hlt : ¬ em₂.length = (bytesOfAll enc' (t.s.handled.map answer)).length := fun he => hi (h.idle₂.mpr he)
        have hle := (hE'.inOrder h.p₂.sends).length_le
        rcases c3.stop with hs | hs
        · have := WriteBuf.roomy d2.w hs (by have := d2.wcap; simp only at this ⊢; omega)
          simp only at hle this
          omega
        · exact hs.1
    simp [hblock, hsame]
  · intro hruns
    simp only [Bool.not_eq_false', Bool.and_eq_true, Option.isNone_iff_eq_none, beq_iff_eq] at hruns
    obtain ⟨⟨hblock, rfl⟩, hsame⟩ := hruns
    simp only [Option.toList, List.append_nil] at b2 b3 b4 e2
    by_cases hi : E'.isIdle t.s.serverEnc = true
    · rw [if_pos hi] at hblock
      simp only [BufferedIo.wouldBlock, Bool.and_eq_true, Bool.or_eq_true] at hblock
      obtain ⟨hrb, hwb⟩ := hblock
      obtain ⟨hr₁, hgot⟩ := e6 hi rfl
      obtain ⟨x1, x2, x3⟩ := hr' (by rw [← ek1]; exact hrb)
      have hinc : l'.inc = [] := by rw [c3.inc]; exact x2
      have hwb' : w₁.content = [] ∨ w'.state.isWouldBlock = true :=
        hwb.imp (fun h => (WriteBuf.isEmpty_content b2.w).mp h) fun h => by rw [← bk1]; exact h
      have hem := b4.mp (hsame.trans hi)
      refine ⟨⟨?_, ?_, ?_, ?_⟩, fun _ => by simp only [c3.readWaker]; exact x3, ?_⟩
      · simp only [cnt₂, cnt]
        rcases hwb' with hs | hs
        · left
          rw [hs, List.length_nil] at f5
          omega
        · right
          have := (hw' hs).2.1
          omega
      · simp only [cnt₂, cnt, owed₂, List.length_map, Option.toList, List.append_nil, hk₂]
        exact fun _ => hem
      · simp [cnt₁, cnt, hr₁, hinc]
      · simp only [cnt₁, cnt, owed₁, hk₁, Option.toList, List.append_nil]
        intro _ hem₁ ha₁
        have hwc : t.s.clientW.content = [] := List.length_eq_zero_iff.mp (by omega)
        rw [hgot hem₁ hinc hwc]
      · simp only [cnt₂, cnt]
        intro hne
        rcases hwb' with hs | hs
        · rw [hs, List.length_nil] at f5
          omega
        · exact (hw' hs).2.2
    · rw [if_neg hi] at hblock
      obtain ⟨x1, x2, x3⟩ := hw' (by rw [← bk1]; exact hblock)
      have x1' := List.length_pos_iff.mpr x1
      have hbusy : ¬ em₂'.length = (bytesOfAll enc' (t.s.handled.map answer)).length :=
        fun he => hi (hsame.symm.trans (b4.mpr he))
      have howed : ¬ (cnt₂ answer { t.s with
          serverEnc := s₂, serverW := w₁, serverR := r₁, serverDec := dec', handled := t.s.handled ++ [],
          toServer := l'.inc, toClient := l'.out, sizes := l'.sizes } pos₂ em₂').em =
          owed₂ enc' answer reqs (cnt₂ answer { t.s with
          serverEnc := s₂, serverW := w₁, serverR := r₁, serverDec := dec', handled := t.s.handled ++ [],
          toServer := l'.inc, toClient := l'.out, sizes := l'.sizes } pos₂ em₂') := by
        simp only [cnt₂, cnt, owed₂, List.length_map, List.append_nil, hk₂]
        exact hbusy
      refine ⟨⟨?_, ?_, fun he => absurd he howed, fun he => absurd he howed⟩, fun he => absurd he howed, fun _ => x3⟩
      · right
        simp only [cnt₂, cnt]
        omega
      · simp only [cnt₂, cnt]
        intro he
        omega
  · refine hwk.congr ?_ ?_
    · simp only [cnt₂, cnt]
      omega
    · simp only [cnt₁, cnt]
      omega

end

end Bytecodec
