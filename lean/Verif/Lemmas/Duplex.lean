import Verif.Lemmas.SessionRun
import Verif.Spec.Duplex
/-!
# Lemmas: a client and a server as asynchronous tasks
-/
namespace Bytecodec
open Spec

variable {τ σ τ' σ' α β : Type}

/-! ## `execute_io_poll` over the connection -/

/-- The bytes an end sees. -/
def Endpoint.line (l : Endpoint) : Line := ⟨l.inc, l.out, l.sizes⟩

/-- What `poll_fill` does at one end: it moves `k` bytes. -/
structure EndFilled (b : ReadBuf) (l : Endpoint) (b' : ReadBuf) (l' : Endpoint) (k : Nat) : Prop where
  le : k ≤ l.inc.length
  inv : b'.Inv
  storage : b'.inner.length = b.inner.length
  content : b'.content = b.content ++ l.inc.take k
  inc : l'.inc = l.inc.drop k
  out : l'.out = l.out
  eos : b.state.isEos = false → b'.state.isEos = false
  writeWaker : l'.writeWaker = l.writeWaker
  peerRead : l'.peerReadWaker = l.peerReadWaker
  same : k = 0 → l'.peerRuns = l.peerRuns ∧ l'.peerWriteWaker = l.peerWriteWaker
  woken : 0 < k → l'.peerRuns = (l.peerRuns || l.peerWriteWaker) ∧ l'.peerWriteWaker = false
  fresh : (b.state.isWouldBlock = true → ¬ b.isFull = true) → b'.state.isWouldBlock = true →
    ¬ b'.isFull = true ∧ l'.inc = [] ∧ l'.readWaker = true
  stop : b'.isFull = true ∨ b'.state.isWouldBlock = true ∧ l'.inc = [] ∧ l'.readWaker = true

theorem EndFilled.line {b : ReadBuf} {l : Endpoint} {b' : ReadBuf} {l' : Endpoint} {k : Nat}
    (h : EndFilled b l b' l' k) : LineFilled b (Endpoint.line l) b' (Endpoint.line l') k :=
  ⟨h.le, h.inv, h.storage, h.content, h.inc, h.out, h.eos, h.stop.imp id fun h => h.2.1⟩

theorem end_pollFill (cap : Nat) (b : ReadBuf) (l : Endpoint) (h : b.Inv) :
    ((b.pollFill (Endpoint.stream cap).reader l).1 = .pending ∨
      (b.pollFill (Endpoint.stream cap).reader l).1 = .ready (.ok ())) ∧
    ∃ k, EndFilled b l (b.pollFill (Endpoint.stream cap).reader l).2.1
      (b.pollFill (Endpoint.stream cap).reader l).2.2 k := by
  induction b, l using ReadBuf.pollFill.induct (Endpoint.stream cap).reader with
  | case1 b l h1 =>
    rw [ReadBuf.pollFill, dif_pos h1]
    exact ⟨.inr rfl, 0, Nat.zero_le _, h, rfl, by simp, rfl, rfl, id, rfl, rfl, fun _ => ⟨rfl, rfl⟩,
      fun hk => absurd hk (by omega), fun hf hs => absurd h1 (hf hs), .inl h1⟩
  | case2 b l h1 h2 => exact absurd h2 (by have := h.cap; omega)
  | case3 b l h1 h2 l' hr =>
    rw [ReadBuf.pollFill, dif_neg h1, dif_neg h2, hr]
    simp only [Endpoint.stream] at hr
    split at hr
    · next hw =>
      cases hr
      exact ⟨.inl rfl, 0, Nat.zero_le _, ⟨h.le, h.cap, h.zero⟩, rfl, by simp [ReadBuf.content], rfl, rfl, fun _ => rfl,
        rfl, rfl, fun _ => ⟨rfl, rfl⟩, fun hk => absurd hk (by omega), fun _ _ => ⟨h1, hw, rfl⟩, .inr ⟨rfl, hw, rfl⟩⟩
    · cases hr
  | case4 b l h1 h2 l' hr =>
    exfalso
    simp only [Endpoint.stream] at hr
    split at hr
    · cases hr
    · next hw =>
      simp only [Prod.mk.injEq, Poll.ready.injEq, ReadRes.data.injEq] at hr
      have hl := congrArg List.length hr.1
      have := List.length_pos_iff.mpr hw
      have h3 : ¬ b.tail = b.inner.length := by simpa [ReadBuf.isFull] using h1
      simp only [List.length_take, List.length_nil] at hl
      omega
  | case5 b l h1 h2 x xs l' hr ih =>
    rw [ReadBuf.pollFill, dif_neg h1, dif_neg h2, hr]
    simp only
    simp only [Endpoint.stream] at hr
    split at hr
    · cases hr
    · next hw =>
      simp only [Prod.mk.injEq, Poll.ready.injEq, ReadRes.data.injEq] at hr
      obtain ⟨hx, rfl⟩ := hr
      have hlen := congrArg List.length hx
      have hcap := h.cap
      simp only [List.length_take] at hlen
      have hxl : (x :: xs).length ≤ b.inner.length - b.tail := by omega
      have htake : (x :: xs).take (b.inner.length - b.tail) = x :: xs := List.take_of_length_le hxl
      rw [htake] at ih ⊢
      have hsl := splice_len (inner := b.inner) (src := x :: xs) (tail := b.tail) (by omega)
      have hle := h.le
      have hInv : (⟨splice b.inner b.tail (x :: xs), b.head, b.tail + (x :: xs).length, .normal⟩ : ReadBuf).Inv := by
        refine ⟨?_, ?_, ?_⟩
        · simp only; omega
        · simp only [hsl]; omega
        · simp only [List.length_cons]; omega
      have hcont : (⟨splice b.inner b.tail (x :: xs), b.head, b.tail + (x :: xs).length, .normal⟩ : ReadBuf).content =
          b.content ++ (x :: xs) := by
        simp only [ReadBuf.content]
        exact splice_take_drop h.le (by omega)
      obtain ⟨hok, k, f⟩ := ih hInv
      refine ⟨hok, ?_⟩
      have hfl := f.le
      simp only [List.length_drop] at hfl
      have e1 : x :: xs = l.inc.take (x :: xs).length := by
        rw [← hlen, ← List.take_eq_take_min]
        exact hx.symm
      have e2 : l.inc.drop (min (b.inner.length - b.tail) (l.sizes 0 + 1)) = l.inc.drop (x :: xs).length := by
        rw [← hlen]
        generalize min (b.inner.length - b.tail) (l.sizes 0 + 1) = m
        by_cases hq : m ≤ l.inc.length
        · rw [Nat.min_eq_left hq]
        · rw [Nat.min_eq_right (by omega), List.drop_length]
          exact List.drop_eq_nil_of_le (by omega)
      refine ⟨(x :: xs).length + k, by omega, f.inv, by rw [f.storage]; exact hsl, ?_, ?_, f.out,
        fun _ => f.eos rfl, f.writeWaker, f.peerRead, fun hk => by simp only [List.length_cons] at hk; omega,
        fun _ => ?_, fun _ => f.fresh (fun hs => (by cases hs)), f.stop⟩
      · rw [f.content, hcont, List.append_assoc, List.take_add, ← e1]
        simp only [e2]
      · rw [f.inc]
        simp only [e2, List.drop_drop]
      · by_cases hk : k = 0
        · obtain ⟨e1, e2⟩ := f.same hk
          exact ⟨e1, e2⟩
        · obtain ⟨e1, e2⟩ := f.woken (by omega)
          exact ⟨by rw [e1]; simp, e2⟩
  | case6 b l h1 h2 k l' hr =>
    exfalso
    simp only [Endpoint.stream] at hr
    split at hr <;> cases hr

/-- What `poll_flush` does at one end: it moves `k` bytes. -/
structure EndFlushed (cap : Nat) (b : WriteBuf) (l : Endpoint) (b' : WriteBuf) (l' : Endpoint) (k : Nat) : Prop where
  le : k ≤ b.content.length
  inv : b'.Inv
  storage : b'.inner.length = b.inner.length
  content : b'.content = b.content.drop k
  out : l'.out = l.out ++ b.content.take k
  inc : l'.inc = l.inc
  eos : b.state.isEos = false → b'.state.isEos = false
  readWaker : l'.readWaker = l.readWaker
  peerWrite : l'.peerWriteWaker = l.peerWriteWaker
  same : k = 0 → l'.peerRuns = l.peerRuns ∧ l'.peerReadWaker = l.peerReadWaker ∧ b'.tail = b.tail
  woken : 0 < k → l'.peerRuns = (l.peerRuns || l.peerReadWaker) ∧ l'.peerReadWaker = false
  fresh : (b.state.isWouldBlock = true → b.content ≠ []) → b'.state.isWouldBlock = true →
    b'.content ≠ [] ∧ cap ≤ l'.out.length ∧ l'.writeWaker = true
  stop : b'.content = [] ∨ b'.state.isWouldBlock = true ∧ cap ≤ l'.out.length ∧ l'.writeWaker = true

theorem EndFlushed.line {cap : Nat} {b : WriteBuf} {l : Endpoint} {b' : WriteBuf} {l' : Endpoint} {k : Nat}
    (h : EndFlushed cap b l b' l' k) : LineFlushed cap b (Endpoint.line l) b' (Endpoint.line l') k :=
  ⟨h.le, h.inv, h.storage, h.content, h.out, h.inc, h.eos, h.stop.imp id fun h => h.2.1⟩

theorem end_pollFlush (cap : Nat) (b : WriteBuf) (l : Endpoint) (h : b.Inv) :
    ((b.pollFlush (Endpoint.stream cap).writer l).1 = .pending ∨
      (b.pollFlush (Endpoint.stream cap).writer l).1 = .ready (.ok ())) ∧
    ∃ k, EndFlushed cap b l (b.pollFlush (Endpoint.stream cap).writer l).2.1
      (b.pollFlush (Endpoint.stream cap).writer l).2.2 k := by
  induction b, l using WriteBuf.pollFlush.induct (Endpoint.stream cap).writer with
  | case1 b l h1 =>
    rw [WriteBuf.pollFlush, dif_pos h1]
    have hc := (WriteBuf.content_nil h).mpr h1
    exact ⟨.inr rfl, 0, Nat.zero_le _, h, rfl, rfl, by simp, rfl, id, rfl, rfl, fun _ => ⟨rfl, rfl, rfl⟩,
      fun hk => absurd hk (by omega), fun hf hs => absurd hc (hf hs), .inl hc⟩
  | case2 b l h1 h2 => exact absurd h2 (by have := h.le; have := h.cap; omega)
  | case3 b l h1 h2 k l' hw =>
    exfalso
    simp only [Endpoint.stream] at hw
    split at hw <;> cases hw
  | case4 b l h1 h2 l' hw =>
    exfalso
    simp only [Endpoint.stream] at hw
    split at hw
    · cases hw
    · have hne : b.content ≠ [] := fun hn => h1 ((WriteBuf.content_nil h).mp hn)
      have hlen : 0 < b.content.length := List.length_pos_iff.mpr hne
      simp only [WriteBuf.content] at hlen
      simp only [Prod.mk.injEq, Poll.ready.injEq, WriteRes.wrote.injEq] at hw
      omega
  | case5 b l h1 h2 n l' hw ih =>
    rw [WriteBuf.pollFlush, dif_neg h1, dif_neg h2, hw]
    simp only [Endpoint.stream] at hw
    split at hw
    · cases hw
    · next hroom =>
      simp only [Prod.mk.injEq, Poll.ready.injEq, WriteRes.wrote.injEq] at hw
      obtain ⟨hn, rfl⟩ := hw
      have hcl := b.content_length h
      have hle : n + 1 ≤ b.content.length := by simp only [WriteBuf.content]; omega
      have hInv0 : ({ b with state := .normal } : WriteBuf).Inv := ⟨h.le, h.cap, h.zero⟩
      obtain ⟨g1, g2, g3, _, _, g6⟩ := WriteBuf.consume_spec hInv0 (n := n + 1) (by
        have : ({ b with state := .normal } : WriteBuf).len = b.len := rfl
        omega)
      obtain ⟨hok, k, f⟩ := ih g1
      refine ⟨hok, ?_⟩
      have hcont : ({ b with state := .normal } : WriteBuf).content = b.content := rfl
      rw [hcont] at g2
      have hfl := f.le
      rw [g2, List.length_drop] at hfl
      refine ⟨n + 1 + k, by omega, f.inv, by rw [f.storage, g3], ?_, ?_, f.inc, fun _ => f.eos (by rw [g6]; rfl),
        f.readWaker, f.peerWrite, fun hk => by omega, fun _ => ?_, fun _ => f.fresh (fun hs => ?_), f.stop⟩
      · rw [f.content, g2, List.drop_drop]
      · rw [f.out, g2, hn, List.append_assoc]
        congr 1
        rw [List.take_add]
        rfl
      · by_cases hk : k = 0
        · obtain ⟨e1, e2, _⟩ := f.same hk
          exact ⟨e1, e2⟩
        · obtain ⟨e1, e2⟩ := f.woken (by omega)
          exact ⟨by rw [e1]; simp, e2⟩
      · rw [g6] at hs
        cases hs
  | case6 b l h1 h2 l' hw =>
    rw [WriteBuf.pollFlush, dif_neg h1, dif_neg h2, hw]
    simp only [Endpoint.stream] at hw
    split at hw
    · next hfull =>
      cases hw
      exact ⟨.inl rfl, 0, Nat.zero_le _, ⟨h.le, h.cap, h.zero⟩, rfl, rfl, by simp, rfl, fun _ => rfl, rfl, rfl,
        fun _ => ⟨rfl, rfl, rfl⟩, fun hk => absurd hk (by omega),
        fun _ _ => ⟨fun hn => h1 ((WriteBuf.content_nil h).mp hn), hfull, rfl⟩, .inr ⟨rfl, hfull, rfl⟩⟩
    · cases hw

theorem pollExchange_eq (cap : Nat) (l : Endpoint) (r : ReadBuf) (w : WriteBuf) (hr : r.Inv) (hw : w.Inv) :
    ∃ l' r' w' k j l₁, pollExchange cap l r w = some (l', r', w') ∧ EndFilled r l r' l₁ k ∧
      EndFlushed cap w l₁ w' l' j := by
  obtain ⟨h1, k, f⟩ := end_pollFill cap r l hr
  rcases hf : r.pollFill (Endpoint.stream cap).reader l with ⟨x, r', l₁⟩
  rw [hf] at h1 f
  simp only at h1 f
  obtain ⟨h2, j, g⟩ := end_pollFlush cap w l₁ hw
  rcases hg : w.pollFlush (Endpoint.stream cap).writer l₁ with ⟨y, w', l'⟩
  rw [hg] at h2 g
  simp only at h2 g
  refine ⟨l', r', w', k, j, l₁, ?_, f, g⟩
  rcases h1 with rfl | rfl <;> rcases h2 with rfl | rfl <;>
    simp [pollExchange, BufferedIo.executeIoPoll, hf, hg]

/-! ## States of the buffers -/

theorem decodeIn_keeps {D : Decoder σ α} {s s' : σ} {r r' : ReadBuf} (h : r.Inv)
    (hd : decodeIn D s r = some (s', r')) :
    r'.state = r.state ∧ (¬ r.isFull = true → ¬ r'.isFull = true) := by
  have hcap := h.cap
  unfold decodeIn at hd
  split at hd
  · cases hd; exact ⟨rfl, id⟩
  · simp only [decodeFromReadBuf] at hd
    split at hd
    · next s₁ r₁ hq =>
      cases hd
      split at hq
      · cases hq
      · rcases hq' : D.decode s ((r.inner.take r.tail).drop r.head) (Eos.new r.state.isEos) with ⟨x, s₂⟩
        rw [hq'] at hq
        cases x with
        | ok n =>
          simp only [Res.step] at hq
          cases hq
          simp only [ReadBuf.consume, ReadBuf.isFull, beq_iff_eq]
          split <;> exact ⟨rfl, by simp only; omega⟩
        | _ => simp only [Res.step] at hq; cases hq
    · cases hd

theorem encodeOut_keeps {E : Encoder τ α} {s s' : τ} {w w' : WriteBuf} (he : encodeOut E s w = some (s', w')) :
    w'.state = w.state ∧ w'.head = w.head ∧ w.tail ≤ w'.tail := by
  unfold encodeOut at he
  simp only [encodeToWriteBuf] at he
  split at he
  · next s₁ w₁ hq =>
    cases he
    split at hq
    · cases hq
    · rcases hq' : E.encode s (w.inner.length - w.tail) (Eos.new w.state.isEos) with ⟨x, s₂⟩
      rw [hq'] at hq
      cases x with
      | ok bs =>
        simp only [Res.step] at hq
        cases hq
        exact ⟨rfl, rfl, by simp only; omega⟩
      | _ => simp only [Res.step] at hq; cases hq
  · cases he

end Bytecodec
