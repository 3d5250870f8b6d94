import Verif.Spec.Session
/-!
# Specification: a client and a server as asynchronous tasks

The programs of `Spec/Session.lean` as tasks: each polls its end of the connection with `execute_io_poll`, and an
executor polls a task only after its waker was woken.
-/
namespace Bytecodec.Spec

variable {τ σ τ' σ' α β : Type}

/-- What one end of the connection sees: the bytes on the way to it and to the other end, whether the connection holds
its wakers and those of the other end, and whether the other task is running or was woken. `sizes` as in `Line`. -/
structure Endpoint where
  inc : Bytes
  out : Bytes
  sizes : Nat → Nat
  readWaker : Bool
  writeWaker : Bool
  peerReadWaker : Bool
  peerWriteWaker : Bool
  peerRuns : Bool

/-- An end of something like `tokio::io::duplex(cap)`. Reading takes some of the bytes that have arrived and wakes the
other side if it waits for room; if there are none, the waker is registered. Writing accepts some of the bytes and wakes
the other side if it waits for bytes; when `cap` bytes are on the way, the waker is registered. -/
def Endpoint.stream (cap : Nat) : AsyncStream Endpoint where
  reader := ⟨fun l n =>
    if l.inc = [] then (.pending, { l with readWaker := true })
    else
      let k := min n (l.sizes 0 + 1)
      (.ready (.data (l.inc.take k)), { l with
        inc := l.inc.drop k
        sizes := fun i => l.sizes (i + 1)
        peerRuns := l.peerRuns || l.peerWriteWaker
        peerWriteWaker := false })⟩
  writer := ⟨fun l bs =>
    if cap ≤ l.out.length then (.pending, { l with writeWaker := true })
    else
      let k := min (cap - l.out.length) (min bs.length (l.sizes 0 + 1))
      (.ready (.wrote k), { l with
        out := l.out ++ bs.take k
        sizes := fun i => l.sizes (i + 1)
        peerRuns := l.peerRuns || l.peerReadWaker
        peerReadWaker := false })⟩

/-- `if let Ready(r) = io.execute_io_poll(cx) { r?; }` -/
def pollExchange (cap : Nat) (l : Endpoint) (r : ReadBuf) (w : WriteBuf) : Option (Endpoint × ReadBuf × WriteBuf) :=
  match (⟨l, r, w⟩ : BufferedIo Endpoint).executeIoPoll (Endpoint.stream cap) with
  | (.pending, io) => some (io.stream, io.rbuf, io.wbuf)
  | (.ready (.ok ()), io) => some (io.stream, io.rbuf, io.wbuf)
  | _ => none

/-- The session; which wakers the connection holds; which tasks are running or were woken. -/
structure Duplex (τ σ τ' σ' α β : Type) where
  s : Session τ σ τ' σ' α β
  clientReadWaker : Bool
  clientWriteWaker : Bool
  serverReadWaker : Bool
  serverWriteWaker : Bool
  clientRuns : Bool
  serverRuns : Bool

/-- A new session; both tasks are to be polled. -/
def Duplex.new (sE : τ) (sD : σ) (sE' : τ') (sD' : σ') (store₁ store₂ store₃ store₄ : Bytes) (sizes : Nat → Nat)
    (reqs : List α) : Duplex τ σ τ' σ' α β :=
  ⟨.new sE sD sE' sD' store₁ store₂ store₃ store₄ sizes reqs, false, false, false, false, true, true⟩

/-- One round of the client:
```
while got.len() < want {
    if encoder.is_idle() { if let Some(x) = todo.pop_front() { encoder.start_encoding(x)?; } }
    encoder.encode_to_write_buf(io.write_buf_mut())?;
    if let Ready(r) = io.execute_io_poll(cx) { r?; }
    if !decoder.is_idle() { decoder.decode_from_read_buf(io.read_buf_mut())?; }
    let y = if decoder.is_idle() { Some(decoder.finish_decoding()?) } else { None };
    let sent = if encoder.is_idle() { todo.is_empty() } else { io.write_buf_ref().is_full() };
    if io.would_block() && y.is_none() && sent { return Pending; }
    got.extend(y);
}
``` -/
def clientRound (E : Encoder τ α) (D' : Decoder σ' β) (cap : Nat) (t : Duplex τ σ τ' σ' α β) :
    Option (Duplex τ σ τ' σ' α β) :=
  (submit E t.s.clientEnc t.s.todo).bind fun (enc, todo) =>
  (encodeOut E enc t.s.clientW).bind fun (enc, w) =>
  (pollExchange cap ⟨t.s.toClient, t.s.toServer, t.s.sizes, t.clientReadWaker, t.clientWriteWaker, t.serverReadWaker,
    t.serverWriteWaker, t.serverRuns⟩ t.s.clientR w).bind fun (l, r, w) =>
  (decodeIn D' t.s.clientDec r).bind fun (dec, r) =>
  (takeItem D' dec).bind fun (dec, y) =>
  let sent := if E.isIdle enc then todo.isEmpty else w.isFull
  some {
    s := { t.s with
      clientEnc := enc, clientW := w, clientR := r, clientDec := dec, todo := todo, got := t.s.got ++ y.toList,
      toServer := l.out, toClient := l.inc, sizes := l.sizes }
    clientReadWaker := l.readWaker
    clientWriteWaker := l.writeWaker
    serverReadWaker := l.peerReadWaker
    serverWriteWaker := l.peerWriteWaker
    clientRuns := !((⟨l, r, w⟩ : BufferedIo Endpoint).wouldBlock && y.isNone && sent)
    serverRuns := l.peerRuns }

/-- One round of the server:
```
loop {
    if let Ready(r) = io.execute_io_poll(cx) { r?; }
    let idle = encoder.is_idle();
    let mut x = None;
    if idle {
        if !decoder.is_idle() { decoder.decode_from_read_buf(io.read_buf_mut())?; }
        if decoder.is_idle() { x = Some(decoder.finish_decoding()?); encoder.start_encoding(answer(x))?; }
    }
    encoder.encode_to_write_buf(io.write_buf_mut())?;
    let blocked = if idle { io.would_block() } else { io.write_buf_ref().stream_state().would_block() };
    if blocked && x.is_none() && encoder.is_idle() == idle { return Pending; }
}
```
(When the encoder is busy, `io.would_block()` is not the right question: it is `false` when the read buffer is full,
`C89_back_pressure`.) -/
def serverRound (D : Decoder σ α) (E' : Encoder τ' β) (answer : α → β) (cap : Nat) (t : Duplex τ σ τ' σ' α β) :
    Option (Duplex τ σ τ' σ' α β) :=
  (pollExchange cap ⟨t.s.toServer, t.s.toClient, t.s.sizes, t.serverReadWaker, t.serverWriteWaker, t.clientReadWaker,
    t.clientWriteWaker, t.clientRuns⟩ t.s.serverR t.s.serverW).bind fun (l, r, w) =>
  let idle := E'.isIdle t.s.serverEnc
  (serve D E' answer t.s.serverEnc t.s.serverDec r).bind fun (enc, dec, r, x) =>
  (encodeOut E' enc w).bind fun (enc, w) =>
  let blocked := if idle then (⟨l, r, w⟩ : BufferedIo Endpoint).wouldBlock else w.state.isWouldBlock
  some {
    s := { t.s with
      serverEnc := enc, serverW := w, serverR := r, serverDec := dec, handled := t.s.handled ++ x.toList,
      toServer := l.inc, toClient := l.out, sizes := l.sizes }
    clientReadWaker := l.peerReadWaker
    clientWriteWaker := l.peerWriteWaker
    serverReadWaker := l.readWaker
    serverWriteWaker := l.writeWaker
    clientRuns := l.peerRuns
    serverRuns := !(blocked && x.isNone && E'.isIdle enc == idle) }

/-- A task in which a call has failed ends the session. -/
def Duplex.fail (t : Duplex τ σ τ' σ' α β) : Duplex τ σ τ' σ' α β := { t with s := { t.s with failed := true } }

/-- The client can run: it is awake and wants more answers. -/
def Duplex.clientReady (t : Duplex τ σ τ' σ' α β) : Prop :=
  t.clientRuns = true ∧ t.s.got.length < t.s.want ∧ t.s.failed = false

/-- The server can run: it is awake. -/
def Duplex.serverReady (t : Duplex τ σ τ' σ' α β) : Prop := t.serverRuns = true ∧ t.s.failed = false

/-- `Polls … k w t`: after `k` rounds of the two tasks, in any order the executor may choose, and `w` spurious
wake-ups, starting from `t₀`. The two tasks run on one thread: a round is not interrupted. -/
inductive Polls (E : Encoder τ α) (D : Decoder σ α) (E' : Encoder τ' β) (D' : Decoder σ' β) (answer : α → β)
    (cap : Nat) (t₀ : Duplex τ σ τ' σ' α β) : Nat → Nat → Duplex τ σ τ' σ' α β → Prop
  | new : Polls E D E' D' answer cap t₀ 0 0 t₀
  | client {k w : Nat} {t : Duplex τ σ τ' σ' α β} : Polls E D E' D' answer cap t₀ k w t → t.clientReady →
      Polls E D E' D' answer cap t₀ (k + 1) w ((clientRound E D' cap t).getD t.fail)
  | server {k w : Nat} {t : Duplex τ σ τ' σ' α β} : Polls E D E' D' answer cap t₀ k w t → t.serverReady →
      Polls E D E' D' answer cap t₀ (k + 1) w ((serverRound D E' answer cap t).getD t.fail)
  | wakeClient {k w : Nat} {t : Duplex τ σ τ' σ' α β} : Polls E D E' D' answer cap t₀ k w t →
      Polls E D E' D' answer cap t₀ k (w + 1) { t with clientRuns := true }
  | wakeServer {k w : Nat} {t : Duplex τ σ τ' σ' α β} : Polls E D E' D' answer cap t₀ k w t →
      Polls E D E' D' answer cap t₀ k (w + 1) { t with serverRuns := true }

end Bytecodec.Spec
