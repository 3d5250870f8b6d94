import Verif.Spec.Pipeline
/-!
# Specification: two asynchronous tasks joined by a channel

The programs a user writes with `poll_flush`, `poll_fill`, `encode_to_write_buf` and
`decode_from_read_buf`, run by an executor that polls a task only after its waker was woken.
-/
namespace Bytecodec.Spec

variable {σ τ α : Type}

/-- A channel between two tasks, like the two ends of `tokio::io::duplex`.
`readWaker`, `writeWaker`: the channel holds the waker of the receiver or the sender.
`recvRuns`, `sendRuns`: the receiver or the sender is running or was woken; otherwise it sleeps.
`sizes`: the i-th successful operation moves at most `sizes i + 1` bytes; as it is arbitrary, all schedules of
short reads and short writes are covered. -/
structure Channel where
  wire : Bytes
  closed : Bool
  readWaker : Bool
  writeWaker : Bool
  recvRuns : Bool
  sendRuns : Bool
  sizes : Nat → Nat

namespace Channel

/-- An empty channel; both tasks are to be polled. -/
def new (sizes : Nat → Nat) : Channel := ⟨[], false, false, false, true, true, sizes⟩

/-- `poll_read`: takes some of the bytes and wakes the sender if it waits. On an empty channel the
waker of the receiver is registered, unless the sender has closed the channel. -/
def reader : AsyncReader Channel where
  pollRead c n :=
    if c.wire = [] then
      if c.closed then (.ready (.data []), c) else (.pending, { c with readWaker := true })
    else
      let k := min n (c.sizes 0 + 1)
      (.ready (.data (c.wire.take k)), { c with
        wire := c.wire.drop k
        sizes := fun i => c.sizes (i + 1)
        sendRuns := c.sendRuns || c.writeWaker
        writeWaker := false })

/-- `poll_write`: accepts some of the bytes and wakes the receiver if it waits. When `cap` bytes are in
transit, the waker of the sender is registered. -/
def writer (cap : Nat) : AsyncWriter Channel where
  pollWrite c bs :=
    if cap ≤ c.wire.length then (.pending, { c with writeWaker := true })
    else
      let k := min (cap - c.wire.length) (min bs.length (c.sizes 0 + 1))
      (.ready (.wrote k), { c with
        wire := c.wire ++ bs.take k
        sizes := fun i => c.sizes (i + 1)
        recvRuns := c.recvRuns || c.readWaker
        readWaker := false })

/-- The sender drops its end; the receiver is woken if it waits. -/
def close (c : Channel) : Channel :=
  { c with closed := true, recvRuns := c.recvRuns || c.readWaker, readWaker := false }

end Channel

/-- The two tasks. The sender has the messages `todo` to send and then drops its end of the channel
(`finished`); the receiver wants `want` messages. `failed`: a call has failed in one of the tasks. -/
structure Tasks (τ σ α : Type) where
  enc : τ
  wbuf : WriteBuf
  todo : List α
  finished : Bool
  chan : Channel
  rbuf : ReadBuf
  dec : σ
  got : List α
  want : Nat
  failed : Bool

namespace Tasks

/-- New codecs, new buffers over the storages `wstore` and `rstore`, an empty channel. -/
def new (sE : τ) (sD : σ) (wstore rstore : Bytes) (sizes : Nat → Nat) (msgs : List α) : Tasks τ σ α :=
  ⟨sE, .new wstore, msgs, false, .new sizes, .new rstore, sD, [], msgs.length, false⟩

/-- `if encoder.is_idle() { if let Some(x) = todo.pop_front() { encoder.start_encoding(x)?; } }` -/
def next (E : Encoder τ α) (t : Tasks τ σ α) : Option (τ × List α) :=
  if E.isIdle t.enc then
    match t.todo with
    | [] => some (t.enc, [])
    | x :: rest =>
      match E.start t.enc x with
      | (.ok (), s) => some (s, rest)
      | _ => none
  else some (t.enc, t.todo)

/-- One round of the loop of the sender:
```
loop {
    if encoder.is_idle() && todo.is_empty() && wbuf.is_empty() { return Ready(Ok(())); }
    if encoder.is_idle() { if let Some(x) = todo.pop_front() { encoder.start_encoding(x)?; } }
    encoder.encode_to_write_buf(&mut wbuf)?;
    match wbuf.poll_flush(writer, cx) { Pending => return Pending, Ready(r) => r? }
}
``` -/
def sendRound (E : Encoder τ α) (cap : Nat) (t : Tasks τ σ α) : Tasks τ σ α :=
  if E.isIdle t.enc = true ∧ t.todo = [] ∧ t.wbuf.isEmpty = true then
    { t with finished := true, chan := t.chan.close }
  else
    match t.next E with
    | none => { t with failed := true }
    | some (s, todo) =>
      match encodeToWriteBuf E s t.wbuf with
      | (.ok (), s', b) =>
        match b.pollFlush (Channel.writer cap) t.chan with
        | (.pending, b', c) => { t with enc := s', todo := todo, wbuf := b', chan := { c with sendRuns := false } }
        | (.ready (.ok ()), b', c) => { t with enc := s', todo := todo, wbuf := b', chan := c }
        | _ => { t with failed := true }
      | _ => { t with failed := true }

/-- The second half of a round of the receiver; `p`: `poll_fill` was `Pending`. -/
def decodeRound (D : Decoder σ α) (t : Tasks τ σ α) (b : ReadBuf) (c : Channel) (p : Bool) : Tasks τ σ α :=
  match decodeFromReadBuf D t.dec b with
  | (.ok (), s', b') =>
    { t with
      dec := s'
      rbuf := b'
      chan := if p = true ∧ D.isIdle s' = false then { c with recvRuns := false } else c }
  | _ => { t with failed := true }

/-- One round of the loop of the receiver:
```
while got.len() < want {
    if decoder.is_idle() { got.push(decoder.finish_decoding()?); continue; }
    let p = rbuf.poll_fill(reader, cx);
    if let Ready(r) = p { r?; }
    decoder.decode_from_read_buf(&mut rbuf)?;
    if p.is_pending() && !decoder.is_idle() { return Pending; }
}
``` -/
def recvRound (D : Decoder σ α) (t : Tasks τ σ α) : Tasks τ σ α :=
  if D.isIdle t.dec then
    match D.finish t.dec with
    | (.ok x, s) => { t with dec := s, got := t.got ++ [x] }
    | _ => { t with failed := true }
  else
    match t.rbuf.pollFill Channel.reader t.chan with
    | (.pending, b, c) => t.decodeRound D b c true
    | (.ready (.ok ()), b, c) => t.decodeRound D b c false
    | _ => { t with failed := true }

/-- The sender can run: it is awake and has not finished. -/
def senderReady (t : Tasks τ σ α) : Prop := t.chan.sendRuns = true ∧ t.finished = false ∧ t.failed = false

/-- The receiver can run: it is awake and wants more messages. -/
def receiverReady (t : Tasks τ σ α) : Prop :=
  t.chan.recvRuns = true ∧ t.got.length < t.want ∧ t.failed = false

end Tasks

/-- `Rounds … k w t`: after `k` rounds of the two tasks, in any order the executor may choose, and `w`
spurious wake-ups, starting from `t₀`. The two tasks run on one thread: a round is not interrupted. -/
inductive Rounds (E : Encoder τ α) (D : Decoder σ α) (cap : Nat) (t₀ : Tasks τ σ α) :
    Nat → Nat → Tasks τ σ α → Prop
  | new : Rounds E D cap t₀ 0 0 t₀
  | send {k w : Nat} {t : Tasks τ σ α} : Rounds E D cap t₀ k w t → t.senderReady →
      Rounds E D cap t₀ (k + 1) w (t.sendRound E cap)
  | recv {k w : Nat} {t : Tasks τ σ α} : Rounds E D cap t₀ k w t → t.receiverReady →
      Rounds E D cap t₀ (k + 1) w (t.recvRound D)
  | wakeSender {k w : Nat} {t : Tasks τ σ α} : Rounds E D cap t₀ k w t →
      Rounds E D cap t₀ k (w + 1) { t with chan := { t.chan with sendRuns := true } }
  | wakeReceiver {k w : Nat} {t : Tasks τ σ α} : Rounds E D cap t₀ k w t →
      Rounds E D cap t₀ k (w + 1) { t with chan := { t.chan with recvRuns := true } }

/-- A stream polled with different wakers: `T k` is the stream as seen in a poll with the waker `k`.
`readArmed s k`, `writeArmed s k`: the stream is going to wake `k` when it can be read or written again.
That is what a poll that answers `Pending` has to take care of; writing does not forget who waits for
reading. -/
structure KeepsWakers (T : Nat → AsyncStream τ) (readArmed writeArmed : τ → Nat → Prop) : Prop where
  read : ∀ {k s n s'}, (T k).reader.pollRead s n = (.pending, s') → readArmed s' k
  write : ∀ {k s b s'}, (T k).writer.pollWrite s b = (.pending, s') → writeArmed s' k
  keep : ∀ {j k s b}, readArmed s k → readArmed ((T j).writer.pollWrite s b).2 k

end Bytecodec.Spec
