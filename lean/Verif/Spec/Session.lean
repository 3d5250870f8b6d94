import Verif.Spec.Pipeline
/-!
# Specification: a client and a server over one connection

Two event loops, each with a `BufferedIo` over its end of a non-blocking connection. The client sends requests
without waiting for the answers; the server answers them one after the other.
-/
namespace Bytecodec.Spec

variable {τ σ τ' σ' α β : Type}

/-- What one end of the connection sees: the bytes on the way to it and the bytes on the way to the other end.
`sizes`: the i-th successful operation moves at most `sizes i + 1` bytes; as it is arbitrary, all schedules of short
reads and short writes are covered. -/
structure Line where
  inc : Bytes
  out : Bytes
  sizes : Nat → Nat

/-- A non-blocking socket. Reading takes some of the bytes that have arrived, and would block if there are none;
writing would block while `cap` bytes are on the way. -/
def Line.stream (cap : Nat) : Stream Line where
  reader := ⟨fun l n =>
    if l.inc = [] then (.error .wouldBlock, l)
    else
      let k := min n (l.sizes 0 + 1)
      (.data (l.inc.take k), { l with inc := l.inc.drop k, sizes := fun i => l.sizes (i + 1) })⟩
  writer := ⟨fun l bs =>
    if cap ≤ l.out.length then (.error .wouldBlock, l)
    else
      let k := min (cap - l.out.length) (min bs.length (l.sizes 0 + 1))
      (.wrote k, { l with out := l.out ++ bs.take k, sizes := fun i => l.sizes (i + 1) })⟩

/-! ## Single statements of the two programs; `none`: the call failed -/

/-- `if encoder.is_idle() { if let Some(x) = todo.pop_front() { encoder.start_encoding(x)?; } }` -/
def submit (E : Encoder τ α) (s : τ) (todo : List α) : Option (τ × List α) :=
  if E.isIdle s then
    match todo with
    | [] => some (s, [])
    | x :: rest =>
      match E.start s x with
      | (.ok (), s') => some (s', rest)
      | _ => none
  else some (s, todo)

/-- `encoder.encode_to_write_buf(io.write_buf_mut())?;` -/
def encodeOut (E : Encoder τ α) (s : τ) (w : WriteBuf) : Option (τ × WriteBuf) :=
  match encodeToWriteBuf E s w with
  | (.ok (), s', w') => some (s', w')
  | _ => none

/-- `io.execute_io()?;` -/
def exchange (cap : Nat) (l : Line) (r : ReadBuf) (w : WriteBuf) : Option (Line × ReadBuf × WriteBuf) :=
  match (⟨l, r, w⟩ : BufferedIo Line).executeIo (Line.stream cap) with
  | (.ok (), io) => some (io.stream, io.rbuf, io.wbuf)
  | _ => none

/-- `if !decoder.is_idle() { decoder.decode_from_read_buf(io.read_buf_mut())?; }` -/
def decodeIn (D : Decoder σ α) (s : σ) (r : ReadBuf) : Option (σ × ReadBuf) :=
  if D.isIdle s then some (s, r)
  else
    match decodeFromReadBuf D s r with
    | (.ok (), s', r') => some (s', r')
    | _ => none

/-- `if decoder.is_idle() { Some(decoder.finish_decoding()?) } else { None }` -/
def takeItem (D : Decoder σ α) (s : σ) : Option (σ × Option α) :=
  if D.isIdle s then
    match D.finish s with
    | (.ok x, s') => some (s', some x)
    | _ => none
  else some (s, none)

/-! ## The programs -/

/-- The client wants to have the requests `todo` answered, `want` in all; `got` are the answers so far.
`handled` are the requests the server has taken. `failed`: a call has failed in one of the programs. -/
structure Session (τ σ τ' σ' α β : Type) where
  clientEnc : τ
  clientW : WriteBuf
  clientR : ReadBuf
  clientDec : σ'
  todo : List α
  got : List β
  want : Nat
  toServer : Bytes
  toClient : Bytes
  sizes : Nat → Nat
  serverR : ReadBuf
  serverDec : σ
  handled : List α
  serverEnc : τ'
  serverW : WriteBuf
  failed : Bool

/-- New codecs, new buffers over any storages, a new connection. -/
def Session.new (sE : τ) (sD : σ) (sE' : τ') (sD' : σ') (store₁ store₂ store₃ store₄ : Bytes) (sizes : Nat → Nat)
    (reqs : List α) : Session τ σ τ' σ' α β :=
  ⟨sE, .new store₁, .new store₂, sD', reqs, [], reqs.length, [], [], sizes, .new store₃, sD, [], sE', .new store₄, false⟩

/-- One round of the client:
```
while got.len() < want {
    if encoder.is_idle() { if let Some(x) = todo.pop_front() { encoder.start_encoding(x)?; } }
    encoder.encode_to_write_buf(io.write_buf_mut())?;
    io.execute_io()?;
    if !decoder.is_idle() { decoder.decode_from_read_buf(io.read_buf_mut())?; }
    if decoder.is_idle() { got.push(decoder.finish_decoding()?); }
}
``` -/
def clientTurn (E : Encoder τ α) (D' : Decoder σ' β) (cap : Nat) (t : Session τ σ τ' σ' α β) :
    Option (Session τ σ τ' σ' α β) :=
  (submit E t.clientEnc t.todo).bind fun (enc, todo) =>
  (encodeOut E enc t.clientW).bind fun (enc, w) =>
  (exchange cap ⟨t.toClient, t.toServer, t.sizes⟩ t.clientR w).bind fun (l, r, w) =>
  (decodeIn D' t.clientDec r).bind fun (dec, r) =>
  (takeItem D' dec).bind fun (dec, y) =>
  some { t with
    clientEnc := enc, clientW := w, clientR := r, clientDec := dec, todo := todo, got := t.got ++ y.toList,
    toServer := l.out, toClient := l.inc, sizes := l.sizes }

/-- `if let Some(x) = item { encoder.start_encoding(answer(x))?; }` -/
def reply (E' : Encoder τ' β) (answer : α → β) (s : τ') : Option α → Option τ'
  | none => some s
  | some x =>
    match E'.start s (answer x) with
    | (.ok (), s') => some s'
    | _ => none

/-- ```
if encoder.is_idle() {
    if !decoder.is_idle() { decoder.decode_from_read_buf(io.read_buf_mut())?; }
    if decoder.is_idle() { encoder.start_encoding(answer(decoder.finish_decoding()?))?; }
}
``` -/
def serve (D : Decoder σ α) (E' : Encoder τ' β) (answer : α → β) (enc : τ') (dec : σ) (r : ReadBuf) :
    Option (τ' × σ × ReadBuf × Option α) :=
  if E'.isIdle enc then
    (decodeIn D dec r).bind fun (dec, r) =>
    (takeItem D dec).bind fun (dec, x) =>
    (reply E' answer enc x).bind fun enc =>
    some (enc, dec, r, x)
  else some (enc, dec, r, none)

/-- One round of the server, which answers the request `x` with `answer x`:
```
loop {
    io.execute_io()?;
    if encoder.is_idle() {
        if !decoder.is_idle() { decoder.decode_from_read_buf(io.read_buf_mut())?; }
        if decoder.is_idle() { encoder.start_encoding(answer(decoder.finish_decoding()?))?; }
    }
    encoder.encode_to_write_buf(io.write_buf_mut())?;
}
``` -/
def serverTurn (D : Decoder σ α) (E' : Encoder τ' β) (answer : α → β) (cap : Nat) (t : Session τ σ τ' σ' α β) :
    Option (Session τ σ τ' σ' α β) :=
  (exchange cap ⟨t.toServer, t.toClient, t.sizes⟩ t.serverR t.serverW).bind fun (l, r, w) =>
  (serve D E' answer t.serverEnc t.serverDec r).bind fun (enc, dec, r, x) =>
  (encodeOut E' enc w).bind fun (enc, w) =>
  some { t with
    serverEnc := enc, serverW := w, serverR := r, serverDec := dec, handled := t.handled ++ x.toList,
    toServer := l.inc, toClient := l.out, sizes := l.sizes }

/-- Whose turn it is. -/
inductive Side where
  | client
  | server
deriving DecidableEq

/-- One turn. The client stops when it has all answers; nobody goes on after a failure. -/
def Session.turn (E : Encoder τ α) (D : Decoder σ α) (E' : Encoder τ' β) (D' : Decoder σ' β) (answer : α → β)
    (cap : Nat) (t : Session τ σ τ' σ' α β) (side : Side) : Session τ σ τ' σ' α β :=
  if t.failed then t
  else
    match side with
    | .client => if t.got.length < t.want then (clientTurn E D' cap t).getD { t with failed := true } else t
    | .server => (serverTurn D E' answer cap t).getD { t with failed := true }

/-- Any schedule. -/
def Session.run (E : Encoder τ α) (D : Decoder σ α) (E' : Encoder τ' β) (D' : Decoder σ' β) (answer : α → β)
    (cap : Nat) (t : Session τ σ τ' σ' α β) (schedule : List Side) : Session τ σ τ' σ' α β :=
  schedule.foldl (Session.turn E D E' D' answer cap) t

end Bytecodec.Spec
