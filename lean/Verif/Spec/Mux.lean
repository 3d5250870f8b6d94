import Verif.Spec.Pipeline
import Verif.Spec.Slice
import Verif.Model.Io
/-!
# Specification: many channels over one connection

A sender with one sliced encoder per channel and a receiver with one sliced decoder per channel share one byte stream.
It consists of frames: a header with the number of the channel and the length of the payload, then the payload, which
is whatever the encoder of the channel had to write in its turn. Frames and messages are unrelated: a message may be
spread over many frames, with frames of other channels in between, and a frame may contain several messages.
-/
namespace Bytecodec.Spec

/-- `array[i] = x` -/
def put {β : UInt8 → Type} (f : ∀ i, β i) (i : UInt8) (x : β i) : ∀ j, β j :=
  fun j => if h : i = j then h ▸ x else f j

variable {η θ : Type} {τ σ α : UInt8 → Type}

/-! ## The sender -/

/-- The encoder of the headers, the encoders of the channels, the bytes written so far. For the statements, also the
messages accepted on each channel. -/
structure MuxSender (η : Type) (τ α : UInt8 → Type) where
  header : η
  channels : ∀ i, SliceState (τ i)
  wire : Bytes
  sent : ∀ i, List (α i)

/-- New encoders. -/
def MuxSender.new (sH : η) (sE : ∀ i, τ i) : MuxSender η τ α := ⟨sH, fun i => .new (sE i), [], fun _ => []⟩

/-- What the sender does next: hand over a message on a channel; let a channel write at most `allowance` bytes into a
buffer of `cap` bytes. -/
inductive MuxOp (α : UInt8 → Type) where
  | start (i : UInt8) (x : α i)
  | turn (i : UInt8) (allowance : UInt64) (cap : UInt16)

/-- A turn in which channel `i` may write at least one byte. -/
def MuxOp.serves (i : UInt8) : MuxOp α → Bool
  | .start _ _ => false
  | .turn j allowance cap => j == i && allowance != 0 && cap != 0

/-- The two programs; `none`: a call failed.
```
fn start(&mut self, i: u8, x: Item) -> Result<()> {
    if self.channels[i].is_idle() { self.channels[i].start_encoding(x)?; }
}
fn turn(&mut self, i: u8, allowance: u64, cap: u16) -> Result<()> {
    let mut buf = vec![0; cap];
    self.channels[i].set_consumable_bytes(allowance);
    let n = self.channels[i].encode(&mut buf, Eos::new(false))?;
    self.header.start_encoding((i, n as u16))?;
    self.header.encode_all(&mut self.wire)?;
    self.wire.extend_from_slice(&buf[..n]);
}
``` -/
def MuxSender.step (H : Encoder η (UInt8 × UInt16)) (E : ∀ i, Encoder (τ i) (α i)) (s : MuxSender η τ α) :
    MuxOp α → Option (MuxSender η τ α)
  | .start i x =>
    if (sliceEncoder (E i)).isIdle (s.channels i) then
      match (sliceEncoder (E i)).start (s.channels i) x with
      | (.ok (), c) => some { s with channels := put s.channels i c, sent := put s.sent i (s.sent i ++ [x]) }
      | _ => none
    else some s
  | .turn i allowance cap =>
    match (sliceEncoder (E i)).encode ((s.channels i).setConsumableBytes allowance.toNat) cap.toNat (Eos.new false) with
    | (.ok out, c) =>
      match H.start s.header (i, UInt16.ofNat out.length) with
      | (.ok (), h) =>
        match encodeAll H vecWriter h s.wire with
        | some (.ok (), h, wire) => some { s with header := h, channels := put s.channels i c, wire := wire ++ out }
        | _ => none
      | _ => none
    | _ => none

/-- Any sequence of such calls. -/
def MuxSender.run (H : Encoder η (UInt8 × UInt16)) (E : ∀ i, Encoder (τ i) (α i)) (s : MuxSender η τ α)
    (ops : List (MuxOp α)) : Option (MuxSender η τ α) :=
  ops.foldlM (MuxSender.step H E) s

/-! ## The receiver -/

/-- The decoder of the headers, the channel of the current frame (`None` while a header is expected), the decoders of
the channels, the messages received on each channel. -/
structure MuxReceiver (θ : Type) (σ α : UInt8 → Type) where
  header : θ
  current : Option UInt8
  channels : ∀ i, SliceState (σ i)
  got : ∀ i, List (α i)

/-- New decoders. -/
def MuxReceiver.new (sH : θ) (sD : ∀ i, σ i) : MuxReceiver θ σ α := ⟨sH, none, fun i => .new (sD i), fun _ => []⟩

/-- What the receiver does with the next bytes of the connection; `none`: a call failed, or the loop does not end.
```
fn receive(&mut self, mut buf: &[u8]) -> Result<()> {
    loop {
        if let Some(i) = self.current {
            let n = self.channels[i].decode(buf, Eos::new(false))?;
            buf = &buf[n..];
            if self.channels[i].is_idle() {
                self.got[i].push(self.channels[i].finish_decoding()?);
            } else if n == 0 {
                if !self.channels[i].is_suspended() { return Ok(()); }
                self.current = None;
            }
        } else {
            let n = self.header.decode(buf, Eos::new(false))?;
            buf = &buf[n..];
            if self.header.is_idle() {
                let (i, length) = self.header.finish_decoding()?;
                self.channels[i].set_consumable_bytes(length as u64);
                self.current = Some(i);
            } else if n == 0 {
                return Ok(());
            }
        }
    }
}
``` -/
def MuxReceiver.receive (H : Decoder θ (UInt8 × UInt16)) (D : ∀ i, Decoder (σ i) (α i)) (r : MuxReceiver θ σ α)
    (buf : Bytes) : Option (MuxReceiver θ σ α) :=
  match r.current with
  | some i =>
    match (sliceDecoder (D i)).decode (r.channels i) buf (Eos.new false) with
    | (.ok n, c) =>
      if (sliceDecoder (D i)).isIdle c then
        match (sliceDecoder (D i)).finish c with
        | (.ok x, c) =>
          MuxReceiver.receive H D { r with channels := put r.channels i c, got := put r.got i (r.got i ++ [x]) }
            (buf.drop n)
        | _ => none
      else if n = 0 then
        if c.isSuspended then
          MuxReceiver.receive H D { r with channels := put r.channels i c, current := none } (buf.drop n)
        else some { r with channels := put r.channels i c }
      else MuxReceiver.receive H D { r with channels := put r.channels i c } (buf.drop n)
    | _ => none
  | none =>
    match H.decode r.header buf (Eos.new false) with
    | (.ok n, h) =>
      if H.isIdle h then
        match H.finish h with
        | (.ok (i, length), h) =>
          MuxReceiver.receive H D
            { r with
              header := h, current := some i,
              channels := put r.channels i ((r.channels i).setConsumableBytes length.toNat) }
            (buf.drop n)
        | _ => none
      else if n = 0 then some { r with header := h }
      else MuxReceiver.receive H D { r with header := h } (buf.drop n)
    | _ => none
partial_fixpoint

/-- The bytes arrive in pieces. -/
def MuxReceiver.receiveAll (H : Decoder θ (UInt8 × UInt16)) (D : ∀ i, Decoder (σ i) (α i)) (r : MuxReceiver θ σ α)
    (pieces : List Bytes) : Option (MuxReceiver θ σ α) :=
  pieces.foldlM (MuxReceiver.receive H D) r

end Bytecodec.Spec
