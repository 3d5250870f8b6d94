import Verif.Model.Buf
/-!
# Access to the storage and the state of buffers

Models `stream_state_mut`, `inner_mut` and `into_inner` of `ReadBuf` and `WriteBuf` in `src/io.rs`.
A mutable reference is modelled by the assignment through it. With `B = Vec<u8>` the caller can also change the
length of the storage.
-/
namespace Bytecodec

/-- `src/io.rs` 120-122. -/
def StreamState.isNormal (s : StreamState) : Bool := s == .normal

/-- `src/io.rs` 125-127. -/
def StreamState.isError (s : StreamState) : Bool := s == .error

namespace ReadBuf

/-- `src/io.rs` 192-194: `*buf.stream_state_mut() = st`. -/
def setState (b : ReadBuf) (st : StreamState) : ReadBuf := { b with state := st }

/-- `src/io.rs` 233-235: `*buf.inner_mut() = storage`. -/
def setInner (b : ReadBuf) (storage : Bytes) : ReadBuf := { b with inner := storage }

/-- `src/io.rs` 238-240: `into_inner`. -/
def intoInner (b : ReadBuf) : Bytes := b.inner

end ReadBuf

namespace WriteBuf

/-- `src/io.rs` 311-313: `*buf.stream_state_mut() = st`. -/
def setState (b : WriteBuf) (st : StreamState) : WriteBuf := { b with state := st }

/-- `src/io.rs` 364-366: `*buf.inner_mut() = storage`. -/
def setInner (b : WriteBuf) (storage : Bytes) : WriteBuf := { b with inner := storage }

/-- `src/io.rs` 369-371: `into_inner`. -/
def intoInner (b : WriteBuf) : Bytes := b.inner

end WriteBuf

end Bytecodec
