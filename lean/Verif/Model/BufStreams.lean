import Verif.Model.Buf
/-!
# Buffers as streams

Models the two trait implementations by which a buffer is itself a stream: `impl Read for ReadBuf`
(`src/io.rs` 242-253) and `impl Write for WriteBuf` (`src/io.rs` 373-385).
-/
namespace Bytecodec

/-- `src/io.rs` 242-253: `impl Read for ReadBuf`. It never fails. -/
def readBufReader : Reader ReadBuf where
  read b n := (.data (b.read n).1, (b.read n).2)

/-- `src/io.rs` 373-385: `impl Write for WriteBuf`. `write` never fails; `Write::flush` does nothing and
is never called by this crate. -/
def writeBufWriter : Writer WriteBuf where
  write b buf := (.wrote (b.write buf).1, (b.write buf).2)

end Bytecodec
