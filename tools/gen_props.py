#!/usr/bin/env python3
"""Generates /verif/properties.jsonl (one JSON object per line)."""
import json
P=[]
def p(title, statement, quantifier, why, anchors):
    P.append(dict(id="C%02d"%(len(P)+1), title=title, statement=statement, quantifier=quantifier, why_tests_cant=why, anchors=anchors))

p("ByteCount addition for decoding is a commutative monoid and follows the documented table",
  "`add_for_decoding` is commutative and associative, has `Finite(0)` as identity and `Infinite` as absorbing element, agrees with the eight-line rule table in its documentation, and panics exactly when two finite operands sum to 2^64 or more.",
  "all triples of byte counts, including all u64 values",
  "the u64 domain is infinite for practical purposes and associativity ranges over triples",
  ["src/byte_count.rs: ByteCount::add_for_decoding"])
p("ByteCount addition for encoding is a commutative monoid and follows the documented table",
  "`add_for_encoding` is commutative and associative, has `Finite(0)` as identity, `Infinite` absorbs everything, `Unknown` absorbs everything but `Infinite`, it agrees with its documented table, and panics exactly on u64 overflow.",
  "all triples of byte counts",
  "ranges over triples of u64 values",
  ["src/byte_count.rs: ByteCount::add_for_encoding"])
p("ByteCount ordering",
  "`partial_cmp` is transitive and dual, orders finite counts numerically with `Infinite` above all of them, makes `Unknown` incomparable with everything, and (as std's `PartialOrd` demands) returns `Some(Equal)` exactly for equal values.",
  "all pairs / triples of byte counts",
  "the law quantifies over all values; the last clause is in fact false for `Unknown`",
  ["src/byte_count.rs: impl PartialOrd for ByteCount"])
p("Eos arithmetic",
  "`Eos::new(b).is_reached() == b`; `is_reached` holds iff exactly zero bytes remain; `back(n)` adds n to a known distance and leaves `Infinite`/`Unknown` unchanged, so `back` composes additively and moving back by at least one byte never leaves a reached eos reached; it panics exactly on u64 overflow.",
  "all eos values and all distances",
  "ranges over all u64 values and compositions",
  ["src/eos.rs: Eos::new, with_remaining_bytes, is_reached, remaining_bytes, back"])
p("Decoders never panic, never hang and never over-report consumption",
  "For the library decoders and every decoder assembled from them by map, try_map, map_err, omit, length, max_bytes, slice, peekable, maybe_eos, collectn, chain/tuple and and_then (collect needs items of at least one byte), no sequence of `decode`/`finish_decoding` calls, with any buffers and any eos whose distance plus buffer fits in u64, panics on arithmetic or indexing or loops forever, and every `Ok(n)` has n <= buf.len(), also after errors.",
  "all decoder compositions, all call histories, all buffers, all eos values",
  "the set of compositions and histories is unbounded",
  ["src/combinator.rs","src/bytes.rs","src/tuple.rs","src/padding.rs","src/null.rs","src/fixnum.rs","src/macros.rs: bytecodec_try_decode"])
p("Idle decoders consume nothing",
  "If `is_idle()` is true then `decode` consumes no bytes, the decoder stays idle and the item later returned by `finish_decoding` is unaffected.",
  "all library decoders and compositions, all states, all buffers, all eos values",
  "must hold in every state of every composition; false for the monolithic decoders",
  ["src/decode.rs: Decode::decode docs","src/monolithic.rs: MonolithicDecoder::decode"])
p("Chunking invariance of decoding",
  "If decoding one contiguous buffer succeeds (decode, idle, finish), then cutting the same bytes into any list of chunks, each passed with `Eos::new(false)` or with the true remaining distance and the last with the original eos, yields the same item, the same total number of consumed bytes and the same follow-up state.",
  "all decoder compositions, all inputs, all chunkings (including empty chunks), all truthful or unknown intermediate eos values",
  "the number of chunkings is exponential in the input and must hold for every composition",
  ["src/decode.rs: Decode","src/combinator.rs","src/tuple.rs","src/bytes.rs","src/macros.rs"])
p("Joining invariance of decoding",
  "Conversely, if a chunked run succeeds then passing the concatenation in a single call succeeds with the same item and the same consumption: success does not depend on how the transport cut the stream.",
  "all inputs, all chunkings, all decoder compositions",
  "the failing schedules are rare (a final empty chunk at EOS); false for collect and max_bytes",
  ["src/combinator.rs: Collect::decode, MaxBytes::decode"])
p("Truncation is always detected",
  "When `decode` is called with a reached eos it either completes the item (idle) or returns an error; it never returns Ok while still waiting for bytes, and a truncated item is never silently dropped.",
  "all states, all buffers, all decoder compositions",
  "must hold at every truncation point under every chunking; false for length, maybe_eos (by design), slice and collect",
  ["src/decode.rs: Decode::decode errors","src/combinator.rs: Length::decode, Collect::decode"])
p("finish_decoding before completion is rejected",
  "Calling `finish_decoding` while the decoder has not completed its item returns `IncompleteDecoding`; for the leaf decoders it leaves the decoder unchanged so that decoding can continue.",
  "all decoders, all partially decoded states",
  "every intermediate state of every decoder; the no-change clause is false for and_then and chain",
  ["src/bytes.rs","src/combinator.rs: AndThen::finish_decoding, Collect::finish_decoding, CollectN::finish_decoding, Length::finish_decoding","src/tuple.rs"])
p("Fixed-width number round trip under every schedule",
  "For each of the integer and float codecs, encoding any in-range value into output buffers of any sizes and decoding the produced bytes cut in any way, followed by arbitrary other data, returns the same value (bit pattern for floats) and consumes exactly the width of the type.",
  "all values of all widths and both byte orders, all encode buffer-size schedules, all decode chunkings, all trailing bytes",
  "2^64 values times exponentially many schedules",
  ["src/fixnum.rs"])
p("Byte order and two's complement layout",
  "Big-endian encoders emit the most significant byte first and little-endian encoders the least significant first: byte i of the little-endian form of n is n / 256^i mod 256 and the big-endian form is its reverse; signed values use two's complement.",
  "all values of all fixed-width types",
  "2^64 values; tests use a few literals",
  ["src/fixnum.rs: encode_item, decode_item"])
p("Odd-width range checks",
  "The 24/40/48/56-bit encoders accept a value iff it is below 2^24/2^40/2^48/2^56; otherwise they return `InvalidInput` and the encoder is unchanged; the decoders always return values below the bound.",
  "all u32 / u64 values, all encoder states",
  "boundary plus the whole value range",
  ["src/fixnum.rs: U24beEncoder .. U56leEncoder"])
p("BytesEncoder emits exactly its item under every buffer schedule",
  "After an item is accepted, the concatenation of the outputs of `encode` calls with arbitrary buffer sizes is a prefix of the item at all times and equals the item when idle; each call fills the buffer as far as bytes remain; `exact_requiring_bytes` always equals the number of bytes still to be emitted; a reached eos with too little room gives `UnexpectedEos`; a second item while busy gives `EncoderFull` without disturbing the first.",
  "all items, all buffer-size sequences",
  "unbounded sequences of buffer sizes",
  ["src/bytes.rs: BytesEncoder"])
p("CopyableBytesDecoder splits a stream into consecutive frames",
  "A decoder for k-byte arrays applied repeatedly to any stream returns the consecutive k-byte frames of the stream in order, under any chunking, without leaking bytes of one frame into the next.",
  "all frame sizes, all streams, all chunkings, any number of frames",
  "stale-buffer reuse bugs only show on particular chunkings of later frames",
  ["src/bytes.rs: CopyableBytesDecoder"])
p("BytesDecoder is one-shot",
  "A `BytesDecoder` fills its buffer with exactly the next len bytes; after the item is taken every `decode` and `finish_decoding` fails with `DecoderTerminated` until `set_bytes` re-arms it.",
  "all buffers, chunkings and later call histories",
  "ranges over all histories after completion",
  ["src/bytes.rs: BytesDecoder"])
p("RemainingBytesDecoder returns the concatenation of everything before EOS",
  "It consumes every byte offered before EOS and `finish_decoding` returns exactly their concatenation, then starts afresh; it fails (capacity overflow panic) exactly when the announced remaining distance plus buffered bytes exceeds isize::MAX.",
  "all streams, chunkings, announced distances",
  "the panic needs huge announced distances that tests do not try",
  ["src/bytes.rs: RemainingBytesDecoder"])
p("UTF-8 codecs",
  "`Utf8Encoder` emits the UTF-8 bytes of the string; `Utf8Decoder` returns the string for every valid UTF-8 input under any chunking (also cutting inside a code point) and `InvalidInput` for every other byte sequence.",
  "all strings, all byte sequences, all chunkings",
  "all strings and all cut points",
  ["src/bytes.rs: Utf8Encoder, Utf8Decoder"])
p("Tuple decoding is sequential composition",
  "A tuple decoder decodes its components in order, each from where the previous one stopped, returns the tuple of items, consumes the sum of their sizes, is idle iff all components are, and every arity 2..8 behaves as nested pairs.",
  "all component decoders, inputs and chunkings, arities 2 to 8",
  "all components and all chunkings crossing component boundaries",
  ["src/tuple.rs: TupleDecoder","src/decode.rs: chain"])
p("Tuple encoding is concatenation",
  "A tuple encoder's output under any buffer schedule is the concatenation of the component encodings; a rejected tuple leaves the encoder as it was.",
  "all component encoders, items and buffer schedules",
  "all schedules crossing component boundaries; the last clause is false",
  ["src/tuple.rs: TupleEncoder","src/encode.rs: chain"])
p("map, try_map and map_err are transparent",
  "`map`/`try_map` consume exactly what the inner decoder consumes and return the image of its item (or the conversion error); `map_err` changes only error kinds and never turns an error into success or vice versa; `map_from`/`try_map_from` encode exactly the encoding of the image, and a failed conversion leaves the encoder unchanged.",
  "all inner codecs, functions, states and inputs",
  "quantifies over all inner codecs and functions",
  ["src/combinator.rs: Map, TryMap, MapErr, MapFrom, TryMapFrom"])
p("and_then decodes a dependent second item",
  "The second decoder is chosen from the first item and starts at the byte right after it; the total consumption is the sum; the decoder is reusable afterwards; so length-prefixed data round trips for every payload that fits the prefix.",
  "all first/second decoders, inputs, chunkings; all payloads",
  "dependent lengths times all chunkings",
  ["src/combinator.rs: AndThen"])
p("collect gathers all items up to EOS",
  "On a stream that is a concatenation of item encodings followed by EOS, `collect` returns exactly those items in order and can then be reused; a stream ending inside an item is an error under every chunking; items of zero bytes do not hang it.",
  "all item sequences, all chunkings",
  "unbounded item sequences; the second and third clauses are false for some schedules",
  ["src/combinator.rs: Collect"])
p("collectn decodes exactly n items",
  "`collectn(n)` returns exactly the next n items in order and consumes exactly their bytes; EOS before the n-th item is `UnexpectedEos`; n = 0 consumes nothing.",
  "all n, all item sequences, chunkings and trailing data",
  "unbounded n and chunkings",
  ["src/combinator.rs: CollectN"])
p("length-delimited decoding consumes exactly the declared number of bytes",
  "Between two successful `finish_decoding` calls of a `length(n)` decoder exactly n bytes were reported consumed; the inner decoder is never shown a byte beyond them and sees EOS exactly at their end; a stream shorter than n is reported as `UnexpectedEos`.",
  "all n, inner decoders, histories, buffers and eos values",
  "all histories including failed calls; the last clause is false when eos and bytes arrive in the same call",
  ["src/combinator.rs: Length (Decode)"])
p("length-delimited encoding emits exactly the declared number of bytes",
  "A `length(n)` encoder whose item encodes to exactly n bytes emits them unchanged under any buffer schedule; a longer item gives `UnexpectedEos`, a shorter one `InvalidInput`; after finishing, the encoder accepts the next item; with no item it reports Finite(0) required bytes.",
  "all n, items, inner encoders and buffer schedules",
  "all schedules; the last two clauses are false",
  ["src/combinator.rs: Length (Encode)"])
p("max_bytes bounds decoding",
  "A `max_bytes(m)` decoder never reports more than m bytes consumed for one item whatever the call history, never underflows, passes through unchanged when the whole stream fits, and rejects with `InvalidInput` without touching the inner decoder when the offered bytes (plus known remaining) exceed the budget.",
  "all m, histories, buffers, eos values, inner decoders",
  "all histories including set_max_bytes at arbitrary moments",
  ["src/combinator.rs: MaxBytes (Decode), set_max_bytes"])
p("max_bytes bounds encoding",
  "A `max_bytes(m)` encoder emits an item of at most m bytes unchanged under any schedule and fails with `InvalidInput` for every longer item under every schedule that reaches byte m+1; the counter restarts for each item.",
  "all m, items, schedules, item sequences",
  "all schedules and item histories",
  ["src/combinator.rs: MaxBytes (Encode)"])
p("Optional and omittable codecs",
  "`omit(true)` consumes nothing and yields None, `omit(false)` behaves as the inner decoder with Some; `optional` encodes Some(x) as x and None as nothing, leaving the encoder untouched for None.",
  "all inner codecs, states, inputs",
  "quantifies over all inner codecs",
  ["src/combinator.rs: Omittable, Optional"])
p("peekable exposes exactly the item finish_decoding will return",
  "After a successful decode that completes an item, `peek` returns the item that `finish_decoding` then returns, and no further bytes are consumed until it is taken.",
  "all inner decoders, inputs, chunkings, later decode calls",
  "all interleavings of decode/peek/finish",
  ["src/combinator.rs: Peekable"])
p("maybe_eos ignores EOS only between items",
  "With no byte of the current item consumed, an empty buffer at EOS is not an error; once at least one byte was consumed, behaviour at EOS is that of the inner decoder; the decoded items are unchanged.",
  "all inner decoders, histories and chunkings",
  "depends on the consumption history",
  ["src/combinator.rs: MaybeEos"])
p("slice never exceeds its allowance and preserves the codec",
  "A sliced decoder/encoder never consumes/produces more than the allowance set by the last `set_consumable_bytes`, decreases it by exactly the reported amount, and under any sequence of allowances produces the same overall byte stream / item as the unsliced codec; two sliced decoders can therefore demultiplex any interleaving.",
  "all allowance sequences, inner codecs, inputs, interleavings",
  "unbounded allowance schedules and interleavings",
  ["src/combinator.rs: Slice"])
p("last encodes the pending items, then the final item, then stays idle",
  "`last(item)` first drains what the inner encoder holds, then emits the final item once, and reports correct remaining sizes.",
  "all inner encoders, items and buffer schedules",
  "all schedules; the size report is false for SizedEncode",
  ["src/combinator.rs: Last"])
p("Pre-encoding and encode_into_bytes",
  "`encode_into_bytes` returns exactly the item's encoding for every lawful encoder whether its size is known or not; `pre_encode` emits the same bytes as the inner encoder under any schedule and knows its exact remaining size.",
  "all encoders, items and schedules",
  "all encoders and schedules",
  ["src/combinator.rs: PreEncode","src/encode.rs: EncodeExt::encode_into_bytes"])
p("repeat encodes the concatenation of the item encodings",
  "Under any buffer schedule `repeat` emits the concatenation of the encodings of the iterator's items in order, makes progress on every call and then accepts a new sequence; `encode_all` succeeds on it.",
  "all item sequences, inner encoders and buffer schedules",
  "unbounded sequences and schedules; encode_all fails when an item has an empty encoding",
  ["src/combinator.rs: Repeat","src/io.rs: encode_all"])
p("Padding codecs",
  "`PaddingEncoder` fills every buffer completely with the padding byte until EOS and becomes idle exactly at EOS; `PaddingDecoder` accepts exactly the streams made only of the expected byte (any stream if none is set), under any chunking, and consumes all bytes before EOS.",
  "all bytes, streams, chunkings and buffer schedules",
  "all streams and schedules",
  ["src/padding.rs"])
p("Null codecs",
  "The null decoder/encoder are units for tuple composition: they are always idle, consume/produce no bytes, and pairing with them changes neither bytes nor consumption.",
  "all states, inputs, partner codecs",
  "quantifies over all partner codecs",
  ["src/null.rs"])
p("Read buffer is a FIFO queue",
  "For every sequence of fill / read / decode_from_read_buf operations on a read buffer, the bytes handed to consumers followed by the bytes still buffered equal the bytes delivered by the reader, in order, without loss or duplication; len + room <= capacity always; is_empty iff len is 0; nothing panics.",
  "all capacities, reader schedules, decoders and operation sequences",
  "unbounded operation sequences",
  ["src/io.rs: ReadBuf, decode_from_read_buf, impl Read for ReadBuf"])
p("Write buffer is a FIFO queue",
  "For every sequence of write / encode_to_write_buf / flush operations, the bytes accepted by the writer followed by the bytes still buffered equal the bytes accepted by the buffer, in order; len + room <= capacity; is_empty iff len is 0; nothing panics.",
  "all capacities, writer schedules, encoders and operation sequences",
  "unbounded operation sequences",
  ["src/io.rs: WriteBuf, encode_to_write_buf, impl Write for WriteBuf"])
p("fill stops for the documented reasons and reports the stream state",
  "`fill` returns only when the buffer is full, the reader would block, failed or reached EOS; the stream state afterwards names the reader's last answer (unchanged when nothing was read); it always terminates.",
  "all capacities and reader behaviours",
  "all reader schedules",
  ["src/io.rs: ReadBuf::fill"])
p("flush stops for the documented reasons and reports the stream state",
  "`flush` returns only when the buffer is empty, or the writer would block, failed or accepted zero bytes; the state afterwards names the writer's last answer; it always terminates.",
  "all capacities and writer behaviours",
  "all writer schedules",
  ["src/io.rs: WriteBuf::flush"])
p("decode_exact reads only the bytes of one item",
  "For every lawful decoder with a correct `requiring_bytes` lower bound and every reader (any short-read schedule), if the stream starts with an encoded item then `decode_exact` returns it and leaves the reader positioned right after it; it terminates.",
  "all lawful decoder compositions, streams, reader schedules",
  "all short-read schedules; hangs for maybe_eos at EOS and collectn of zero-byte items",
  ["src/io.rs: IoDecodeExt::decode_exact"])
p("encode_all writes the complete encoding",
  "For every lawful finite encoder `encode_all` writes exactly the pending bytes to the writer, leaves the encoder idle and terminates; on a writer error the bytes written are a prefix.",
  "all lawful encoders, items of any size, writer behaviours",
  "items larger than the internal 1024-byte buffer and all writers",
  ["src/io.rs: IoEncodeExt::encode_all"])
p("Buffered I/O: would_block and is_eos",
  "`would_block()` is true only if the last read would have blocked and there is nothing to write or the last write would have blocked; `execute_io` performs a fill then a flush; `is_eos` reports EOS of either direction.",
  "all stream behaviours and histories",
  "all stream behaviours",
  ["src/io.rs: BufferedIo"])
p("Asynchronous fill and flush refine the synchronous ones",
  "`poll_fill`/`poll_flush` move the same bytes and report the same stream state as `fill`/`flush` with Pending in place of WouldBlock; `execute_io_poll` is Pending iff both directions are Pending and otherwise reports a read error first; the waker stored by `encode_to_write_buf_async` is woken when the buffer regains space.",
  "all stream behaviours, capacities and histories",
  "all poll schedules; the waker clause is false for poll_flush",
  ["src/io_async.rs","src/io.rs: encode_to_write_buf_async"])
p("Monolithic encoder output is schedule independent",
  "For every serializer and every way it cuts its writes, the concatenation of the outputs under any buffer schedule equals the serialized bytes; too little room at EOS is reported as `UnexpectedEos`.",
  "all serializers, items, buffer schedules",
  "all write-call patterns times buffer schedules; the eos clause is false for the first call",
  ["src/monolithic.rs: MonolithicEncoder, WriterChain"])
p("Monolithic decoder sees the concatenation of all chunks",
  "The wrapped parser is run exactly once, at EOS, on the concatenation of all chunks; the item is its result; after an error or after finishing the decoder starts afresh.",
  "all parsers, streams and chunkings",
  "all chunkings; the restart-after-error clause is false",
  ["src/monolithic.rs: MonolithicDecoder","src/json_codec.rs","src/bincode_codec.rs"])
p("OwnedSlice is a window",
  "`as_ref` returns exactly the elements start..end of the inner sequence, writes through `as_mut` change only that window, and it panics iff start > end or end > len.",
  "all sequences, ranges and writes",
  "all ranges and contents",
  ["src/slice.rs: OwnedSlice"])
p("I/O errors map to error kinds",
  "An io error becomes `UnexpectedEos` iff its kind is UnexpectedEof and `Other` otherwise, at every place where the crate touches a reader or writer.",
  "all io error kinds, all I/O entry points",
  "all entry points and failure points",
  ["src/error.rs: impl From<std::io::Error> for Error","src/io.rs"])
p("decode_from_bytes accepts exactly complete inputs",
  "`decode_from_bytes(b)` returns x iff a single decode at EOS consumes all of b and finishes with x; trailing bytes give `InvalidInput`; hence it inverts `encode_into_bytes` for every matching codec pair.",
  "all decoders and inputs",
  "all inputs",
  ["src/decode.rs: DecodeExt::decode_from_bytes"])
p("End-to-end pipeline delivers the same messages",
  "Messages encoded into a write buffer, flushed to a byte pipe under any writer schedule, filled into a read buffer under any reader schedule and decoded incrementally arrive unchanged and in order, for every matching encoder/decoder pair, all buffer capacities of at least one byte.",
  "all message sequences, buffer capacities, writer/reader schedules, interleavings",
  "the product of all schedules on both sides",
  ["src/io.rs","src/encode.rs","src/decode.rs"])
p("requiring_bytes is a correct lower bound for decoding",
  "If a decoder reports `Finite(k)` then no successful decoding from this state consumes fewer than k bytes; `Infinite` means the item ends only at EOS; `Finite(0)` on an idle decoder.",
  "all decoder compositions, states and inputs",
  "all states of all compositions",
  ["src/decode.rs: Decode::requiring_bytes","src/tuple.rs","src/combinator.rs"])
p("requiring_bytes is exact for encoding",
  "If an encoder reports `Finite(k)`, exactly k more bytes will be emitted; `exact_requiring_bytes` always equals that number; an encoder without items reports Finite(0).",
  "all encoder compositions, states and schedules",
  "all states of all compositions; false for length (no item) and last (exact size)",
  ["src/encode.rs: Encode::requiring_bytes, SizedEncode","src/combinator.rs: Length, Last"])
p("Encoders never panic, never overrun and fill greedily",
  "For the library encoders and all compositions, every `encode` returns at most buf.len() bytes, never panics, and if the encoder is not idle afterwards and not suspended the buffer was filled completely.",
  "all encoder compositions, histories, buffers and eos values",
  "all compositions and histories",
  ["src/encode.rs: Encode::encode","src/combinator.rs","src/tuple.rs"])
with open("/verif/properties.jsonl","w") as f:
    for x in P: f.write(json.dumps(x)+"\n")
print(len(P))
