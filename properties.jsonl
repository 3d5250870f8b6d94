{"id": "C01", "title": "ByteCount addition for decoding is a commutative monoid and follows the documented table", "statement": "`add_for_decoding` is commutative and associative, has `Finite(0)` as identity and `Infinite` as absorbing element, agrees with the eight-line rule table in its documentation, and panics exactly when two finite operands sum to 2^64 or more.", "quantifier": "all triples of byte counts, including all u64 values", "why_tests_cant": "the u64 domain is infinite for practical purposes and associativity ranges over triples", "anchors": ["src/byte_count.rs: ByteCount::add_for_decoding"]}
{"id": "C02", "title": "ByteCount addition for encoding is a commutative monoid and follows the documented table", "statement": "`add_for_encoding` is commutative and associative, has `Finite(0)` as identity, `Infinite` absorbs everything, `Unknown` absorbs everything but `Infinite`, it agrees with its documented table, and panics exactly on u64 overflow.", "quantifier": "all triples of byte counts", "why_tests_cant": "ranges over triples of u64 values", "anchors": ["src/byte_count.rs: ByteCount::add_for_encoding"]}
{"id": "C03", "title": "ByteCount ordering and queries", "statement": "`partial_cmp` is transitive and dual, orders finite counts numerically with `Infinite` above all of them, makes `Unknown` incomparable with everything, and (as std's `PartialOrd` demands) returns `Some(Equal)` exactly for equal values. `is_finite`, `is_infinite`, `is_unknow` and `to_u64` tell the three cases apart.", "quantifier": "all pairs / triples of byte counts", "why_tests_cant": "the law quantifies over all values; the last clause is in fact false for `Unknown`", "anchors": ["src/byte_count.rs: impl PartialOrd for ByteCount", "src/byte_count.rs: is_finite, is_infinite, is_unknow, to_u64"]}
{"id": "C04", "title": "Eos arithmetic", "statement": "`Eos::new(b).is_reached() == b`; `is_reached` holds iff exactly zero bytes remain; `back(n)` adds n to a known distance and leaves `Infinite`/`Unknown` unchanged, so `back` composes additively and moving back by at least one byte never leaves a reached eos reached; it panics exactly on u64 overflow.", "quantifier": "all eos values and all distances", "why_tests_cant": "ranges over all u64 values and compositions", "anchors": ["src/eos.rs: Eos::new, with_remaining_bytes, is_reached, remaining_bytes, back"]}
{"id": "C05", "title": "Decoders never panic, never hang and never over-report consumption", "statement": "For the library decoders and every decoder assembled from them by map, try_map, map_err, omit, length, max_bytes, slice, peekable, maybe_eos, collectn, chain/tuple and and_then (collect needs items of at least one byte), no sequence of `decode`/`finish_decoding` calls, with any buffers and any eos whose distance plus buffer fits in u64, panics on arithmetic or indexing or loops forever, and every `Ok(n)` has n <= buf.len(), also after errors.", "quantifier": "all decoder compositions, all call histories, all buffers, all eos values", "why_tests_cant": "the set of compositions and histories is unbounded", "anchors": ["src/combinator.rs", "src/bytes.rs", "src/tuple.rs", "src/padding.rs", "src/null.rs", "src/fixnum.rs", "src/macros.rs: bytecodec_try_decode"]}
{"id": "C06", "title": "Idle decoders consume nothing", "statement": "If `is_idle()` is true then `decode` consumes no bytes, the decoder stays idle and the item later returned by `finish_decoding` is unaffected.", "quantifier": "all library decoders and compositions, all states, all buffers, all eos values", "why_tests_cant": "must hold in every state of every composition; false for the monolithic decoders", "anchors": ["src/decode.rs: Decode::decode docs", "src/monolithic.rs: MonolithicDecoder::decode"]}
{"id": "C07", "title": "Chunking invariance of decoding", "statement": "If decoding one contiguous buffer succeeds (decode, idle, finish), then cutting the same bytes into any list of chunks, each passed with `Eos::new(false)` or with the true remaining distance and the last with the original eos, yields the same item, the same total number of consumed bytes and the same follow-up state.", "quantifier": "all decoder compositions, all inputs, all chunkings (including empty chunks), all truthful or unknown intermediate eos values", "why_tests_cant": "the number of chunkings is exponential in the input and must hold for every composition", "anchors": ["src/decode.rs: Decode", "src/combinator.rs", "src/tuple.rs", "src/bytes.rs", "src/macros.rs"]}
{"id": "C08", "title": "Joining invariance of decoding", "statement": "Conversely, if a chunked run succeeds then passing the concatenation in a single call succeeds with the same item and the same consumption: success does not depend on how the transport cut the stream.", "quantifier": "all inputs, all chunkings, all decoder compositions", "why_tests_cant": "the failing schedules are rare (a final empty chunk at EOS); false for collect and max_bytes", "anchors": ["src/combinator.rs: Collect::decode, MaxBytes::decode"]}
{"id": "C09", "title": "Truncation is always detected", "statement": "When `decode` is called with a reached eos it either completes the item (idle) or returns an error; it never returns Ok while still waiting for bytes, and a truncated item is never silently dropped.", "quantifier": "all states, all buffers, all decoder compositions", "why_tests_cant": "must hold at every truncation point under every chunking; false for length, maybe_eos (by design), slice and collect", "anchors": ["src/decode.rs: Decode::decode errors", "src/combinator.rs: Length::decode, Collect::decode"]}
{"id": "C10", "title": "finish_decoding before completion is rejected", "statement": "Calling `finish_decoding` while the decoder has not completed its item returns `IncompleteDecoding`; for the leaf decoders it leaves the decoder unchanged so that decoding can continue.", "quantifier": "all decoders, all partially decoded states", "why_tests_cant": "every intermediate state of every decoder; the no-change clause is false for and_then and chain", "anchors": ["src/bytes.rs", "src/combinator.rs: AndThen::finish_decoding, Collect::finish_decoding, CollectN::finish_decoding, Length::finish_decoding", "src/tuple.rs"]}
{"id": "C11", "title": "Fixed-width number round trip under every schedule", "statement": "For each of the integer and float codecs, encoding any in-range value into output buffers of any sizes and decoding the produced bytes cut in any way, followed by arbitrary other data, returns the same value (bit pattern for floats) and consumes exactly the width of the type.", "quantifier": "all values of all widths and both byte orders, all encode buffer-size schedules, all decode chunkings, all trailing bytes", "why_tests_cant": "2^64 values times exponentially many schedules", "anchors": ["src/fixnum.rs"]}
{"id": "C12", "title": "Byte order and two's complement layout", "statement": "Big-endian encoders emit the most significant byte first and little-endian encoders the least significant first: byte i of the little-endian form of n is n / 256^i mod 256 and the big-endian form is its reverse; signed values use two's complement.", "quantifier": "all values of all fixed-width types", "why_tests_cant": "2^64 values; tests use a few literals", "anchors": ["src/fixnum.rs: encode_item, decode_item"]}
{"id": "C13", "title": "Odd-width range checks", "statement": "The 24/40/48/56-bit encoders accept a value iff it is below 2^24/2^40/2^48/2^56; otherwise they return `InvalidInput` and the encoder is unchanged; the decoders always return values below the bound.", "quantifier": "all u32 / u64 values, all encoder states", "why_tests_cant": "boundary plus the whole value range", "anchors": ["src/fixnum.rs: U24beEncoder .. U56leEncoder"]}
{"id": "C14", "title": "BytesEncoder emits exactly its item under every buffer schedule", "statement": "After an item is accepted, the concatenation of the outputs of `encode` calls with arbitrary buffer sizes is a prefix of the item at all times and equals the item when idle; each call fills the buffer as far as bytes remain; `exact_requiring_bytes` always equals the number of bytes still to be emitted; a reached eos with too little room gives `UnexpectedEos`; a second item while busy gives `EncoderFull` without disturbing the first.", "quantifier": "all items, all buffer-size sequences", "why_tests_cant": "unbounded sequences of buffer sizes", "anchors": ["src/bytes.rs: BytesEncoder"]}
{"id": "C15", "title": "CopyableBytesDecoder splits a stream into consecutive frames", "statement": "A decoder for k-byte arrays applied repeatedly to any stream returns the consecutive k-byte frames of the stream in order, under any chunking, without leaking bytes of one frame into the next.", "quantifier": "all frame sizes, all streams, all chunkings, any number of frames", "why_tests_cant": "stale-buffer reuse bugs only show on particular chunkings of later frames", "anchors": ["src/bytes.rs: CopyableBytesDecoder"]}
{"id": "C16", "title": "BytesDecoder is one-shot", "statement": "A `BytesDecoder` fills its buffer with exactly the next len bytes; after the item is taken every `decode` and `finish_decoding` fails with `DecoderTerminated` until `set_bytes` re-arms it.", "quantifier": "all buffers, chunkings and later call histories", "why_tests_cant": "ranges over all histories after completion", "anchors": ["src/bytes.rs: BytesDecoder"]}
{"id": "C17", "title": "RemainingBytesDecoder returns the concatenation of everything before EOS", "statement": "It consumes every byte offered before EOS and `finish_decoding` returns exactly their concatenation, then starts afresh; it fails (capacity overflow panic) exactly when the announced remaining distance plus buffered bytes exceeds isize::MAX.", "quantifier": "all streams, chunkings, announced distances", "why_tests_cant": "the panic needs huge announced distances that tests do not try", "anchors": ["src/bytes.rs: RemainingBytesDecoder"]}
{"id": "C18", "title": "UTF-8 codecs", "statement": "`Utf8Encoder` emits the UTF-8 bytes of the string; `Utf8Decoder` returns the string for every valid UTF-8 input under any chunking (also cutting inside a code point) and `InvalidInput` for every other byte sequence.", "quantifier": "all strings, all byte sequences, all chunkings", "why_tests_cant": "all strings and all cut points", "anchors": ["src/bytes.rs: Utf8Encoder, Utf8Decoder"]}
{"id": "C19", "title": "Tuple decoding is sequential composition", "statement": "A tuple decoder decodes its components in order, each from where the previous one stopped, returns the tuple of items, consumes the sum of their sizes, is idle iff all components are, and every arity 2..8 behaves as nested pairs.", "quantifier": "all component decoders, inputs and chunkings, arities 2 to 8", "why_tests_cant": "all components and all chunkings crossing component boundaries", "anchors": ["src/tuple.rs: TupleDecoder", "src/decode.rs: chain"]}
{"id": "C20", "title": "Tuple encoding is concatenation", "statement": "A tuple encoder's output under any buffer schedule is the concatenation of the component encodings; a rejected tuple leaves the encoder as it was.", "quantifier": "all component encoders, items and buffer schedules", "why_tests_cant": "all schedules crossing component boundaries; the last clause is false", "anchors": ["src/tuple.rs: TupleEncoder", "src/encode.rs: chain"]}
{"id": "C21", "title": "map, try_map and map_err are transparent", "statement": "`map`/`try_map` consume exactly what the inner decoder consumes and return the image of its item (or the conversion error); `map_err` changes only error kinds and never turns an error into success or vice versa; `map_from`/`try_map_from` encode exactly the encoding of the image, and a failed conversion leaves the encoder unchanged.", "quantifier": "all inner codecs, functions, states and inputs", "why_tests_cant": "quantifies over all inner codecs and functions", "anchors": ["src/combinator.rs: Map, TryMap, MapErr, MapFrom, TryMapFrom"]}
{"id": "C22", "title": "and_then decodes a dependent second item", "statement": "The second decoder is chosen from the first item and starts at the byte right after it; the total consumption is the sum; the decoder is reusable afterwards; so length-prefixed data round trips for every payload that fits the prefix.", "quantifier": "all first/second decoders, inputs, chunkings; all payloads", "why_tests_cant": "dependent lengths times all chunkings", "anchors": ["src/combinator.rs: AndThen"]}
{"id": "C23", "title": "collect gathers all items up to EOS", "statement": "On a stream that is a concatenation of item encodings followed by EOS, `collect` returns exactly those items in order and can then be reused; a stream ending inside an item is an error under every chunking; items of zero bytes do not hang it.", "quantifier": "all item sequences, all chunkings", "why_tests_cant": "unbounded item sequences; the second and third clauses are false for some schedules", "anchors": ["src/combinator.rs: Collect"]}
{"id": "C24", "title": "collectn decodes exactly n items", "statement": "`collectn(n)` returns exactly the next n items in order and consumes exactly their bytes; EOS before the n-th item is `UnexpectedEos`; n = 0 consumes nothing.", "quantifier": "all n, all item sequences, chunkings and trailing data", "why_tests_cant": "unbounded n and chunkings", "anchors": ["src/combinator.rs: CollectN"]}
{"id": "C25", "title": "length-delimited decoding consumes exactly the declared number of bytes", "statement": "Between two successful `finish_decoding` calls of a `length(n)` decoder exactly n bytes were reported consumed; the inner decoder is never shown a byte beyond them and sees EOS exactly at their end; a stream shorter than n is reported as `UnexpectedEos`.", "quantifier": "all n, inner decoders, histories, buffers and eos values", "why_tests_cant": "all histories including failed calls; the last clause is false when eos and bytes arrive in the same call", "anchors": ["src/combinator.rs: Length (Decode)"]}
{"id": "C26", "title": "length-delimited encoding emits exactly the declared number of bytes", "statement": "A `length(n)` encoder whose item encodes to exactly n bytes emits them unchanged under any buffer schedule; a longer item gives `UnexpectedEos`, a shorter one `InvalidInput`; after finishing, the encoder accepts the next item; with no item it reports Finite(0) required bytes.", "quantifier": "all n, items, inner encoders and buffer schedules", "why_tests_cant": "all schedules; the last two clauses are false", "anchors": ["src/combinator.rs: Length (Encode)"]}
{"id": "C27", "title": "max_bytes bounds decoding", "statement": "A `max_bytes(m)` decoder never reports more than m bytes consumed for one item whatever the call history, never underflows, passes through unchanged when the whole stream fits, and rejects with `InvalidInput` without touching the inner decoder when the offered bytes (plus known remaining) exceed the budget.", "quantifier": "all m, histories, buffers, eos values, inner decoders", "why_tests_cant": "all histories including set_max_bytes at arbitrary moments", "anchors": ["src/combinator.rs: MaxBytes (Decode), set_max_bytes"]}
{"id": "C28", "title": "max_bytes bounds encoding", "statement": "A `max_bytes(m)` encoder emits an item of at most m bytes unchanged under any schedule and fails with `InvalidInput` for every longer item under every schedule that reaches byte m+1; the counter restarts for each item.", "quantifier": "all m, items, schedules, item sequences", "why_tests_cant": "all schedules and item histories", "anchors": ["src/combinator.rs: MaxBytes (Encode)"]}
{"id": "C29", "title": "Optional and omittable codecs", "statement": "`omit(true)` consumes nothing and yields None, `omit(false)` behaves as the inner decoder with Some; `optional` encodes Some(x) as x and None as nothing, leaving the encoder untouched for None.", "quantifier": "all inner codecs, states, inputs", "why_tests_cant": "quantifies over all inner codecs", "anchors": ["src/combinator.rs: Omittable, Optional"]}
{"id": "C30", "title": "peekable exposes exactly the item finish_decoding will return", "statement": "After a successful decode that completes an item, `peek` returns the item that `finish_decoding` then returns, and no further bytes are consumed until it is taken. An item changed through `peek_mut` is returned as changed.", "quantifier": "all inner decoders, inputs, chunkings, later decode calls", "why_tests_cant": "all interleavings of decode/peek/finish", "anchors": ["src/combinator.rs: Peekable"]}
{"id": "C31", "title": "maybe_eos ignores EOS only between items", "statement": "With no byte of the current item consumed, an empty buffer at EOS is not an error; once at least one byte was consumed, behaviour at EOS is that of the inner decoder; the decoded items are unchanged.", "quantifier": "all inner decoders, histories and chunkings", "why_tests_cant": "depends on the consumption history", "anchors": ["src/combinator.rs: MaybeEos"]}
{"id": "C32", "title": "slice never exceeds its allowance and preserves the codec", "statement": "A sliced decoder/encoder never consumes/produces more than the allowance set by the last `set_consumable_bytes`, decreases it by exactly the reported amount, and under any sequence of allowances produces the same overall byte stream / item as the unsliced codec; two sliced decoders can therefore demultiplex any interleaving.", "quantifier": "all allowance sequences, inner codecs, inputs, interleavings", "why_tests_cant": "unbounded allowance schedules and interleavings", "anchors": ["src/combinator.rs: Slice"]}
{"id": "C33", "title": "last encodes the pending items, then the final item, then stays idle", "statement": "`last(item)` first drains what the inner encoder holds, then emits the final item once, and reports correct remaining sizes.", "quantifier": "all inner encoders, items and buffer schedules", "why_tests_cant": "all schedules; the size report is false for SizedEncode", "anchors": ["src/combinator.rs: Last"]}
{"id": "C34", "title": "Pre-encoding and encode_into_bytes", "statement": "`encode_into_bytes` returns exactly the item's encoding for every lawful encoder whether its size is known or not; `pre_encode` emits the same bytes as the inner encoder under any schedule and knows its exact remaining size.", "quantifier": "all encoders, items and schedules", "why_tests_cant": "all encoders and schedules", "anchors": ["src/combinator.rs: PreEncode", "src/encode.rs: EncodeExt::encode_into_bytes"]}
{"id": "C35", "title": "repeat encodes the concatenation of the item encodings", "statement": "Under any buffer schedule `repeat` emits the concatenation of the encodings of the iterator's items in order, makes progress on every call and then accepts a new sequence; `encode_all` succeeds on it.", "quantifier": "all item sequences, inner encoders and buffer schedules", "why_tests_cant": "unbounded sequences and schedules; encode_all fails when an item has an empty encoding", "anchors": ["src/combinator.rs: Repeat", "src/io.rs: encode_all"]}
{"id": "C36", "title": "Padding codecs", "statement": "`PaddingEncoder` fills every buffer completely with the padding byte until EOS and becomes idle exactly at EOS; `PaddingDecoder` accepts exactly the streams made only of the expected byte (any stream if none is set), under any chunking, and consumes all bytes before EOS. `set_expected_byte` in between concerns only the bytes to come.", "quantifier": "all bytes, streams, chunkings and buffer schedules", "why_tests_cant": "all streams and schedules", "anchors": ["src/padding.rs"]}
{"id": "C37", "title": "Null codecs", "statement": "The null decoder/encoder are units for tuple composition: they are always idle, consume/produce no bytes, and pairing with them changes neither bytes nor consumption.", "quantifier": "all states, inputs, partner codecs", "why_tests_cant": "quantifies over all partner codecs", "anchors": ["src/null.rs"]}
{"id": "C38", "title": "Read buffer is a FIFO queue", "statement": "For every sequence of fill / read / decode_from_read_buf operations on a read buffer, the bytes handed to consumers followed by the bytes still buffered equal the bytes delivered by the reader, in order, without loss or duplication; len + room <= capacity always; is_empty iff len is 0; nothing panics.", "quantifier": "all capacities, reader schedules, decoders and operation sequences", "why_tests_cant": "unbounded operation sequences", "anchors": ["src/io.rs: ReadBuf, decode_from_read_buf, impl Read for ReadBuf"]}
{"id": "C39", "title": "Write buffer is a FIFO queue", "statement": "For every sequence of write / encode_to_write_buf / flush operations, the bytes accepted by the writer followed by the bytes still buffered equal the bytes accepted by the buffer, in order; len + room <= capacity; is_empty iff len is 0; nothing panics.", "quantifier": "all capacities, writer schedules, encoders and operation sequences", "why_tests_cant": "unbounded operation sequences", "anchors": ["src/io.rs: WriteBuf, encode_to_write_buf, impl Write for WriteBuf"]}
{"id": "C40", "title": "fill stops for the documented reasons and reports the stream state", "statement": "`fill` returns only when the buffer is full, the reader would block, failed or reached EOS; the stream state afterwards names the reader's last answer (unchanged when nothing was read); it always terminates.", "quantifier": "all capacities and reader behaviours", "why_tests_cant": "all reader schedules", "anchors": ["src/io.rs: ReadBuf::fill"]}
{"id": "C41", "title": "flush stops for the documented reasons and reports the stream state", "statement": "`flush` returns only when the buffer is empty, or the writer would block, failed or accepted zero bytes; the state afterwards names the writer's last answer; it always terminates.", "quantifier": "all capacities and writer behaviours", "why_tests_cant": "all writer schedules", "anchors": ["src/io.rs: WriteBuf::flush"]}
{"id": "C42", "title": "decode_exact reads only the bytes of one item", "statement": "For every lawful decoder with a correct `requiring_bytes` lower bound and every reader (any short-read schedule), if the stream starts with an encoded item then `decode_exact` returns it and leaves the reader positioned right after it; it terminates.", "quantifier": "all lawful decoder compositions, streams, reader schedules", "why_tests_cant": "all short-read schedules; hangs for maybe_eos at EOS and collectn of zero-byte items", "anchors": ["src/io.rs: IoDecodeExt::decode_exact"]}
{"id": "C43", "title": "encode_all writes the complete encoding", "statement": "For every lawful finite encoder `encode_all` writes exactly the pending bytes to the writer, leaves the encoder idle and terminates; on a writer error the bytes written are a prefix. `with_item` hands one item to a new encoder: what it returns owes exactly the bytes of the item, or it reports the item's rejection.", "quantifier": "all lawful encoders, items of any size, writer behaviours", "why_tests_cant": "items larger than the internal 1024-byte buffer and all writers", "anchors": ["src/io.rs: IoEncodeExt::encode_all", "src/encode.rs: EncodeExt::with_item"]}
{"id": "C44", "title": "Buffered I/O: would_block and is_eos", "statement": "`would_block()` is true only if the last read would have blocked and there is nothing to write or the last write would have blocked; `execute_io` performs a fill then a flush; `is_eos` reports EOS of either direction.", "quantifier": "all stream behaviours and histories", "why_tests_cant": "all stream behaviours", "anchors": ["src/io.rs: BufferedIo"]}
{"id": "C45", "title": "Asynchronous fill and flush refine the synchronous ones", "statement": "`poll_fill`/`poll_flush` move the same bytes and report the same stream state as `fill`/`flush` with Pending in place of WouldBlock; `execute_io_poll` is Pending iff both directions are Pending and otherwise reports a read error first; the waker stored by `encode_to_write_buf_async` is woken when the buffer regains space.", "quantifier": "all stream behaviours, capacities and histories", "why_tests_cant": "all poll schedules; the waker clause is false for poll_flush", "anchors": ["src/io_async.rs", "src/io.rs: encode_to_write_buf_async"]}
{"id": "C46", "title": "Monolithic encoder output is schedule independent", "statement": "For every serializer and every way it cuts its writes, the concatenation of the outputs under any buffer schedule equals the serialized bytes; too little room at EOS is reported as `UnexpectedEos`.", "quantifier": "all serializers, items, buffer schedules", "why_tests_cant": "all write-call patterns times buffer schedules; the eos clause is false for the first call", "anchors": ["src/monolithic.rs: MonolithicEncoder, WriterChain"]}
{"id": "C47", "title": "Monolithic decoder sees the concatenation of all chunks", "statement": "The wrapped parser is run exactly once, at EOS, on the concatenation of all chunks; the item is its result; after an error or after finishing the decoder starts afresh.", "quantifier": "all parsers, streams and chunkings", "why_tests_cant": "all chunkings; the restart-after-error clause is false", "anchors": ["src/monolithic.rs: MonolithicDecoder", "src/json_codec.rs", "src/bincode_codec.rs"]}
{"id": "C48", "title": "OwnedSlice is a window", "statement": "`as_ref` returns exactly the elements start..end of the inner sequence, writes through `as_mut` change only that window, and it panics iff start > end or end > len.", "quantifier": "all sequences, ranges and writes", "why_tests_cant": "all ranges and contents", "anchors": ["src/slice.rs: OwnedSlice"]}
{"id": "C49", "title": "I/O errors map to error kinds", "statement": "An io error becomes `UnexpectedEos` iff its kind is UnexpectedEof and `Other` otherwise, at every place where the crate touches a reader or writer.", "quantifier": "all io error kinds, all I/O entry points", "why_tests_cant": "all entry points and failure points", "anchors": ["src/error.rs: impl From<std::io::Error> for Error", "src/io.rs"]}
{"id": "C50", "title": "decode_from_bytes accepts exactly complete inputs", "statement": "`decode_from_bytes(b)` returns x iff a single decode at EOS consumes all of b and finishes with x; trailing bytes give `InvalidInput`; hence it inverts `encode_into_bytes` for every matching codec pair.", "quantifier": "all decoders and inputs", "why_tests_cant": "all inputs", "anchors": ["src/decode.rs: DecodeExt::decode_from_bytes"]}
{"id": "C51", "title": "End-to-end pipeline delivers the same messages", "statement": "Messages encoded into a write buffer, flushed to a byte pipe under any writer schedule, filled into a read buffer under any reader schedule and decoded incrementally arrive unchanged and in order, for every matching encoder/decoder pair, all buffer capacities of at least one byte. Nothing goes round in circles: the steps in which anything gets ahead are bounded in number by the bytes and messages sent, and as long as messages are outstanding one of them is open to one of the two sides or up to the pipe.", "quantifier": "all message sequences, buffer capacities, writer/reader schedules, interleavings", "why_tests_cant": "the product of all schedules on both sides", "anchors": ["src/io.rs", "src/encode.rs", "src/decode.rs"]}
{"id": "C52", "title": "requiring_bytes is a correct lower bound for decoding", "statement": "If a decoder reports `Finite(k)` then no successful decoding from this state consumes fewer than k bytes; `Infinite` means the item ends only at EOS; `Finite(0)` on an idle decoder.", "quantifier": "all decoder compositions, states and inputs", "why_tests_cant": "all states of all compositions", "anchors": ["src/decode.rs: Decode::requiring_bytes", "src/tuple.rs", "src/combinator.rs"]}
{"id": "C53", "title": "requiring_bytes is exact for encoding", "statement": "If an encoder reports `Finite(k)`, exactly k more bytes will be emitted; `exact_requiring_bytes` always equals that number; an encoder without items reports Finite(0).", "quantifier": "all encoder compositions, states and schedules", "why_tests_cant": "all states of all compositions; false for length (no item) and last (exact size)", "anchors": ["src/encode.rs: Encode::requiring_bytes, SizedEncode", "src/combinator.rs: Length, Last"]}
{"id": "C54", "title": "Encoders never panic, never overrun and fill greedily", "statement": "For the library encoders and all compositions, every `encode` returns at most buf.len() bytes, never panics, and if the encoder is not idle afterwards and not suspended the buffer was filled completely.", "quantifier": "all encoder compositions, histories, buffers and eos values", "why_tests_cant": "all compositions and histories", "anchors": ["src/encode.rs: Encode::encode", "src/combinator.rs", "src/tuple.rs"]}
{"id": "C55", "title": "A decoder is as new after each item", "statement": "After any successful `decode` calls and a successful `finish_decoding`, a reusable decoder behaves in every respect like a freshly made one: every further sequence of calls gets the same answers, `is_idle` and `requiring_bytes` values. `bytes` and `collectn` do once they have been set up again (`set_bytes`, `set_remaining_items`).", "quantifier": "all compositions of the reusable decoders, all chunkings and contents of the first item, all later call sequences (including failing ones)", "why_tests_cant": "leftover state shows only in particular combinations of a first item, a chunking and a later call; all compositions", "anchors": ["src/decode.rs: Decode::finish_decoding", "src/combinator.rs", "src/bytes.rs", "src/tuple.rs", "src/monolithic.rs"]}
{"id": "C56", "title": "An encoder is as new after each item", "statement": "An encoder that has been used without errors and is idle again behaves in every respect like a freshly made one; and starting another item never makes a busy encoder idle.", "quantifier": "all compositions of the reusable encoders, all successful histories, all later call sequences", "why_tests_cant": "leftover state shows only for particular histories; all compositions", "anchors": ["src/encode.rs: Encode::start_encoding, Encode::is_idle", "src/combinator.rs", "src/bytes.rs", "src/tuple.rs", "src/monolithic.rs"]}
{"id": "C57", "title": "Error kinds of decoders mean what they say", "statement": "A decoder fails with `UnexpectedEos` only when it was told that the stream ends with the bytes it got, with `IncompleteDecoding` only from `finish_decoding` and only when it is not idle, and otherwise with `InvalidInput` or `DecoderTerminated`, unless a user-supplied function or parser raised the error; never with `EncoderFull`, `InconsistentState` or `Other`.", "quantifier": "all compositions of decoders (user functions and parsers arbitrary), all states, buffers and eos values", "why_tests_cant": "callers branch on the kind (retry, truncated, invalid); it must be right for every composition and every way a call can fail", "anchors": ["src/error.rs: ErrorKind", "src/decode.rs: Decode::decode, Decode::finish_decoding", "src/bytes.rs", "src/combinator.rs", "src/tuple.rs"]}
{"id": "C58", "title": "EncoderFull means busy", "statement": "An idle encoder never answers `EncoderFull` to `start_encoding`, and `encode` never fails with `EncoderFull`, also after failed calls. An encoder that holds one item at a time rejects every item while it is busy, and the rejected item has no effect at all.", "quantifier": "all compositions of encoders, all call histories, all items", "why_tests_cant": "depends on what earlier calls left inside nested encoders; all histories", "anchors": ["src/error.rs: ErrorKind::EncoderFull", "src/encode.rs: Encode::start_encoding, Encode::is_idle", "src/bytes.rs", "src/combinator.rs", "src/monolithic.rs", "src/padding.rs"]}
{"id": "C59", "title": "JSON codecs are faithful to the JSON library under any chunking", "statement": "However a JSON text is cut into chunks, `JsonDecoder` yields exactly what the JSON library reads from the whole text (trailing data included in the judgement), consumes all of it and is reusable; what the library rejects fails with `InvalidInput`, at the end of the text. `JsonEncoder` emits exactly the text the library writes under any buffer schedule and turns its errors into `InvalidInput`. If the library reads what it writes, messages round trip, also in a sequence of length-prefixed frames.", "quantifier": "all items, texts, chunkings and schedules; every reader/writer behaviour of the JSON library", "why_tests_cant": "all chunkings, schedules and items", "anchors": ["src/json_codec.rs: JsonDecoder, JsonEncoder", "src/monolithic.rs"]}
{"id": "C60", "title": "Bincode codecs are faithful to the Bincode library under any chunking", "statement": "However the bytes of one item are cut, `BincodeDecoder` yields the item and consumes exactly its bytes; bytes that are no item fail with `InvalidInput`; bytes after the item are not consumed; `decode_from_bytes` accepts exactly the encodings of one item. `BincodeEncoder` emits exactly the library's bytes under any schedule.", "quantifier": "all items, byte strings, chunkings and schedules; every reader/writer behaviour of the Bincode library", "why_tests_cant": "all chunkings and trailing data; false for trailing bytes that arrive before the last chunk", "anchors": ["src/bincode_codec.rs: BincodeDecoder, BincodeEncoder", "src/monolithic.rs"]}
{"id": "C61", "title": "The byte counts do not overflow", "statement": "`requiring_bytes` and `exact_requiring_bytes` of a tuple codec of any arity return the sum prescribed by the `ByteCount` rules, without panicking, whenever the known counts of the components add up to less than 2^64; otherwise the addition overflows. For codecs with tuples at any depth: `requiring_bytes` of a decoder does not panic in any state from which fewer than 2^64 further bytes can complete the item; that of an encoder does not while fewer than 2^64 bytes are left; and the counter of a `max_bytes` encoder does not overflow before 2^64 bytes of buffer space were offered. A peer must not be able to cause an overflow.", "quantifier": "all arities, all counts of the components; all codec compositions, states and calls", "why_tests_cant": "ranges over lists of u64 values; false for announced lengths near 2^64", "anchors": ["src/tuple.rs: TupleDecoder, TupleEncoder", "src/byte_count.rs: ByteCount::add_for_decoding, ByteCount::add_for_encoding", "src/combinator.rs: MaxBytes (Encode)"]}
{"id": "C62", "title": "Formats are unambiguous", "statement": "For every matching encoder/decoder pair, two messages that are emitted as the same bytes are the same message; if the items of the format end by themselves, no encoding is a proper prefix of another, and a stream of bytes is the output for one sequence of (non-empty) messages only.", "quantifier": "all matching pairs, all pairs of message sequences, all buffer sizes of the two senders", "why_tests_cant": "ranges over all pairs of message sequences and compositions", "anchors": ["src/encode.rs: Encode", "src/decode.rs: Decode", "src/combinator.rs", "src/tuple.rs"]}
{"id": "C63", "title": "Encoding gives back what was decoded", "statement": "If the functions a user supplies are inverses in this direction, an item delivered by a decoder, for whatever bytes, is encoded by the matching encoder to exactly the bytes that were consumed; a relay that decodes items from a stream and encodes them again emits exactly the part of the stream it consumed.", "quantifier": "all decoders built from lossless parts, all inputs (also malformed ones), all cuts of the input and buffer sizes of the output", "why_tests_cant": "ranges over all byte strings accepted by a decoder, not over encodings of chosen items", "anchors": ["src/decode.rs: Decode", "src/encode.rs: Encode, EncodeExt::encode_into_bytes", "src/combinator.rs", "src/fixnum.rs", "src/bytes.rs"]}
{"id": "C64", "title": "A decoder that still waits has taken all it was given", "statement": "When a `decode` call succeeds and the item is not complete, the whole buffer was consumed; so a loop that reads and decodes never stalls: after `decode_from_read_buf` the decoder is idle or the read buffer is empty. A sliced decoder leaves bytes over only when its allowance is used up. And where bytes are left over nevertheless, the input is malformed: the item is never completed, whatever comes next.", "quantifier": "all assembled decoders, all histories of calls (also after errors), all buffers and eos markers", "why_tests_cant": "a stall needs a particular history, buffer and nesting of combinators; it shows as a hang, not as a wrong value", "anchors": ["src/decode.rs: Decode::decode", "src/io.rs: decode_from_read_buf", "src/combinator.rs: Length, Slice, MaybeEos, Collect, CollectN, AndThen", "src/tuple.rs"]}
{"id": "C65", "title": "Codecs that behave alike can be exchanged anywhere", "statement": "If two decoders (encoders) answer every sequence of calls alike, also after errors, then so do any two compositions that differ only by exchanging one for the other; and the drivers (`decode_from_bytes`, `decode_exact`, `decode_from_read_buf`, `encode_into_bytes`, `encode_all`, `encode_to_write_buf`) give the same results. `&mut T`, `Box<T>` and tuples of any arity written as nested pairs are instances.", "quantifier": "all decoders and encoders, all compositions of combinators around them, all sequences of calls, all inputs", "why_tests_cant": "tests compare particular compositions on particular inputs; a combinator that depends on more than its part's observable behaviour (or a driver that calls in an unusual order) breaks only some", "anchors": ["src/combinator.rs", "src/tuple.rs", "src/decode.rs: impl Decode for &mut D, Box<D>, decode_from_bytes", "src/encode.rs: impl Encode for &mut E, Box<E>, encode_into_bytes", "src/io.rs"]}
{"id": "C66", "title": "Refactoring a composition keeps its behaviour", "statement": "The usual rewritings change nothing a caller can see: fusing and swapping `map`, `try_map`, `map_err` and their encoder counterparts, moving `map` through every combinator, regrouping tuples, dropping a repeated `maybe_eos`, `peekable`, equal `length` frame, and merging nested `max_bytes` or `slice` into the smaller one.", "quantifier": "all decoders and encoders (for nested slice and max_bytes of decoders: those that never claim more bytes than given), all functions, all states, all sequences of calls, also after errors", "why_tests_cant": "the equations are between behaviours over every sequence of calls; a test sees one", "anchors": ["src/combinator.rs: Map, TryMap, MapErr, MapFrom, TryMapFrom, Length, MaxBytes, Slice, Peekable, MaybeEos, Collect, CollectN, Repeat, Last, PreEncode, Omittable, Optional", "src/tuple.rs"]}
{"id": "C67", "title": "Setters and inner_mut at any moment keep codecs safe", "statement": "A caller may, between any two calls and also in the middle of an item, use the setters (`set_bytes`, `set_expected_byte`, `set_expected_bytes`, `set_max_bytes`, `set_consumable_bytes`, `set_remaining_items`, `do_omit`, `peek_mut`) and reach through `inner_mut` for any part of a composition to call it directly. Whatever they did: no later call panics or runs forever, none claims more bytes than its buffer holds, `finish_decoding` refuses an incomplete item, and an idle decoder takes nothing.", "quantifier": "all codecs assembled from the library, all sequences of calls, setters and inner accesses in any order", "why_tests_cant": "the setters interact with every intermediate state of every composition; each test fixes one order of calls", "anchors": ["src/combinator.rs: inner_mut, set_expected_bytes, set_max_bytes, set_consumable_bytes, set_remaining_items, do_omit, peek_mut", "src/bytes.rs: BytesDecoder::set_bytes, CopyableBytesDecoder::inner_mut", "src/padding.rs: set_expected_byte", "src/tuple.rs: inner_mut"]}
{"id": "C68", "title": "A BufferedIo loses, repeats and reorders nothing in either direction", "statement": "Whatever calls are made on a `BufferedIo` in whatever order (`execute_io` or `execute_io_poll`, reading and decoding, writing and encoding), and whatever the stream answers: the bytes taken from the read buffer followed by those waiting in it are exactly the bytes the stream delivered, and the bytes the stream accepted followed by those waiting in the write buffer are exactly the bytes put into it. Both buffers keep the capacities given to `new`, and with `execute_io_poll` too `is_eos` and `would_block` name the last answers of the stream.", "quantifier": "all streams (short reads and writes, errors, Pending, end of stream at any time), all buffer sizes, all sequences of calls, also after failed ones", "why_tests_cant": "the two directions share one stream whose answers interleave arbitrarily with the calls", "anchors": ["src/io.rs: BufferedIo, ReadBuf, WriteBuf", "src/io_async.rs: BufferedIo::execute_io_poll"]}
{"id": "C69", "title": "collect, collectn and repeat do not depend on the container or the iterator", "statement": "Collecting into any container (`T: Default + Extend`) with `collect` or `collectn` gives, for every sequence of calls, the same answers as collecting into a vector and then adding the items to an empty container one after the other in the order they arrived; `repeat` over any iterator that ends gives the same answers as over the list of the items it delivers.", "quantifier": "all inner codecs and states, all containers, all iterators that end, all sequences of calls, also after errors", "why_tests_cant": "tests use one container and one iterator type with a few schedules", "anchors": ["src/combinator.rs: Collect, CollectN, Repeat", "src/decode.rs: DecodeExt::collect, DecodeExt::collectn", "src/encode.rs: EncodeExt::repeat"]}
{"id": "C70", "title": "repeat over an endless iterator streams it", "statement": "If the iterator handed to `repeat` never ends and every item has an encoding of at least one byte, every `encode` call returns and fills its buffer completely, the buffers together hold the encodings one after the other without gap or repetition, the encoder never becomes idle, and announcing the end of the stream is always answered with `UnexpectedEos`. (If the items have no bytes, `encode` does not return.)", "quantifier": "all inner encoders that keep the encoder contract, all endless iterators, all sequences of buffer sizes, the end announced at any time", "why_tests_cant": "the sequence is infinite", "anchors": ["src/combinator.rs: Repeat::encode"]}
{"id": "C71", "title": "Progress reports are true and collected items are complete", "statement": "At any moment of any history of calls: `Length::remaining_bytes` is the length last set minus the bytes consumed (emitted) of the current frame and `expected_bytes` that length; `MaxBytes::consumed_bytes` is the number of bytes consumed since the last `finish_decoding` (emitted of the current item) and `max_bytes` the maximum last set; `CollectN::remaining_items` is the number of items last asked for minus those the inner decoder has delivered since; and `finish_decoding` of `collect` and `collectn` returns exactly the items the inner decoder delivered since the last one, in order, also when calls failed in between.", "quantifier": "all inner codecs, all histories of calls including setters and failed calls (for encoders: successful encode calls)", "why_tests_cant": "the counters must be right after every interleaving of chunks, setters and failures", "anchors": ["src/combinator.rs: Length, MaxBytes, Collect, CollectN and their accessors"]}
{"id": "C72", "title": "Codecs written by the user can be combined with those of the library", "statement": "If the decoders and encoders a user implements themselves keep a promise of the traits, then every codec assembled from them and the library keeps it: no panic and no overrun, idle decoders are left alone, end of stream completes or fails, items only from idle decoders, `requiring_bytes` is a lower bound, no bytes left over, as new after each item, error kinds, complete and ordered output with exact sizes, `EncoderFull` only when busy. A decoder that reads one byte after the other, such as any state machine, keeps these promises, and everything assembled with it is insensitive to chunking and read by `decode_exact` to its last byte and no further.", "quantifier": "all implementations of Decode, Encode, SizedEncode by the user that keep the promise in question, all assemblies, all histories of calls", "why_tests_cant": "the user's implementations are not known to the library", "anchors": ["src/decode.rs: Decode, DecodeExt", "src/encode.rs: Encode, SizedEncode, EncodeExt", "src/combinator.rs", "src/tuple.rs"]}
{"id": "C73", "title": "Interrupted system calls lose nothing", "statement": "If calls of the underlying writer or reader are interrupted (`ErrorKind::Interrupted`), however often, `encode_all` returns the same result, writes the same bytes and leaves the encoder in the same state as without interruptions. `decode_exact`, `fill` and `flush` either return what they return without interruptions, or fail with kind `Other`, and in this case calling them again continues to the same outcome: no byte is lost or delivered twice.", "quantifier": "all codecs, all readers and writers, all finite numbers of interruptions at any calls", "why_tests_cant": "the points of interruption are up to the operating system", "anchors": ["src/io.rs: IoEncodeExt::encode_all, IoDecodeExt::decode_exact, ReadBuf::fill, WriteBuf::flush"]}
{"id": "C74", "title": "Encoders touch only the bytes they report", "statement": "When `encode` returns `Ok(n)`, n is at most the length of the buffer, the first n bytes of the buffer are the next bytes of the encoding, whatever the buffer held before, and the bytes after them are unchanged. So `encode_all`, which uses one buffer for all rounds, `encode_into_bytes`, which returns the buffer as a whole, and `encode_to_write_buf`, which lets the encoder write behind the bytes that wait to be flushed, deliver exactly the encoding; a failed `encode_to_write_buf` leaves the waiting bytes as they are.", "quantifier": "all encoders of the crate and all their combinations, also with encoders of the user that have this property; all states, all buffer contents", "why_tests_cant": "tests look at the first n bytes of a zeroed buffer", "anchors": ["src/encode.rs: Encode::encode, EncodeExt::encode_into_bytes", "src/io.rs: IoEncodeExt::encode_all, IoEncodeExt::encode_to_write_buf", "src/bytes.rs: BytesEncoder", "src/combinator.rs: Length, Slice, Repeat, MaxBytes", "src/monolithic.rs: MonolithicEncoder", "src/tuple.rs: TupleEncoder"]}
{"id": "C75", "title": "Read and write buffers can stand in for streams", "statement": "A `ReadBuf` is itself a reader and a `WriteBuf` itself a writer, so a buffer can be put where a stream is expected. `decode_exact` on a read buffer returns the items that lie in it, one per call, and leaves the rest in the buffer. `encode_all` into a write buffer appends exactly the encoding if there is room, and otherwise fails after having filled the buffer with its first bytes. Filling a read buffer from another one, or flushing a write buffer into another one, moves as many bytes as fit, in order, without loss or duplication. The stream behind the buffer is not touched. A buffer that is merely empty (or full) is not the end of the stream.", "quantifier": "all decoders `decode_exact` can drive, all encoders that keep the contract; all readers and writers behind the buffers, all histories of calls on the buffers, all capacities", "why_tests_cant": "depends on the positions of the two cursors in both buffers, i.e. on the whole history of calls", "anchors": ["src/io.rs: impl Read for ReadBuf, impl Write for WriteBuf, ReadBuf::fill, WriteBuf::flush, IoDecodeExt::decode_exact, IoEncodeExt::encode_all"]}
{"id": "C76", "title": "Closures may capture what was decoded before", "statement": "In `head.and_then(|x| body(x).map(move |y| (x, y)))` the functions of the body use the decoded header. A captured value changes nothing else: a decoder whose functions captured `x` answers every sequence of calls as the decoder with `x` written out. The body is decoded right behind the header by functions that know this very header; header and body come out together however the stream is cut; nothing captured leaks into the next item; the contracts on panics, idleness, end of stream, error kinds and reuse hold as for any other composition; with a body that ignores the header the items are those of a tuple; nesting of `and_then` is associative as far as items are concerned. Messages written by a tuple (tag and body; tag, length and value) are received each with its own tag.", "quantifier": "all header decoders, all families of body decoders indexed by the header, all captured values, all chunkings, all sequences of messages", "why_tests_cant": "the decoder itself is a function of the data: there are as many decoders as headers, each meets all chunkings", "anchors": ["src/combinator.rs: AndThen, Map, TryMap, MapErr", "src/decode.rs: DecodeExt::and_then, DecodeExt::map"]}
{"id": "C77", "title": "Error kinds of encoders mean what they say", "statement": "Unless a user-supplied function or serializer raised the error, `encode` fails with `UnexpectedEos` only when it was told that the stream ends with the room it got, with `InvalidInput` only when a limit (`max_bytes`, `length`) is part of the encoder, and `start_encoding` fails with `EncoderFull` only; neither fails with `InconsistentState`, `Other` or a kind reserved for decoders. Consequently `encode_all` reports `UnexpectedEos` only if the writer does, and `encode_to_write_buf` only if the stream behind the buffer has ended.", "quantifier": "all compositions of encoders (user functions and serializers arbitrary), all states, items, room and eos values, all writers", "why_tests_cant": "callers branch on the kind (retry, give up, report a bug); it must be right for every composition and every way a call can fail", "anchors": ["src/error.rs: ErrorKind", "src/encode.rs: Encode::encode, Encode::start_encoding, EncodeExt::encode_into_bytes", "src/io.rs: IoEncodeExt::encode_all, encode_to_write_buf", "src/bytes.rs", "src/combinator.rs", "src/tuple.rs", "src/monolithic.rs", "src/padding.rs"]}
{"id": "C78", "title": "Reaching into a buffer", "statement": "Between any calls a caller may set the stream state of a `ReadBuf`/`WriteBuf` (`stream_state_mut`) and exchange or resize its storage (`inner_mut`) as long as the bytes in use (the first `capacity - room`) are not cut off: nothing panics, the accessors stay right, enlarging gives exactly that much room, and as long as the bytes in use are not altered none is lost, duplicated or reordered. Decoders and encoders are told about the end of the stream according to the state set last, the state set is the state reported, and `fill` and `flush` go on whatever state was set. Cutting off bytes in use makes the next call panic. `into_inner` gives back the whole storage, with the bytes still in the buffer at the end of the part in use.", "quantifier": "all operation sequences with state changes and storage replacements anywhere in between, all readers, writers, decoders and encoders", "why_tests_cant": "unbounded operation sequences with arbitrary interventions", "anchors": ["src/io.rs: ReadBuf::stream_state_mut, ReadBuf::inner_mut, WriteBuf::stream_state_mut, WriteBuf::inner_mut, fill, flush, decode_from_read_buf, encode_to_write_buf"]}
{"id": "C79", "title": "Monolithic parsers and serializers that do their own I/O", "statement": "A `monolithic_decode` that calls `read` step by step gets, in order, the bytes gathered so far and then the last chunk; `decode` reports as consumed exactly the bytes of the last chunk it was given. If it reads through `read_exact` it cannot see the cuts: the item and the outcome are those of the program run on all the bytes in one piece (so C59 and C60 are about such libraries). A parser that takes a short read for the end of the input does see the cuts. Likewise the bytes accepted from a `monolithic_encode` go in order first to the caller's buffer until it is full and then to the bytes kept for later calls; a serializer that writes until everything is written puts out the same text whatever the buffer, one that ignores short writes does not.", "quantifier": "all parser and serializer programs, byte strings, cuts and buffer sizes", "why_tests_cant": "quantifies over all programs that use the reader and the writer", "anchors": ["src/monolithic.rs: MonolithicDecoder::decode, MonolithicEncoder::encode, WriterChain", "src/json_codec.rs, src/bincode_codec.rs: monolithic_decode, monolithic_encode"]}
{"id": "C80", "title": "requiring_bytes is exact where the size of the item is known", "statement": "For a decoder whose items have a fixed size (byte arrays, numbers, `length` frames, tuples of these, with any of the combinators that keep the size fixed), `requiring_bytes` reports in every state exactly the number of bytes that the remaining calls consume before the item is complete, whatever the chunks. A decoder that takes everything up to the end of the stream reports `Infinite` until it is idle. `and_then`, `collect` and `collectN` report exactly what the part or item at work still needs.", "quantifier": "all compositions of fixed-size and to-the-end decoders, all reachable states, all chunkings", "why_tests_cant": "all compositions, states and chunkings", "anchors": ["src/decode.rs: Decode::requiring_bytes", "src/bytes.rs, src/padding.rs, src/tuple.rs, src/combinator.rs: requiring_bytes"]}
{"id": "C81", "title": "Memory asked for follows the data received", "statement": "The memory a `RemainingBytesDecoder` asks for is bounded by a constant multiple of the bytes it has received for the item. (It is so when the distance to the end is not announced; when it is announced the memory is at most twice the bytes received and announced. In a `length(n)` frame the memory is asked for once, with the first bytes, and is exactly n bytes. With `max_bytes(m)` directly inside the frame it never exceeds max(8, 2m), whatever is announced.)", "quantifier": "all histories of calls, chunkings, announced distances, frame lengths and limits", "why_tests_cant": "all histories and announcements", "anchors": ["src/bytes.rs: RemainingBytesDecoder::decode (reserve_exact)", "src/combinator.rs: Length, MaxBytes"]}
{"id": "C82", "title": "Asynchronous tasks neither stall nor spin", "statement": "When `poll_fill`, `poll_flush` or `execute_io_poll` is `Pending`, the stream holds the waker of this very poll (for both directions in the last case), so a task that goes to sleep can be woken. Two tasks, one encoding messages into a write buffer and flushing it with `poll_flush`, the other filling a read buffer with `poll_fill` and decoding, joined by a channel of any capacity of at least one byte, deliver all messages in order without any error: under every executor schedule, every pattern of short reads and writes and every pattern of spurious wake-ups, they never both sleep before everything has arrived, the number of rounds is bounded linearly by the size of the messages, and a task sleeps only when it has nothing left to do. (The receiver has to decode before it sleeps: `poll_fill` may be `Pending` with a whole message in the buffer.)", "quantifier": "all matching codec pairs, messages, buffer and channel capacities, executor schedules, short reads and writes, spurious wake-ups", "why_tests_cant": "all interleavings and schedules", "anchors": ["src/io_async.rs: poll_fill, poll_flush, execute_io_poll", "src/io.rs: encode_to_write_buf, decode_from_read_buf"]}
{"id": "C83", "title": "The inner codec of a monolithic codec may be changed between any two calls", "statement": "A caller may change the inner decoder or encoder of a `MonolithicDecoder`/`MonolithicEncoder` through `inner_mut` between any two calls. Bytes already passed to the decoder are kept; the inner decoder that is there when the end of the stream is announced gets all bytes, its item is handed out unchanged, and after a parse error another inner decoder can be put in its place and is given all bytes again. An item is written by the inner encoder that is there at the first `encode` after `start_encoding`; no later change affects the rest of its bytes. If that encoder rejects the item, the item is dropped and the next one is taken.", "quantifier": "all inner codecs, all chunkings and buffer schedules, all changes at any point", "why_tests_cant": "all interleavings of changes and calls", "anchors": ["src/monolithic.rs: MonolithicDecoder, MonolithicEncoder, inner_mut"]}
{"id": "C84", "title": "A client and a server over one BufferedIo connection each never block each other", "statement": "A client and a server each run an event loop around `BufferedIo::execute_io` over their end of one non-blocking connection. The client starts requests as soon as its encoder is idle, without waiting for answers; the server takes the next request only after its encoder is idle. However the turns are scheduled, however small the buffers (at least one byte) and the connection (at least one byte per direction), and however reads and writes are cut short: no call fails; the requests are handled in order; the client receives the answers in order and none that belongs to a request not yet handled. If both sides keep getting turns, the client has all the answers after a number of rounds bounded by the size of the messages: the two never wait for each other forever.", "quantifier": "all matching codecs that mark the end of their messages, all lists of requests, all answer functions, all buffer storages, all capacities of the connection, all schedules and splittings", "why_tests_cant": "deadlocks of full-duplex traffic with back-pressure depend on schedule, buffer sizes and message sizes together", "anchors": ["src/io.rs: BufferedIo::execute_io, ReadBuf::fill, WriteBuf::flush, IoDecodeExt::decode_from_read_buf, IoEncodeExt::encode_to_write_buf"]}
{"id": "C85", "title": "Any number of channels can share one connection", "statement": "A sender keeps one sliced encoder per channel and a receiver one sliced decoder per channel, with a codec of its own for each channel. In each turn the sender grants some channel an allowance, lets it encode into a buffer, and writes a header (channel, length) and the bytes; the receiver decodes headers, grants the channel's decoder the announced number of bytes and takes items whenever it is idle. Whatever messages are handed over on which channels, whoever has the turns and however small they are (messages may be spread over many frames with other channels in between), and however the stream is cut on its way: no call fails on either side, the receiving loop ends with every piece, each channel receives exactly its own messages in order, and a channel whose encoder is idle has all of them once the bytes written so far have arrived, no matter how far the other channels are. A channel that keeps getting turns of at least one byte gets all its messages through.", "quantifier": "all header formats that mark their end and are not empty, all families of matching codecs for the 256 channels, all sequences of messages and turns, all allowances and buffer sizes, all ways of cutting the stream", "why_tests_cant": "the state of each sliced codec must survive interruption at every byte position by arbitrary traffic of all other channels", "anchors": ["src/combinator.rs: Slice, Slice::set_consumable_bytes, Slice::is_suspended", "src/tuple.rs: TupleEncoder, TupleDecoder", "src/fixnum.rs: U8Encoder, U16beEncoder, U8Decoder, U16beDecoder", "src/io.rs: IoEncodeExt::encode_all"]}
{"id": "C86", "title": "Limits and checks only ever reject", "statement": "Taking any number of byte limits (max_bytes), checks (a try_map or try_map_from that gives back the item or an error) and conversions of errors (map_err) out of a codec, at any depth of the composition, does not change anything about calls that succeed: as long as no call fails, the codec with them and the codec without them give the same answers, consume and write the same bytes, deliver the same items and report the same idleness and required bytes. In particular the sizes of the pieces in which data arrives can decide whether a limited decoder accepts, but never what it makes of the bytes; and the item it delivers encodes back to exactly the bytes consumed if that holds without the limits.", "quantifier": "all compositions with limits, checks and conversions of errors at any depth, all sequences of successful calls, all ways of cutting the input, all readers and writers", "why_tests_cant": "a limit deep in a composition sees the data cut in ways that depend on everything around it, so no finite set of inputs shows that it never influences an accepted item", "anchors": ["src/combinator.rs: MaxBytes, TryMap, TryMapFrom, MapErr", "src/decode.rs: DecodeExt::max_bytes, DecodeExt::try_map, DecodeExt::map_err", "src/encode.rs: EncodeExt::max_bytes, EncodeExt::try_map_from", "src/io.rs: IoDecodeExt::decode_exact, IoEncodeExt::encode_all"]}
{"id": "C87", "title": "Receivers agree on what a byte stream means", "statement": "What a receiver makes of a stream of bytes - any bytes, not only those an encoder wrote - does not depend on the size of its read buffer, on how the reads are cut, on when it decodes, or on when it learns that the stream has ended. The items it gets are those one obtains by giving the decoder, for each item, all that is left of the stream in one piece. So of two receivers of the same stream, one has got what the other has got and perhaps more; when a call of one of them fails, no receiver ever gets more than that one has got; and whatever a receiver has done so far, it can go on to the next item if there is one. Receivers with limits and checks of their own need not accept the same streams, but what they accept is the same.", "quantifier": "all byte streams, all compositions of decoders, all buffer sizes, all readers with short reads, would-block and other errors, all interleavings of fill, decode and finish_decoding of any number of receivers", "why_tests_cant": "two receivers can differ in the cut of every single read of an unbounded, hostile stream; disagreement (the root of request-smuggling bugs) would show for one particular cut of one particular stream", "anchors": ["src/decode.rs: Decode, DecodeExt", "src/io.rs: IoDecodeExt::decode_from_read_buf, ReadBuf::fill", "src/combinator.rs: MaxBytes, Collect"]}
{"id": "C88", "title": "Codecs made by Default behave like constructed ones and let nothing through before they are configured", "statement": "`default()` of a codec whose constructor takes no parameter is the codec its constructor makes; with a parameter it is the codec made with the default parameter (length 0, maximum 0, no items, any padding byte, not omitted, an array of zeros), and it can be configured afterwards (`set_expected_bytes`, `set_max_bytes`, `set_remaining_items`, `set_expected_byte`, `set_bytes`, `do_omit`) to become exactly the constructed one. Until then, whatever calls are made: `Length`, `MaxBytes` and `Slice` decoders consume no byte and encoders write none, `CollectN` hands out empty collections and consumes no byte, a `BytesDecoder` refuses every call with `DecoderTerminated`, and a `Last` encoder acts as the encoder it wraps with no item left to start. Default encoders are idle and take an item.", "quantifier": "all inner codecs, all histories of calls including failed ones, all buffers and eos markers", "why_tests_cant": "a default codec that lets a byte through does so only for some inner codec and some history of calls", "anchors": ["src/combinator.rs: Default for Repeat, Omittable, Optional, Collect, Length, CollectN, MaxBytes, PreEncode, Slice, Last, Peekable, MaybeEos", "src/bytes.rs: Default for BytesEncoder, CopyableBytesDecoder, BytesDecoder, RemainingBytesDecoder, Utf8Encoder", "src/padding.rs, src/monolithic.rs, src/json_codec.rs, src/bincode_codec.rs, src/fixnum.rs: Default"]}
{"id": "C89", "title": "An asynchronous client and server over one connection neither stall nor spin", "statement": "A client and a server that run as tasks, each polling its end of a connection with `execute_io_poll` and returning `Pending` only when nothing can be done, exchange all requests and answers whatever order the executor polls them in, with any buffer sizes down to one byte, any capacity of the connection and any splitting of the bytes: no call fails, the server takes the requests in order, the client gets the answers in order, the tasks are never both asleep while answers are missing, and the number of polls is bounded by the sizes of the messages (plus one for each spurious wake-up). A task that sleeps has nothing left to do. `Ready` from `execute_io_poll` does not mean progress: it is also the answer when nothing has arrived and there is nothing to write, and when the read buffer is full and the connection has no room; in the latter case `would_block()` is false although nothing can move.", "quantifier": "all matched pairs of codecs, all lists of requests, all buffer sizes and capacities, all splittings, all orders of polls and all spurious wake-ups", "why_tests_cant": "a lost wake-up or a busy loop shows only under particular interleavings of the two tasks with particular buffer fill levels", "anchors": ["src/io_async.rs: poll_fill, poll_flush, execute_io_poll", "src/io.rs: BufferedIo::would_block, IoDecodeExt::decode_from_read_buf, IoEncodeExt::encode_to_write_buf"]}
{"id": "C90", "title": "A monolithic decoder asks for memory only for bytes it has received", "statement": "A monolithic decoder (JSON, bincode or the user's own) keeps at most twice the bytes of the longest item it has received (and at least 8 once it keeps any), not counting the last chunk of an item, which is never copied. How many bytes are announced does not matter. Inside `length(n)` the memory is at most `2 * n` bytes in every history of calls, inside `max_bytes(m)` at most `2 * m`, and a frame that announces any length costs no more than the bytes that have arrived. The memory is not given back after an item or an error; it stays with the decoder.", "quantifier": "all parsers, all sequences of items, chunks, announcements and errors, all frame lengths and limits", "why_tests_cant": "a bound on memory has to hold for every chunking, every announced length and every sequence of items of different sizes", "anchors": ["src/monolithic.rs: MonolithicDecoder::decode, MonolithicDecoder::finish_decoding", "src/combinator.rs: Length::decode, MaxBytes::decode"]}
{"id": "C91", "title": "One call does a bounded amount of work", "statement": "No peer and no input can keep one call busy for long. `fill`/`poll_fill` call the reader at most once per free byte of the buffer, `flush`/`poll_flush` call the writer at most once per buffered byte, and `execute_io` (either version) is bounded by the two buffers, whatever the stream answers. `encode_all` calls the encoder at most once more than there are bytes (once per 1024 bytes if the encoder fills its buffer) and the writer at most once per byte; `decode_exact` reads at most once more than there are bytes and calls the decoder once per read. `collect` and `collectn` call the inner decoder at most once per byte of the buffer, `repeat` calls the inner encoder at most once per free byte plus one and starts each item once; every combinator without a loop, `and_then` and the tuples of every arity call each inner decoder at most once per call.", "quantifier": "all streams (also dishonest ones for the buffers), codecs, states and buffers", "why_tests_cant": "a bound on the number of calls has to hold against every peer and every input; a test sees a finite number of them and no counters", "anchors": ["src/io.rs: ReadBuf::fill, WriteBuf::flush, BufferedIo::execute_io, IoDecodeExt::decode_exact, IoEncodeExt::encode_all", "src/io_async.rs: poll_fill, poll_flush, execute_io_poll", "src/combinator.rs: Collect::decode, CollectN::decode, Repeat::encode", "src/tuple.rs"]}
{"id": "C92", "title": "A receiver can crash at any moment and start again where the last item ended", "statement": "A receiver notes each item it takes together with the position in the stream at that moment: the bytes read so far, less those still in its read buffer. It may crash at any moment, in the middle of an item and with bytes read ahead, any number of times; each time a new decoder with a new buffer of any size starts at the noted position. The noted items are then exactly the first items of the stream, none lost and none twice, as if it had never crashed, and whatever has happened it can go on to the next one. Likewise for a sender and a receiver whose connection breaks at any moments, with both sides starting anew on each connection and the sender going on after the messages which the receiver has got: the received messages are always the beginning of the messages to be sent, and over the next connection that lasts all the others arrive.", "quantifier": "all streams of any bytes, decoders, buffer sizes, schedules, numbers and moments of crashes", "why_tests_cant": "the crash can come between any two steps of any schedule, any number of times; a test tries a few moments", "anchors": ["src/decode.rs: Decode::finish_decoding", "src/io.rs: ReadBuf::fill, ReadBuf::len, decode_from_read_buf, encode_to_write_buf, WriteBuf::flush"]}
{"id": "C93", "title": "A call that failed because of the stream can be repeated", "statement": "When a read or a write fails (with `WouldBlock`, a timeout or any other error) in the middle of `decode_exact`, `ReadBuf::fill`, `WriteBuf::flush` or (asynchronously) `poll_fill`, `poll_flush`, nothing is lost: the call reports the failure, and whoever calls it again, as often as the stream fails, gets in the end the outcome they would have got from a stream that does not fail, with decoder, buffer and stream in the same states. If the stream fails only finitely often this takes at most that many repetitions. Likewise for `encode_all`.", "quantifier": "all decoders, buffers, streams, errors, numbers and places of failures", "why_tests_cant": "failures can come at any of the reads and writes, in any number and pattern, over any decoder", "anchors": ["src/io.rs: IoDecodeExt::decode_exact, IoEncodeExt::encode_all, ReadBuf::fill, WriteBuf::flush"]}
{"id": "C94", "title": "A refused item does not spoil the next ones", "statement": "If a decoder contains checks of its items (`try_map`, UTF-8) at any depth, then refusing an item concerns this item only: `finish_decoding` returns the error of the check, exactly the bytes of the refused item have been taken, and the decoder goes on with the following messages as if the check had not been there. A sequence of messages read with `decode_exact`, or through a `ReadBuf`, gives for each of them the item or its error, in order, and leaves the reader right after them.", "quantifier": "all decoders composed with checks, all verdicts, all sequences of calls, messages and readers", "why_tests_cant": "the state left behind by a refusal shows only in later calls, and depends on where in the composition the check sits and how the bytes are divided", "anchors": ["src/combinator.rs: TryMap, Length, MaxBytes, Slice, MaybeEos, Omittable, AndThen, Peekable, Collect", "src/bytes.rs: Utf8Decoder", "src/tuple.rs: TupleDecoder", "src/io.rs: decode_exact, decode_from_read_buf"]}
{"id": "C95", "title": "A message that is refused leaves no trace in the encoder", "statement": "When `start_encoding` refuses a message (a number that does not fit, a failed `try_map_from`, or because another message is still being written), the encoder is as it was: leaving the refused messages out of a sequence of calls changes the answer to no other call, a message in progress is not disturbed, and a sender that skips over refused messages has sent exactly the encodings of the accepted ones, which the receiver gets back.", "quantifier": "all encoders composed from the library, all moments, all sequences of calls and of messages", "why_tests_cant": "the effect of a refusal shows only in later calls and depends on the moment and on where in the composition the refusal arises", "anchors": ["src/encode.rs: Encode::start_encoding", "src/combinator.rs: TryMapFrom, Repeat, Optional, Length, MaxBytes, Slice", "src/fixnum.rs", "src/bytes.rs: BytesEncoder", "src/tuple.rs: TupleEncoder"]}
{"id": "C96", "title": "Nothing behind an item influences it", "statement": "A decoder whose items end by themselves needs to see only the bytes of the item: given exactly these bytes, without any word about the end of the stream, it completes; with any other bytes behind them, and whatever is announced about the end, it gives the same item, takes the same bytes and is left in the same state. Hence no byte string that is an item is a proper prefix of another one, and whoever controls the rest of the stream cannot change an item already sent.", "quantifier": "all self-delimiting decoders composed from the library, all items, all continuations of the stream", "why_tests_cant": "the continuation is arbitrary, and what a decoder peeks at depends on the composition", "anchors": ["src/decode.rs: Decode::decode", "src/combinator.rs", "src/tuple.rs", "src/bytes.rs", "src/eos.rs"]}
{"id": "C97", "title": "The work for an item is linear in its bytes and in the number of calls", "statement": "However a decoder is composed and however its input is cut, the innermost decoders are called, in total for an item of n bytes obtained with k calls, at most a*k + b*n times, where a is the number of innermost decoders and b depends only on how deep collections are nested. Nothing is scanned again when more bytes arrive; feeding byte by byte costs no more than the calls themselves. The items of a collection must take at least one byte each (otherwise whoever chooses the count chooses the work, C91).", "quantifier": "all compositions of the decoder combinators over arbitrary innermost decoders, all inputs, all ways to cut them, all sessions of successful calls", "why_tests_cant": "a benchmark measures some inputs; a quadratic case hides in a composition or a chunking that was not measured", "anchors": ["src/combinator.rs: AndThen, Collect, CollectN, Length, MaxBytes, Slice, Peekable, MaybeEos, Omittable, Map, TryMap, MapErr", "src/tuple.rs: TupleDecoder", "src/macros.rs: bytecodec_try_decode!"]}
{"id": "C98", "title": "Which formats have items of at least one byte", "statement": "Every item of a format takes at least one byte if its first part does: numbers, byte arrays that are not empty, frames of at least one byte, everything that goes up to the end of the stream, and any of these behind maps, checks, limits, captured values, peekable, maybe_eos, and followed by anything whose first call may complete it for nothing but whose later ones may not: optional parts, counted lists, frames of any size around something that accepts an empty frame. A list of such items up to the end of the stream has at most as many items as bytes. So for instance lists of length-prefixed strings, empty ones included, can be collected without ever hanging.", "quantifier": "all compositions by these rules, all inputs and ways to cut them, all histories of items and failed calls", "why_tests_cant": "that no input makes an item for nothing is a statement about all inputs and all earlier calls; a test shows the sizes of some items", "anchors": ["src/combinator.rs: Collect, CollectN, AndThen, Length, Omittable, MaxBytes, Peekable, MaybeEos, Map, TryMap, MapErr", "src/tuple.rs: TupleDecoder", "src/bytes.rs: BytesDecoder, RemainingBytesDecoder, Utf8Decoder", "src/padding.rs: PaddingDecoder", "src/fixnum.rs"]}
{"id": "C99", "title": "The work of encoding is linear in calls, bytes and items", "statement": "For every composed encoder and every sequence of calls of start_encoding and encode, with buffers of any size and whether the calls succeed or not: the innermost encoders are called at most a times per call of encode, b times per byte written (per byte of room for a call that failed), and once for each innermost item handed over. a and b depend only on the composition (one per innermost encoder; repeat adds its share per byte). So nothing is encoded twice, and a long list costs nothing until its items are reached. No composed encoder claims to have written more than there is room for, in any state.", "quantifier": "all compositions of mapErr, mapFrom, tryMapFrom, optional, length, max_bytes, slice, last, tuples and repeat around any innermost encoders, all sequences of calls, all states", "why_tests_cant": "the number of calls made inside is not visible, and that it stays linear is a statement about all items and all ways to cut the output", "anchors": ["src/combinator.rs: MapErr, MapFrom, TryMapFrom, Optional, Repeat, Length, MaxBytes, Slice, Last", "src/tuple.rs: TupleEncoder", "src/bytes.rs: BytesEncoder", "src/monolithic.rs: MonolithicEncoder", "src/padding.rs: PaddingEncoder"]}
{"id": "C100", "title": "An error raised inside arrives with its kind and cause; only its history grows", "statement": "When a decoder or encoder given by the user, or a closure of try_map or try_map_from, or a reader or writer, fails somewhere inside a composition, the error that the outermost call returns has the same kind and the same cause, and its history starts with the history it had; the library only appends the places it passes. No combinator swallows such an error, replaces it by one of its own, or goes on after it: were the part to panic in its place, the outermost call would panic exactly there, with everything else, states included, unchanged. The only other errors are those of the library's own assertions, and map_err changes an error exactly as its closure says. Nothing but the errors themselves depends on causes and histories.", "quantifier": "all compositions of the decoder and encoder combinators, decode_from_bytes, encode_into_bytes, decode_exact and encode_all, all parts and closures, all causes, all states, inputs, readers and writers", "why_tests_cant": "there is a track! or an early return on each of about a hundred paths, and each test follows one; that none of them loses an error for any part is a statement about all compositions", "anchors": ["src/error.rs: Error, From<std::io::Error>", "src/combinator.rs: all track! calls", "src/tuple.rs: impl_decode, impl_encode", "src/macros.rs: bytecodec_try_decode, bytecodec_try_encode", "src/io.rs: decode_exact, encode_all", "src/encode.rs: encode_into_bytes", "src/decode.rs: decode_from_bytes"]}
{"id": "C101", "title": "Buffered I/O reports every failure of its stream, with the I/O error as the cause", "statement": "ReadBuf::fill, WriteBuf::flush, BufferedIo::execute_io and their poll variants return an error exactly when the stream failed during the call (for the blocking ones, WouldBlock is no failure). The I/O error is the cause of that error, UnexpectedEof has the kind UnexpectedEos and every other one Other, and the state of the buffer concerned is Error. No failure goes unreported. decode_from_read_buf, encode_to_write_buf and encode_to_write_buf_async return the errors of the decoder or encoder with kind and cause unchanged and add none of their own.", "quantifier": "all streams (any sequence of results of reads and writes, any I/O errors), all states of the buffers, all compositions of decoders and encoders", "why_tests_cant": "a stream may fail after any number of reads and writes, in either direction or in both, and the cause may be any I/O error; a test fixes one such history", "anchors": ["src/io.rs: ReadBuf::fill, WriteBuf::flush, BufferedIo::execute_io, decode_from_read_buf, encode_to_write_buf, encode_to_write_buf_async", "src/io_async.rs: poll_fill, poll_flush, execute_io_poll", "src/error.rs: From<std::io::Error>"]}
{"id": "C102", "title": "Every error of a codec says what refused and where", "statement": "Every error returned by the codecs for byte strings, text, padding and numbers is raised by an assertion of the library, and its history begins at that assertion. The errors of JsonDecoder, JsonEncoder, BincodeDecoder, BincodeEncoder and of monolithic codecs are those assertions or the refusal of the parser or serializer. A refusal of serde is returned as InvalidInput with serde's error as the cause; a refusal of a MonolithicDecode/MonolithicEncode implementation keeps its kind and cause. No refusal is swallowed or replaced. All this holds as well when the codecs are parts of a program built with the combinators.", "quantifier": "all states of the codecs, all inputs and items, all parsers and serializers with any errors, all compositions", "why_tests_cant": "a parser may refuse any input with any error at any depth of a composition, and an assertion may fail in any reachable or unreachable state; a test fixes one of them", "anchors": ["src/bytes.rs", "src/padding.rs", "src/null.rs", "src/fixnum.rs: impl_decode!, impl_encode!, encode_item", "src/monolithic.rs: MonolithicDecoder, MonolithicEncoder", "src/json_codec.rs", "src/bincode_codec.rs"]}
{"id": "C103", "title": "A relay passes on every message, translated and in order", "statement": "A program that decodes messages of one format from one connection, translates each of them and encodes the results in another format to another connection, taking a message from its decoder only when its encoder is idle, passes on exactly the messages of the sender: the receiver gets the translations of the first messages sent, in order and nothing else, whatever the buffer sizes and the schedules of the two connections; passing on never fails; and from every situation everything the sender has handed over can still arrive, with buffers of one byte. The same holds for any number of such relays in a row, each with formats, translation and buffers of its own.", "quantifier": "all pairs of matching encoders and decoders on each side, all translations, all interleavings of the programs and connections, all short reads and writes, errors and would-block answers, all buffer sizes, any number of relays", "why_tests_cant": "back-pressure from one connection meets every possible state of the other one; the interleavings and buffer sizes are unbounded, and the number of hops is arbitrary", "anchors": ["src/io.rs: ReadBuf::fill, WriteBuf::flush, IoDecodeExt::decode_from_read_buf, IoEncodeExt::encode_to_write_buf", "src/decode.rs: Decode::finish_decoding, Decode::is_idle", "src/encode.rs: Encode::start_encoding, Encode::is_idle"]}
{"id": "C104", "title": "The format can change from message to message", "statement": "In a protocol in which each message decides in which format the next one is, a listener that takes a message, replaces its decoder by a new one for the next format and keeps its read buffer hears exactly the messages that were said, in order, each in its own format: no byte of a later message is lost with the old decoder or taken by it, no call fails before the conversation is over, from every situation the whole conversation can still be heard with a buffer of one byte, what follows in the stream is left in the buffer or unread, and there is no endless detour: the calls that get ahead are bounded in number by the length of the stream and of the conversation, and one of them is always possible once the stream delivers. A speaker that uses a new encoder for each message writes the encodings one after the other.", "quantifier": "all protocols (any set of states, any format for each state in which the end of a message is recognised from the bytes alone, any dependence of the next state on the message), all conversations, whatever follows them in the stream, all schedules of short reads, errors and would-block answers, all buffer sizes", "why_tests_cant": "bytes of any number of later messages, in any formats, may be in the buffer when the decoder is replaced; the protocols, the conversations and the ways of cutting the stream are unbounded", "anchors": ["src/io.rs: ReadBuf::fill, IoDecodeExt::decode_from_read_buf, IoEncodeExt::encode_all", "src/decode.rs: Decode::decode, Decode::finish_decoding, Decode::is_idle", "src/encode.rs: Encode::start_encoding"]}
