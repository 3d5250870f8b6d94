{
 "C01": [
  "proved",
  ""
 ],
 "C02": [
  "proved",
  ""
 ],
 "C03": [
  "partial",
  "Some(Equal) iff equal fails at Unknown (C03_equal_fails); everything else holds for all values."
 ],
 "C04": [
  "proved",
  ""
 ],
 "C05": [
  "proved",
  "Panics left out: Vec capacity overflow, see C17. Tuples of arity 3-8 are nested pairs (C19)."
 ],
 "C06": [
  "partial",
  "Fails for the monolithic decoder (C06_monolithic_fails); holds for all others."
 ],
 "C09": [
  "partial",
  "Fails for length (detected one call late; C09_at_last: never later than the first call without bytes) and for collect (drops a truncated item when the end of the stream arrives in an empty buffer)."
 ],
 "C10": [
  "partial",
  "The call is always rejected; tuples, and_then, length, max_bytes and maybe_eos change state on rejection (witnesses)."
 ],
 "C07": [
  "partial",
  "Proved for every streamable decoder (Spec/Streamable.lean). Fails for collectn/collect over a decoder that reads to the end of the stream and for monolithic parsers that leave trailing bytes (witnesses)."
 ],
 "C08": [
  "partial",
  "Proved for every streamable decoder without max_bytes and collect, and with collect when the end of the stream does not arrive in an empty chunk. Both restrictions are needed (witnesses). With max_bytes, what is accepted is still the same for every way of cutting (C86_schedules)."
 ],
 "C38": [
  "proved",
  "The storage may be anything; readers obey the contract of Read (never claim more than offered). stream_state_mut, inner_mut and into_inner are the subject of C78."
 ],
 "C39": [
  "proved",
  "Writers obey the contract of Write. stream_state_mut, inner_mut and into_inner are the subject of C78."
 ],
 "C40": [
  "proved",
  "Termination is the totality of the model function."
 ],
 "C41": [
  "proved",
  "Termination is the totality of the model function."
 ],
 "C44": [
  "proved",
  ""
 ],
 "C45": [
  "partial",
  "The waker claim fails for poll_flush (C45_poll_flush_wakes_nobody_fails); it holds for the synchronous flush (C45_flush_wakes_partial). The rest is proved."
 ],
 "C48": [
  "proved",
  ""
 ],
 "C49": [
  "proved",
  "fill, flush, decode_exact and encode_all over any reader and writer."
 ],
 "C14": [
  "proved",
  "For every schedule of output buffers and every history of accepted items."
 ],
 "C20": [
  "partial",
  "Concatenation and sizes for every pair of encoders satisfying the contract; arities 3-8 are nested pairs. The rejection clause is false of the code: C20_rejected_fails, C20_busy_fails."
 ],
 "C26": [
  "partial",
  "Exact, longer and shorter items for every schedule. The reuse clause and the no-item clause are false of the code: C26_reuse_fails, C26_empty_fails."
 ],
 "C28": [
  "partial",
  "The counter is not reset after a rejected item: C28_restart_fails. Everything else is proved for all schedules."
 ],
 "C33": [
  "partial",
  "exact_requiring_bytes ignores the pending last item: C33_exact_fails; it is right afterwards (C33_exact_partial)."
 ],
 "C34": [
  "proved",
  "For every encoder satisfying the contract and items of less than 2^63 bytes."
 ],
 "C35": [
  "partial",
  "Complete for items of at least one byte. With empty encodings among them (C35_any_items) everything is still emitted in order, but a call may emit nothing although the encoder is not done, which encode_all takes for a failure: C35_empty_item_fails."
 ],
 "C43": [
  "proved",
  "For every encoder satisfying the contract and every writer that never claims to have written more than it was given."
 ],
 "C46": [
  "partial",
  "Output schedule independent. The UnexpectedEos clause holds except in the first encode call of an item: C46_too_short_fails."
 ],
 "C53": [
  "partial",
  "Length is an exception (C53_length_fails), Last too (C33_exact_fails, C33_requiring). Slice: C53_slice."
 ],
 "C54": [
  "partial",
  "No panic and no overrun for all encoders; greediness in every reachable state for all but `last` (C54_last_fails; C54_greedy_last says when) and `repeat` of empty items (C35_empty_item_fails); `slice` until it is suspended (C54_greedy_slice)."
 ],
 "C11": [
  "proved",
  "For all 24 fixed-width codecs of the table NumberCodec (Spec/Numbers.lean)."
 ],
 "C12": [
  "proved",
  ""
 ],
 "C13": [
  "proved",
  ""
 ],
 "C15": [
  "proved",
  "For every run of a receiver on every stream."
 ],
 "C18": [
  "proved",
  "Utf8Decoder over any inner decoder; C18_inner gives the default inner decoder. Memory limit 2^63 bytes."
 ],
 "C19": [
  "proved",
  "C19_chunked for the streamable decoders of C08; C19_sequential for every pair of decoders that do not over-report."
 ],
 "C22": [
  "proved",
  "C22_chunked for the streamable decoders of C08; C22_sequential for all. Payload: every matching pair."
 ],
 "C23": [
  "partial",
  "Items, reuse and round trip proved. A truncated item is dropped silently when the end of the stream arrives in an empty chunk (C23_truncated_fails) and then put in front of the next stream (C23_leaks_fails), zero-byte items hang (C23_empty_items_fails)."
 ],
 "C24": [
  "partial",
  "For items of at least one byte. Zero-byte items are not decoded from an empty buffer: C24_empty_items_fails."
 ],
 "C50": [
  "proved",
  "The inverse for every matching pair and encodings of less than 2^63 bytes."
 ],
 "C16": [
  "proved",
  ""
 ],
 "C17": [
  "proved",
  "The capacity panic for absurd announced lengths is characterised exactly (C17_capacity)."
 ],
 "C21": [
  "proved",
  ""
 ],
 "C29": [
  "proved",
  ""
 ],
 "C36": [
  "proved",
  ""
 ],
 "C37": [
  "proved",
  "The unit laws are for callers that do not call decode/encode on an idle codec."
 ],
 "C47": [
  "partial",
  "After a failed parse the gathered bytes stay in the buffer and are parsed again with the next item (C47_error_fails)."
 ],
 "C25": [
  "partial",
  "Exact for every history without a failed finish_decoding. Not quite true otherwise: a failed finish_decoding of the inner decoder starts the count again (C25_failed_finish_fails), and a too short stream is sometimes noticed one call late (C25_short_fails); it never yields an item (C25_short_never)."
 ],
 "C27": [
  "partial",
  "A failed finish_decoding starts the count again (C27_failed_finish_fails); without one the bound holds for every history, including set_max_bytes."
 ],
 "C30": [
  "proved",
  ""
 ],
 "C31": [
  "partial",
  "A failed finish_decoding in the middle of an item makes the decoder forget that the item has begun (C31_failed_finish_fails)."
 ],
 "C32": [
  "proved",
  ""
 ],
 "C51": [
  "proved",
  "All interleavings of start, encode_to_write_buf, flush (any honest writer that does not answer 0), close, fill (any honest reader over the pipe), decode_from_read_buf and finish_decoding, for every pair in Spec.Matched. Formats that are not self-delimiting or whose decoder is one-shot carry one message. The read buffer and the total encoding are below 2^64 bytes. C51_advances and C51_bounded: which calls get ahead in every situation, and how many of them there are at most, so that both sides receive everything if they make these calls and the pipe does its part."
 ],
 "C42": [
  "partial",
  "Every Exactable decoder, every reader that delivers in pieces of any size, any number of messages; nothing read is lost for any decoder when an item is returned. A sliced decoder with enough allowance behaves like its inner decoder (C42_slice); with less, bytes are read and lost (C42_slice_suspended, C42_slice_fails). The code hangs for collectn of zero-byte items, maybe_eos at the end of the stream and collect over the one-shot bytes decoder (witnesses)."
 ],
 "C52": [
  "partial",
  "Lower bound in every reachable state of every decoder assembled without collect; idle decoders ask for nothing except length. The code deviates for collect and length (witnesses)."
 ],
 "C55": [
  "partial",
  "Proved for Spec.Reusable (C55_asNew_partial), for bytes and collectn once re-armed, for slice up to what is left of its allowance (C55_slice), for a frame of collected items (C55_frame), and for collect on its own if the call that announces the end of the stream brings bytes (C55_collect_partial); otherwise collect leaks a truncated item into the next stream (C23_leaks_fails). A monolithic decoder must not be fed while it holds an item (C55_holding_fails)."
 ],
 "C56": [
  "proved",
  "Spec.ReusableEnc leaves out length (one-shot, C26_reuse_fails), last (one item by design) and slice (its allowance is not part of an item)."
 ],
 "C57": [
  "partial",
  "Proved without length (C57_kinds_partial); with length, UnexpectedEos may also mean the end of the slice, and decode of a peekable decoder around it can fail with IncompleteDecoding (C57_peekable_fails)."
 ],
 "C58": [
  "partial",
  "length is left out (C26_reuse_fails); pre_encode only as long as no call has failed (C58_preEncode_fails); tuples are not unaffected by a rejected item (C20_busy_fails)."
 ],
 "C59": [
  "proved",
  "serde_json is a parameter: arbitrary functions for what it reads and writes."
 ],
 "C60": [
  "partial",
  "bincode is a parameter. Bytes after the item that come before the last chunk are swallowed (C60_trailing_partial says exactly which, C60_trailing_fails)."
 ],
 "C61": [
  "partial",
  "The sums are exact below 2^64 and panic exactly otherwise, for whole codecs too (C61_decoder_whole_partial, C61_encoder_whole, C61_exact_nested; the u64 counter of max_bytes: C61_max_bytes). A peer can cause the overflow by announcing a frame of nearly 2^64 bytes (C61_announced_fails): no continuation that fits into the address space completes that frame. `collect` is left out (C52_collect_fails)."
 ],
 "C62": [
  "proved",
  "For every pair in Spec.Matched. Messages without bytes cannot be told from no messages (hence the conditions)."
 ],
 "C63": [
  "partial",
  "One call: every decoder in Spec.Lossless. Pieces and relays with max_bytes and checks: C86_lossless, C86_relay. Pieces and relays: without max_bytes and collect (collect if the end of the stream does not arrive in an empty piece, as in C08); for collect otherwise false (C63_collect_fails)."
 ],
 "C64": [
  "partial",
  "All decoders but slice (own theorem C64_slice), with length frames around decoders without frames and maybe_eos; false for length around maybe_eos and length around a longer length (C64_frame_maybe_eos_fails, C64_frame_frame_fails); but a decoder that leaves bytes over while it waits, also in these cases, never completes its item, whatever comes next (C64_stall_is_final_partial, every streamable decoder without collect)."
 ],
 "C65": [
  "proved",
  "Every combinator of the crate, including `and_then`."
 ],
 "C66": [
  "proved",
  "For every state of the wrapped codec; nested `length` only for equal lengths (unequal ones behave differently, see the example in Props/Laws.lean)."
 ],
 "C67": [
  "partial",
  "Every codec and setter. `collect`: the inner decoder must still take at least one byte per item after the adjustment (otherwise `C67_collect_inner_mut_hang`); idle: without monolithic decoders (C06); end of stream: without `length`, `slice`, `maybe_eos` (C09). For `inner_mut` of monolithic codecs see C83."
 ],
 "C68": [
  "proved",
  ""
 ],
 "C69": [
  "proved",
  ""
 ],
 "C70": [
  "proved",
  ""
 ],
 "C71": [
  "proved",
  ""
 ],
 "C72": [
  "proved",
  "under the restrictions of the individual claims (C06, C09, C52, C55, C56, C64), which are about combinators of the library"
 ],
 "C73": [
  "proved",
  ""
 ],
 "C74": [
  "proved",
  ""
 ],
 "C75": [
  "partial",
  "the last sentence is false of the code: an empty read buffer and a full write buffer both answer Ok(0), which is taken for the end of the stream (C75_drained_is_eos_fails, C75_full_is_eos_fails); the rest is proved in full"
 ],
 "C76": [
  "proved",
  "the families of C05, C06, C07, C08, C09, C10, C42, C52, C55, C57, C62, C63, C64, C65 also have captured values as a constructor"
 ],
 "C77": [
  "partial",
  "Holds without length and pre_encode (C77_kinds_partial, C77_full_partial with C58 for EncoderFull); with them the code reports UnexpectedEos in the middle of the stream, start_encoding fails with UnexpectedEos or InconsistentState (C77_length_fails, C77_preEncode_fails); C77_length and C77_any say what remains true."
 ],
 "C78": [
  "proved",
  "A mutable reference is the assignment through it (Model/BufAccess.lean)."
 ],
 "C79": [
  "proved",
  "Programs are state machines that see each answer (Model/Program.lean); std's `Chain`, `read_exact` and the slices are modelled. The two `_fails` theorems show that the restriction to read_exact and to writing until done is needed; it concerns the user's program, not the library."
 ],
 "C80": [
  "proved",
  "Complements C52, which only says that the report is never too high."
 ],
 "C81": [
  "partial",
  "As stated the claim is false when a distance is announced: C81_announced_fails (one byte makes the decoder reserve any n < 2^63 bytes, if the sender chooses the frame length) and C81_max_outside_fails (also with max_bytes around the frame). Proved: the bounds in parentheses. The capacity of std's Vec is modelled (Model/Memory.lean) and C81_same_decoder ties this decoder to the one of the other claims."
 ],
 "C82": [
  "proved",
  "The two task programs and the channel are part of the specification (Spec/Tasks.lean); what they call is the model of the library. A round of a task is not interrupted (one thread). The same pairs and bounds as in C51."
 ],
 "C83": [
  "proved",
  ""
 ],
 "C84": [
  "proved",
  ""
 ],
 "C85": [
  "proved",
  "Messages take at least one byte. The receiving loop repeats a decode call until it makes no progress, so codecs that notice the end of an item only with the next call are covered."
 ],
 "C86": [
  "proved",
  "One-sided: what is accepted with the limits is the same without them. What is rejected is the subject of C27 and C31."
 ],
 "C87": [
  "partial",
  "The code deviates (deviations of C08): receivers through max_bytes or collect disagree depending on their buffers (C87_maxBytes_fails, C87_collect_fails). Proved for every streamable decoder without these two; with max_bytes and checks, that receivers agree on what they accept (C87_limits_agree)."
 ],
 "C88": [
  "proved",
  "Derived defaults are modelled field by field (Model/Default.lean). The default `BytesDecoder` reports idle although it has no item, as it does after its last item (C88_bytes, C16)."
 ],
 "C89": [
  "proved",
  "The programs of the two tasks and the connection (like `tokio::io::duplex`) are part of the specification (Spec/Duplex.lean); rounds are atomic (one executor thread). C89_ready_idle and C89_back_pressure show why the tasks do not simply loop on `Ready` or `would_block()`."
 ],
 "C90": [
  "proved",
  "The growth of `Vec` is std's (capacity doubled, at least 8). Memory the parser itself asks for is not counted. C90_received and C90_max_bytes are for callers that take an item before they pass further bytes, as every function of the crate does; C90_length holds for all histories."
 ],
 "C91": [
  "partial",
  "False for `collectn` over items that take no bytes: one call with one byte in the buffer decodes as many empty items as the count says (C91_collectn_empty_items_fails), so a count taken from the wire decides how long the call takes. Bounded by the count (C91_collectn). `collect` over such items never returns (C64). `decode_exact` is for decoders that complete or fail at the end of the stream. Calls are counted, not machine steps."
 ],
 "C92": [
  "partial",
  "As C87: proved for every reusable streamable decoder without `max_bytes` and `collect`, whose results depend on how the stream is cut (C87_maxBytes_fails, C87_collect_fails); with `max_bytes` and checks, that the recorded items are the first ones of the stream (C92_limits). The theorems on reconnecting hold for every pair in Spec.Matched that is self-delimiting and reusable."
 ],
 "C93": [
  "partial",
  "Proved for decode_exact with any decoder and reader, and for fill and flush. encode_all loses the up to 1024 bytes it has taken from the encoder and not yet written, and a repeated call may return Ok without them (C93_encode_all_fails); C93_encode_all_partial says exactly what is lost. C93_message_partial is about Exactable decoders, as C42."
 ],
 "C94": [
  "partial",
  "Proved for every sequence of calls, for checks inside map, try_map, map_err, omit, length, max_bytes, slice, maybe_eos, the body of and_then and the last component of a tuple of any arity. False for the other components of a tuple, where the next item is mixed from two messages (C94_tuple_mixes_fails), and where decode itself completes items (peekable, collect, collectn, the header of and_then): there the refused bytes are never taken from the buffer (C94_stuck_fails)."
 ],
 "C95": [
  "partial",
  "Proved at any moment for all encoders of the library except tuples and pre_encode. Tuples (every arity): proved while idle if only the first component refuses. pre_encode: proved where the encoder inside it refuses the message itself, and for senders if it can write every message it accepts (C95_preEncode_send_partial). False for tuples of which a later component refuses (C20_rejected_fails, C20_busy_fails) and for pre_encode around an encoder that fails after accepting (C58_preEncode_fails), deviations 7 and 21."
 ],
 "C96": [
  "partial",
  "C96_suffices_partial for every Exactable decoder; independence of what is behind (and prefix-freeness) without max_bytes, which rejects by what is offered (C08_maxBytes_fails), and, with collect inside frames, for at least one byte behind. False for collectn over items without bytes (C96_collectN_fails)."
 ],
 "C97": [
  "proved",
  "C97_item for one item obtained by the caller's loop, C97_session for any sequence of calls that succeed. The counting decoder is composed with the model's own combinators from innermost decoders that count their calls. Work inside the combinators themselves is a bounded number of steps per call of an inner decoder (their loops are covered: C91). Calls that fail and setters are not covered; tuples of more than two components are nested pairs (C66)."
 ],
 "C98": [
  "proved",
  "C98_productive is the rule book (Weighed) against Productive, the assumption of C05, C64, C67, C91 and C97 about collect; C98_at_least_a_byte and C98_items_le_bytes say what it means for callers. C98_empty_frame_fails: the rule about empty frames is needed. Not covered by the rules: slice and monolithic (their items may complete on a call that takes nothing)."
 ],
 "C99": [
  "proved",
  "C99_session bounds the work after any sequence of calls, from what the caller sees; C99_same says that the counting version is indistinguishable from the encoder; C99_bytes, C99_texts_numbers, C99_pre_encode, C99_null_padding and C99_monolithic discharge the hypothesis about innermost encoders (pre_encode counts as innermost, its start does all the work of its item at once)."
 ],
 "C100": [
  "proved",
  "Model/Tracked.lean models errors with cause and history and every track! of the combinators, tuples (all arities), Utf8Decoder, BytesEncoder and whole-item helpers. C100_same/_same_encoder: with kinds only this is the rest of the model. C100_decoder/_encoder: every error surfaces an origin. C100_not_swallowed*: errors of parts end the outermost call. C100_try_map/_try_map_from/_utf8/_map_err/_reader_reported/_writer_reported: nor are errors of closures, readers and writers replaced. The text of an assertion is represented by its place. The behaviour of the trackable crate is assumed as documented."
 ],
 "C101": [
  "partial",
  "Proved for fill, flush, execute_io, poll_fill, poll_flush and the functions between codecs and buffers. execute_io_poll makes both calls before it looks at either result, so when both directions fail in one call the error of the write direction is dropped (C101_execute_io_poll_fails); C101_execute_io_poll_partial: the first failure is reported, there are at most two, and after two both buffers are in the state Error. The statement for execute_io_poll excludes calls that panic. C101_same/_same_async: with kinds only this is the rest of the model."
 ],
 "C102": [
  "proved",
  "All states, not only reachable ones. C102_same/_same_encoder: with kinds only this is the rest of the model. C102_program carries the statement through every combinator (TracedDec of C100). serde_json and bincode are parameters."
 ],
 "C103": [
  "proved",
  "Each side is a pipe of C51 with any Matched pair. That the receiver gets nothing else is stated while the pipes are open and the formats have a message with a non-empty encoding (as C51_nothing_invented). C103_delivers: the system can always be run so that everything arrives. C103_bounded/_chain_bounded: the steps that get ahead are bounded in number. Total encodings and read buffers are below 2^64 bytes."
 ],
 "C104": [
  "proved",
  "For any Matched pair in each state whose messages are recognised from the bytes alone (delim). A new encoder and decoder is used for each message, so the decoders need not be usable again. C104_delivers: from every situation everything can still be heard. C104_advances and C104_bounded: which calls get ahead in every situation, and how many of them there are at most, so a listener that makes these calls hears everything once the stream delivers. Stream and read buffer are below 2^64 bytes."
 ]
}