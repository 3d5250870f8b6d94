{
 "claims": [
  {
   "property": "C01",
   "status": "proved",
   "theorems": [
    "Bytecodec.Props.C01_table",
    "Bytecodec.Props.C01_monoid",
    "Bytecodec.Props.C01_overflow"
   ],
   "note": ""
  },
  {
   "property": "C02",
   "status": "proved",
   "theorems": [
    "Bytecodec.Props.C02_table",
    "Bytecodec.Props.C02_monoid",
    "Bytecodec.Props.C02_overflow"
   ],
   "note": ""
  },
  {
   "property": "C03",
   "status": "partial",
   "theorems": [
    "Bytecodec.Props.C03_queries",
    "Bytecodec.Props.C03_order",
    "Bytecodec.Props.C03_dual_transitive",
    "Bytecodec.Props.C03_equal_partial",
    "Bytecodec.Props.C03_equal_fails"
   ],
   "note": "Some(Equal) iff equal fails at Unknown (C03_equal_fails); everything else holds for all values."
  },
  {
   "property": "C04",
   "status": "proved",
   "theorems": [
    "Bytecodec.Props.C04_reached",
    "Bytecodec.Props.C04_distance",
    "Bytecodec.Props.C04_back",
    "Bytecodec.Props.C04_back_add",
    "Bytecodec.Props.C04_back_not_reached"
   ],
   "note": ""
  },
  {
   "property": "C05",
   "status": "proved",
   "theorems": [
    "Bytecodec.Props.C05_safe",
    "Bytecodec.Props.C05_collect_empty_items_hang"
   ],
   "note": "Panics left out: Vec capacity overflow, see C17. Tuples of arity 3-8 are nested pairs (C19)."
  },
  {
   "property": "C06",
   "status": "partial",
   "theorems": [
    "Bytecodec.Props.C06_idle_partial",
    "Bytecodec.Props.C06_monolithic_fails"
   ],
   "note": "Fails for the monolithic decoder (C06_monolithic_fails); holds for all others."
  },
  {
   "property": "C07",
   "status": "partial",
   "theorems": [
    "Bytecodec.Props.C07_chunking_partial",
    "Bytecodec.Props.C07_collectN_remaining_fails",
    "Bytecodec.Props.C07_monolithic_trailing_fails"
   ],
   "note": "Proved for every streamable decoder (Spec/Streamable.lean). Fails for collectn/collect over a decoder that reads to the end of the stream and for monolithic parsers that leave trailing bytes (witnesses)."
  },
  {
   "property": "C08",
   "status": "partial",
   "theorems": [
    "Bytecodec.Props.C08_join_partial",
    "Bytecodec.Props.C08_any_two_schedules_partial",
    "Bytecodec.Props.C08_join_collect_partial",
    "Bytecodec.Props.C08_join_collect_any_partial",
    "Bytecodec.Props.C08_maxBytes_fails",
    "Bytecodec.Props.C08_collect_fails"
   ],
   "note": "Proved for every streamable decoder without max_bytes and collect, and with collect when the end of the stream does not arrive in an empty chunk. Both restrictions are needed (witnesses). With max_bytes, what is accepted is still the same for every way of cutting (C86_schedules)."
  },
  {
   "property": "C09",
   "status": "partial",
   "theorems": [
    "Bytecodec.Props.C09_eos_partial",
    "Bytecodec.Props.C09_at_last",
    "Bytecodec.Props.C09_length_fails",
    "Bytecodec.Props.C09_collect_drops",
    "Bytecodec.Props.C09_slice_maybeEos_by_design"
   ],
   "note": "Fails for length (detected one call late; C09_at_last: never later than the first call without bytes) and for collect (drops a truncated item when the end of the stream arrives in an empty buffer)."
  },
  {
   "property": "C10",
   "status": "partial",
   "theorems": [
    "Bytecodec.Props.C10_rejected",
    "Bytecodec.Props.C10_bytes_missing",
    "Bytecodec.Props.C10_kind_partial",
    "Bytecodec.Props.C10_unchanged_partial",
    "Bytecodec.Props.C10_pair_loses_item",
    "Bytecodec.Props.C10_andThen_loses_item",
    "Bytecodec.Props.C10_maxBytes_forgets",
    "Bytecodec.Props.C10_maybeEos_forgets"
   ],
   "note": "The call is always rejected; tuples, and_then, length, max_bytes and maybe_eos change state on rejection (witnesses)."
  },
  {
   "property": "C11",
   "status": "proved",
   "theorems": [
    "Bytecodec.Props.C11_round_trip"
   ],
   "note": "For all 24 fixed-width codecs of the table NumberCodec (Spec/Numbers.lean)."
  },
  {
   "property": "C12",
   "status": "proved",
   "theorems": [
    "Bytecodec.Props.C12_layout",
    "Bytecodec.Props.C12_digits",
    "Bytecodec.Props.C12_reading"
   ],
   "note": ""
  },
  {
   "property": "C13",
   "status": "proved",
   "theorems": [
    "Bytecodec.Props.C13_bounds",
    "Bytecodec.Props.C13_accepted",
    "Bytecodec.Props.C13_rejected",
    "Bytecodec.Props.C13_decoded"
   ],
   "note": ""
  },
  {
   "property": "C14",
   "status": "proved",
   "theorems": [
    "Bytecodec.Props.C14_schedule",
    "Bytecodec.Props.C14_busy"
   ],
   "note": "For every schedule of output buffers and every history of accepted items."
  },
  {
   "property": "C15",
   "status": "proved",
   "theorems": [
    "Bytecodec.Props.C15_frames",
    "Bytecodec.Props.C15_truncated"
   ],
   "note": "For every run of a receiver on every stream."
  },
  {
   "property": "C16",
   "status": "proved",
   "theorems": [
    "Bytecodec.Props.C16_item",
    "Bytecodec.Props.C16_terminated",
    "Bytecodec.Props.C16_setBytes"
   ],
   "note": ""
  },
  {
   "property": "C17",
   "status": "proved",
   "theorems": [
    "Bytecodec.Props.C17_concat",
    "Bytecodec.Props.C17_takes_all",
    "Bytecodec.Props.C17_capacity"
   ],
   "note": "The capacity panic for absurd announced lengths is characterised exactly (C17_capacity)."
  },
  {
   "property": "C18",
   "status": "proved",
   "theorems": [
    "Bytecodec.Props.C18_encoder",
    "Bytecodec.Props.C18_valid",
    "Bytecodec.Props.C18_invalid",
    "Bytecodec.Props.C18_inner"
   ],
   "note": "Utf8Decoder over any inner decoder; C18_inner gives the default inner decoder. Memory limit 2^63 bytes."
  },
  {
   "property": "C19",
   "status": "proved",
   "theorems": [
    "Bytecodec.Props.C19_sequential",
    "Bytecodec.Props.C19_chunked",
    "Bytecodec.Props.C19_idle",
    "Bytecodec.Props.C19_tuple_nested"
   ],
   "note": "C19_chunked for the streamable decoders of C08; C19_sequential for every pair of decoders that do not over-report."
  },
  {
   "property": "C20",
   "status": "partial",
   "theorems": [
    "Bytecodec.Props.C20_concatenation",
    "Bytecodec.Props.C20_sized",
    "Bytecodec.Props.C20_nested",
    "Bytecodec.Props.C20_sized_nested",
    "Bytecodec.Props.C20_rejected_partial",
    "Bytecodec.Props.C20_rejected_fails",
    "Bytecodec.Props.C20_busy_fails"
   ],
   "note": "Concatenation and sizes for every pair of encoders satisfying the contract; arities 3-8 are nested pairs. The rejection clause is false of the code: C20_rejected_fails, C20_busy_fails."
  },
  {
   "property": "C21",
   "status": "proved",
   "theorems": [
    "Bytecodec.Props.C21_map",
    "Bytecodec.Props.C21_tryMap",
    "Bytecodec.Props.C21_mapErr",
    "Bytecodec.Props.C21_onErr",
    "Bytecodec.Props.C21_mapErr_encoder",
    "Bytecodec.Props.C21_mapFrom",
    "Bytecodec.Props.C21_tryMapFrom",
    "Bytecodec.Props.C21_tryMapFrom_rejected",
    "Bytecodec.Props.C21_emits",
    "Bytecodec.Props.C21_sizes"
   ],
   "note": ""
  },
  {
   "property": "C22",
   "status": "proved",
   "theorems": [
    "Bytecodec.Props.C22_sequential",
    "Bytecodec.Props.C22_chunked",
    "Bytecodec.Props.C22_length_prefixed"
   ],
   "note": "C22_chunked for the streamable decoders of C08; C22_sequential for all. Payload: every matching pair."
  },
  {
   "property": "C23",
   "status": "partial",
   "theorems": [
    "Bytecodec.Props.C23_leaks_fails",
    "Bytecodec.Props.C23_items",
    "Bytecodec.Props.C23_round_trip",
    "Bytecodec.Props.C23_truncated_partial",
    "Bytecodec.Props.C23_truncated_fails",
    "Bytecodec.Props.C23_empty_items_fails"
   ],
   "note": "Items, reuse and round trip proved. A truncated item is dropped silently when the end of the stream arrives in an empty chunk (C23_truncated_fails) and then put in front of the next stream (C23_leaks_fails), zero-byte items hang (C23_empty_items_fails)."
  },
  {
   "property": "C24",
   "status": "partial",
   "theorems": [
    "Bytecodec.Props.C24_items_partial",
    "Bytecodec.Props.C24_zero",
    "Bytecodec.Props.C24_too_few",
    "Bytecodec.Props.C24_empty_items_fails"
   ],
   "note": "For items of at least one byte. Zero-byte items are not decoded from an empty buffer: C24_empty_items_fails."
  },
  {
   "property": "C25",
   "status": "partial",
   "theorems": [
    "Bytecodec.Props.C25_exact_partial",
    "Bytecodec.Props.C25_incomplete",
    "Bytecodec.Props.C25_view",
    "Bytecodec.Props.C25_short_partial",
    "Bytecodec.Props.C25_short_never",
    "Bytecodec.Props.C25_set",
    "Bytecodec.Props.C25_short_fails",
    "Bytecodec.Props.C25_failed_finish_fails"
   ],
   "note": "Exact for every history without a failed finish_decoding. Not quite true otherwise: a failed finish_decoding of the inner decoder starts the count again (C25_failed_finish_fails), and a too short stream is sometimes noticed one call late (C25_short_fails); it never yields an item (C25_short_never)."
  },
  {
   "property": "C26",
   "status": "partial",
   "theorems": [
    "Bytecodec.Props.C26_exact",
    "Bytecodec.Props.C26_longer",
    "Bytecodec.Props.C26_shorter",
    "Bytecodec.Props.C26_reuse_fails",
    "Bytecodec.Props.C26_empty_fails"
   ],
   "note": "Exact, longer and shorter items for every schedule. The reuse clause and the no-item clause are false of the code: C26_reuse_fails, C26_empty_fails."
  },
  {
   "property": "C27",
   "status": "partial",
   "theorems": [
    "Bytecodec.Props.C27_bound_partial",
    "Bytecodec.Props.C27_noCrash",
    "Bytecodec.Props.C27_pass",
    "Bytecodec.Props.C27_reject",
    "Bytecodec.Props.C27_finish",
    "Bytecodec.Props.C27_setMax",
    "Bytecodec.Props.C27_failed_finish_fails"
   ],
   "note": "A failed finish_decoding starts the count again (C27_failed_finish_fails); without one the bound holds for every history, including set_max_bytes."
  },
  {
   "property": "C28",
   "status": "partial",
   "theorems": [
    "Bytecodec.Props.C28_fits_partial",
    "Bytecodec.Props.C28_longer",
    "Bytecodec.Props.C28_restart_fails"
   ],
   "note": "The counter is not reset after a rejected item: C28_restart_fails. Everything else is proved for all schedules."
  },
  {
   "property": "C29",
   "status": "proved",
   "theorems": [
    "Bytecodec.Props.C29_present",
    "Bytecodec.Props.C29_omitted",
    "Bytecodec.Props.C29_some",
    "Bytecodec.Props.C29_none",
    "Bytecodec.Props.C29_emits"
   ],
   "note": ""
  },
  {
   "property": "C30",
   "status": "proved",
   "theorems": [
    "Bytecodec.Props.C30_peek",
    "Bytecodec.Props.C30_idle",
    "Bytecodec.Props.C30_stable",
    "Bytecodec.Props.C30_decode",
    "Bytecodec.Props.C30_items",
    "Bytecodec.Props.C30_peek_mut"
   ],
   "note": ""
  },
  {
   "property": "C31",
   "status": "partial",
   "theorems": [
    "Bytecodec.Props.C31_between",
    "Bytecodec.Props.C31_otherwise_partial",
    "Bytecodec.Props.C31_finish",
    "Bytecodec.Props.C31_items",
    "Bytecodec.Props.C31_failed_finish_fails"
   ],
   "note": "A failed finish_decoding in the middle of an item makes the decoder forget that the item has begun (C31_failed_finish_fails)."
  },
  {
   "property": "C32",
   "status": "proved",
   "theorems": [
    "Bytecodec.Props.C32_allowance_decoder",
    "Bytecodec.Props.C32_allowance_encoder",
    "Bytecodec.Props.C32_suspended_decoder",
    "Bytecodec.Props.C32_suspended_encoder",
    "Bytecodec.Props.C32_decoder",
    "Bytecodec.Props.C32_inOrder",
    "Bytecodec.Props.C32_ready",
    "Bytecodec.Props.C32_going",
    "Bytecodec.Props.C32_complete",
    "Bytecodec.Props.C32_encoder",
    "Bytecodec.Props.C32_stream",
    "Bytecodec.Props.C32_encode",
    "Bytecodec.Props.C32_encode_all",
    "Bytecodec.Props.C32_start",
    "Bytecodec.Props.C32_demux",
    "Bytecodec.Props.C32_demux_inOrder",
    "Bytecodec.Props.C32_demux_going",
    "Bytecodec.Props.C32_demux_complete"
   ],
   "note": ""
  },
  {
   "property": "C33",
   "status": "partial",
   "theorems": [
    "Bytecodec.Props.C33_last",
    "Bytecodec.Props.C33_stays_idle",
    "Bytecodec.Props.C33_requiring",
    "Bytecodec.Props.C33_exact_partial",
    "Bytecodec.Props.C33_exact_fails"
   ],
   "note": "exact_requiring_bytes ignores the pending last item: C33_exact_fails; it is right afterwards (C33_exact_partial)."
  },
  {
   "property": "C34",
   "status": "proved",
   "theorems": [
    "Bytecodec.Props.C34_pre_encode",
    "Bytecodec.Props.C34_encode_into_bytes",
    "Bytecodec.Props.C34_complete",
    "Bytecodec.Props.C34_infinite"
   ],
   "note": "For every encoder satisfying the contract and items of less than 2^63 bytes."
  },
  {
   "property": "C35",
   "status": "partial",
   "theorems": [
    "Bytecodec.Props.C35_concatenation_partial",
    "Bytecodec.Props.C35_assembled_partial",
    "Bytecodec.Props.C35_any_items",
    "Bytecodec.Props.C35_empty_item_fails"
   ],
   "note": "Complete for items of at least one byte. With empty encodings among them (C35_any_items) everything is still emitted in order, but a call may emit nothing although the encoder is not done, which encode_all takes for a failure: C35_empty_item_fails."
  },
  {
   "property": "C36",
   "status": "proved",
   "theorems": [
    "Bytecodec.Props.C36_encoder",
    "Bytecodec.Props.C36_busy",
    "Bytecodec.Props.C36_accepted",
    "Bytecodec.Props.C36_set",
    "Bytecodec.Props.C36_rejected"
   ],
   "note": ""
  },
  {
   "property": "C37",
   "status": "proved",
   "theorems": [
    "Bytecodec.Props.C37_decoder",
    "Bytecodec.Props.C37_encoder",
    "Bytecodec.Props.C37_unit_decoder",
    "Bytecodec.Props.C37_unit_encoder"
   ],
   "note": "The unit laws are for callers that do not call decode/encode on an idle codec."
  },
  {
   "property": "C38",
   "status": "proved",
   "theorems": [
    "Bytecodec.Props.C38_fifo",
    "Bytecodec.Props.C38_accessors",
    "Bytecodec.Props.C38_no_panic",
    "Bytecodec.Props.C38_read",
    "Bytecodec.Props.C38_decode"
   ],
   "note": "The storage may be anything; readers obey the contract of Read (never claim more than offered). stream_state_mut, inner_mut and into_inner are the subject of C78."
  },
  {
   "property": "C39",
   "status": "proved",
   "theorems": [
    "Bytecodec.Props.C39_fifo",
    "Bytecodec.Props.C39_accessors",
    "Bytecodec.Props.C39_no_panic",
    "Bytecodec.Props.C39_write",
    "Bytecodec.Props.C39_encode"
   ],
   "note": "Writers obey the contract of Write. stream_state_mut, inner_mut and into_inner are the subject of C78."
  },
  {
   "property": "C40",
   "status": "proved",
   "theorems": [
    "Bytecodec.Props.C40_fill",
    "Bytecodec.Props.C40_full",
    "Bytecodec.Props.C40_content"
   ],
   "note": "Termination is the totality of the model function."
  },
  {
   "property": "C41",
   "status": "proved",
   "theorems": [
    "Bytecodec.Props.C41_flush",
    "Bytecodec.Props.C41_empty"
   ],
   "note": "Termination is the totality of the model function."
  },
  {
   "property": "C42",
   "status": "partial",
   "theorems": [
    "Bytecodec.Props.C42_exact_partial",
    "Bytecodec.Props.C42_pieces",
    "Bytecodec.Props.C42_messages_partial",
    "Bytecodec.Props.C42_nothing_lost",
    "Bytecodec.Props.C42_slice",
    "Bytecodec.Props.C42_slice_suspended",
    "Bytecodec.Props.C42_slice_fails",
    "Bytecodec.Props.C42_collectN_hangs_fails",
    "Bytecodec.Props.C42_maybeEos_hangs_fails",
    "Bytecodec.Props.C42_collect_hangs_fails"
   ],
   "note": "Every Exactable decoder, every reader that delivers in pieces of any size, any number of messages; nothing read is lost for any decoder when an item is returned. A sliced decoder with enough allowance behaves like its inner decoder (C42_slice); with less, bytes are read and lost (C42_slice_suspended, C42_slice_fails). The code hangs for collectn of zero-byte items, maybe_eos at the end of the stream and collect over the one-shot bytes decoder (witnesses)."
  },
  {
   "property": "C43",
   "status": "proved",
   "theorems": [
    "Bytecodec.Props.C43_encode_all",
    "Bytecodec.Props.C43_assembled",
    "Bytecodec.Props.C43_with_item",
    "Bytecodec.Props.C43_with_item_start",
    "Bytecodec.Props.C43_vec",
    "Bytecodec.Props.C43_complete",
    "Bytecodec.Props.C43_stalled"
   ],
   "note": "For every encoder satisfying the contract and every writer that never claims to have written more than it was given."
  },
  {
   "property": "C44",
   "status": "proved",
   "theorems": [
    "Bytecodec.Props.C44_execute",
    "Bytecodec.Props.C44_would_block",
    "Bytecodec.Props.C44_is_eos"
   ],
   "note": ""
  },
  {
   "property": "C45",
   "status": "partial",
   "theorems": [
    "Bytecodec.Props.C45_poll_fill",
    "Bytecodec.Props.C45_poll_flush",
    "Bytecodec.Props.C45_pending",
    "Bytecodec.Props.C45_errors",
    "Bytecodec.Props.C45_encode_async",
    "Bytecodec.Props.C45_flush_wakes_partial",
    "Bytecodec.Props.C45_waker_kept",
    "Bytecodec.Props.C45_async_then_flush",
    "Bytecodec.Props.C45_poll_flush_wakes_nobody_fails"
   ],
   "note": "The waker claim fails for poll_flush (C45_poll_flush_wakes_nobody_fails); it holds for the synchronous flush (C45_flush_wakes_partial). The rest is proved."
  },
  {
   "property": "C46",
   "status": "partial",
   "theorems": [
    "Bytecodec.Props.C46_schedule_partial",
    "Bytecodec.Props.C46_too_short_partial",
    "Bytecodec.Props.C46_too_short_fails",
    "Bytecodec.Props.C46_serializer_error"
   ],
   "note": "Output schedule independent. The UnexpectedEos clause holds except in the first encode call of an item: C46_too_short_fails."
  },
  {
   "property": "C47",
   "status": "partial",
   "theorems": [
    "Bytecodec.Props.C47_once_partial",
    "Bytecodec.Props.C47_concat",
    "Bytecodec.Props.C47_error_fails"
   ],
   "note": "After a failed parse the gathered bytes stay in the buffer and are parsed again with the next item (C47_error_fails)."
  },
  {
   "property": "C48",
   "status": "proved",
   "theorems": [
    "Bytecodec.Props.C48_window",
    "Bytecodec.Props.C48_write",
    "Bytecodec.Props.C48_write_ok"
   ],
   "note": ""
  },
  {
   "property": "C49",
   "status": "proved",
   "theorems": [
    "Bytecodec.Props.C49_kinds",
    "Bytecodec.Props.C49_fill",
    "Bytecodec.Props.C49_flush",
    "Bytecodec.Props.C49_decode_exact",
    "Bytecodec.Props.C49_encode_all"
   ],
   "note": "fill, flush, decode_exact and encode_all over any reader and writer."
  },
  {
   "property": "C50",
   "status": "proved",
   "theorems": [
    "Bytecodec.Props.C50_exact",
    "Bytecodec.Props.C50_trailing",
    "Bytecodec.Props.C50_inverse"
   ],
   "note": "The inverse for every matching pair and encodings of less than 2^63 bytes."
  },
  {
   "property": "C51",
   "status": "proved",
   "theorems": [
    "Bytecodec.Props.C51_bounded",
    "Bytecodec.Props.C51_advances",
    "Bytecodec.Props.C51_in_order",
    "Bytecodec.Props.C51_nothing_invented",
    "Bytecodec.Props.C51_no_errors",
    "Bytecodec.Props.C51_delivers"
   ],
   "note": "All interleavings of start, encode_to_write_buf, flush (any honest writer that does not answer 0), close, fill (any honest reader over the pipe), decode_from_read_buf and finish_decoding, for every pair in Spec.Matched. Formats that are not self-delimiting or whose decoder is one-shot carry one message. The read buffer and the total encoding are below 2^64 bytes. C51_advances and C51_bounded: which calls get ahead in every situation, and how many of them there are at most, so that both sides receive everything if they make these calls and the pipe does its part."
  },
  {
   "property": "C52",
   "status": "partial",
   "theorems": [
    "Bytecodec.Props.C52_lower_bound_partial",
    "Bytecodec.Props.C52_collect_fails",
    "Bytecodec.Props.C52_collect_eos",
    "Bytecodec.Props.C52_idle_partial",
    "Bytecodec.Props.C52_length_fails",
    "Bytecodec.Props.C52_length_exact"
   ],
   "note": "Lower bound in every reachable state of every decoder assembled without collect; idle decoders ask for nothing except length. The code deviates for collect and length (witnesses)."
  },
  {
   "property": "C53",
   "status": "partial",
   "theorems": [
    "Bytecodec.Props.C53_requiring_partial",
    "Bytecodec.Props.C53_exact",
    "Bytecodec.Props.C53_length_fails",
    "Bytecodec.Props.C53_slice",
    "Bytecodec.Props.C53_slice_exact"
   ],
   "note": "Length is an exception (C53_length_fails), Last too (C33_exact_fails, C33_requiring). Slice: C53_slice."
  },
  {
   "property": "C54",
   "status": "partial",
   "theorems": [
    "Bytecodec.Props.C54_contract",
    "Bytecodec.Props.C54_safe",
    "Bytecodec.Props.C54_no_panic",
    "Bytecodec.Props.C54_greedy_partial",
    "Bytecodec.Props.C54_greedy_always",
    "Bytecodec.Props.C54_greedy_slice",
    "Bytecodec.Props.C54_greedy_last",
    "Bytecodec.Props.C54_last_fails"
   ],
   "note": "No panic and no overrun for all encoders; greediness in every reachable state for all but `last` (C54_last_fails; C54_greedy_last says when) and `repeat` of empty items (C35_empty_item_fails); `slice` until it is suspended (C54_greedy_slice)."
  },
  {
   "property": "C55",
   "status": "partial",
   "theorems": [
    "Bytecodec.Props.C55_asNew_partial",
    "Bytecodec.Props.C55_rearmed",
    "Bytecodec.Props.C55_collect_partial",
    "Bytecodec.Props.C55_frame",
    "Bytecodec.Props.C55_slice",
    "Bytecodec.Props.C55_holding_fails"
   ],
   "note": "Proved for Spec.Reusable (C55_asNew_partial), for bytes and collectn once re-armed, for slice up to what is left of its allowance (C55_slice), for a frame of collected items (C55_frame), and for collect on its own if the call that announces the end of the stream brings bytes (C55_collect_partial); otherwise collect leaks a truncated item into the next stream (C23_leaks_fails). A monolithic decoder must not be fed while it holds an item (C55_holding_fails)."
  },
  {
   "property": "C56",
   "status": "proved",
   "theorems": [
    "Bytecodec.Props.C56_asNew",
    "Bytecodec.Props.C56_busy"
   ],
   "note": "Spec.ReusableEnc leaves out length (one-shot, C26_reuse_fails), last (one item by design) and slice (its allowance is not part of an item)."
  },
  {
   "property": "C57",
   "status": "partial",
   "theorems": [
    "Bytecodec.Props.C57_kinds_partial",
    "Bytecodec.Props.C57_length",
    "Bytecodec.Props.C57_peekable_fails"
   ],
   "note": "Proved without length (C57_kinds_partial); with length, UnexpectedEos may also mean the end of the slice, and decode of a peekable decoder around it can fail with IncompleteDecoding (C57_peekable_fails)."
  },
  {
   "property": "C58",
   "status": "partial",
   "theorems": [
    "Bytecodec.Props.C58_idle_partial",
    "Bytecodec.Props.C58_busy",
    "Bytecodec.Props.C58_busy_optional",
    "Bytecodec.Props.C58_preEncode_fails"
   ],
   "note": "length is left out (C26_reuse_fails); pre_encode only as long as no call has failed (C58_preEncode_fails); tuples are not unaffected by a rejected item (C20_busy_fails)."
  },
  {
   "property": "C59",
   "status": "proved",
   "theorems": [
    "Bytecodec.Props.C59_decode",
    "Bytecodec.Props.C59_invalid",
    "Bytecodec.Props.C59_encode",
    "Bytecodec.Props.C59_round_trip",
    "Bytecodec.Props.C59_frames"
   ],
   "note": "serde_json is a parameter: arbitrary functions for what it reads and writes."
  },
  {
   "property": "C60",
   "status": "partial",
   "theorems": [
    "Bytecodec.Props.C60_exact",
    "Bytecodec.Props.C60_trailing_partial",
    "Bytecodec.Props.C60_from_bytes",
    "Bytecodec.Props.C60_encode",
    "Bytecodec.Props.C60_trailing_fails"
   ],
   "note": "bincode is a parameter. Bytes after the item that come before the last chunk are swallowed (C60_trailing_partial says exactly which, C60_trailing_fails)."
  },
  {
   "property": "C61",
   "status": "partial",
   "theorems": [
    "Bytecodec.Props.C61_decoder",
    "Bytecodec.Props.C61_encoder",
    "Bytecodec.Props.C61_exact",
    "Bytecodec.Props.C61_decoder_overflow",
    "Bytecodec.Props.C61_encoder_overflow",
    "Bytecodec.Props.C61_dictionaries",
    "Bytecodec.Props.C61_dictionaries_encoder",
    "Bytecodec.Props.C61_dictionaries_exact",
    "Bytecodec.Props.C61_announced_fails",
    "Bytecodec.Props.C61_decoder_sum",
    "Bytecodec.Props.C61_decoder_whole_partial",
    "Bytecodec.Props.C61_encoder_whole",
    "Bytecodec.Props.C61_exact_nested",
    "Bytecodec.Props.C61_max_bytes",
    "Bytecodec.Props.C61_max_bytes_fails"
   ],
   "note": "The sums are exact below 2^64 and panic exactly otherwise, for whole codecs too (C61_decoder_whole_partial, C61_encoder_whole, C61_exact_nested; the u64 counter of max_bytes: C61_max_bytes). A peer can cause the overflow by announcing a frame of nearly 2^64 bytes (C61_announced_fails): no continuation that fits into the address space completes that frame. `collect` is left out (C52_collect_fails)."
  },
  {
   "property": "C62",
   "status": "proved",
   "theorems": [
    "Bytecodec.Props.C62_injective",
    "Bytecodec.Props.C62_prefix",
    "Bytecodec.Props.C62_stream"
   ],
   "note": "For every pair in Spec.Matched. Messages without bytes cannot be told from no messages (hence the conditions)."
  },
  {
   "property": "C63",
   "status": "partial",
   "theorems": [
    "Bytecodec.Props.C63_one_call",
    "Bytecodec.Props.C63_chunked_partial",
    "Bytecodec.Props.C63_chunked_collect_partial",
    "Bytecodec.Props.C63_relay_partial",
    "Bytecodec.Props.C63_numbers",
    "Bytecodec.Props.C63_length_prefixed",
    "Bytecodec.Props.C63_collect_fails"
   ],
   "note": "One call: every decoder in Spec.Lossless. Pieces and relays with max_bytes and checks: C86_lossless, C86_relay. Pieces and relays: without max_bytes and collect (collect if the end of the stream does not arrive in an empty piece, as in C08); for collect otherwise false (C63_collect_fails)."
  },
  {
   "property": "C64",
   "status": "partial",
   "theorems": [
    "Bytecodec.Props.C64_greedy_partial",
    "Bytecodec.Props.C64_slice",
    "Bytecodec.Props.C64_read_buf_partial",
    "Bytecodec.Props.C64_stall_is_final_partial",
    "Bytecodec.Props.C64_frame_maybe_eos_fails",
    "Bytecodec.Props.C64_frame_frame_fails"
   ],
   "note": "All decoders but slice (own theorem C64_slice), with length frames around decoders without frames and maybe_eos; false for length around maybe_eos and length around a longer length (C64_frame_maybe_eos_fails, C64_frame_frame_fails); but a decoder that leaves bytes over while it waits, also in these cases, never completes its item, whatever comes next (C64_stall_is_final_partial, every streamable decoder without collect)."
  },
  {
   "property": "C65",
   "status": "proved",
   "theorems": [
    "Bytecodec.Props.C65_substitution",
    "Bytecodec.Props.C65_substitution_encoder",
    "Bytecodec.Props.C65_tuple3",
    "Bytecodec.Props.C65_tuple3_encoder",
    "Bytecodec.Props.C65_tuple4",
    "Bytecodec.Props.C65_tuple4_encoder",
    "Bytecodec.Props.C65_tuple5",
    "Bytecodec.Props.C65_tuple5_encoder",
    "Bytecodec.Props.C65_tuple6",
    "Bytecodec.Props.C65_tuple6_encoder",
    "Bytecodec.Props.C65_tuple7",
    "Bytecodec.Props.C65_tuple7_encoder",
    "Bytecodec.Props.C65_tuple8",
    "Bytecodec.Props.C65_tuple8_encoder",
    "Bytecodec.Props.C65_pointer",
    "Bytecodec.Props.C65_pointer_encoder",
    "Bytecodec.Props.C65_pointer_sized",
    "Bytecodec.Props.C65_pointer_tagged",
    "Bytecodec.Props.C65_pointer_try_tagged",
    "Bytecodec.Props.C65_decode_from_bytes",
    "Bytecodec.Props.C65_decode_exact",
    "Bytecodec.Props.C65_decode_from_read_buf",
    "Bytecodec.Props.C65_encode_all",
    "Bytecodec.Props.C65_encode_into_bytes",
    "Bytecodec.Props.C65_encode_to_write_buf",
    "Bytecodec.Props.C65_equivalence"
   ],
   "note": "Every combinator of the crate, including `and_then`."
  },
  {
   "property": "C66",
   "status": "proved",
   "theorems": [
    "Bytecodec.Props.C66_map_id",
    "Bytecodec.Props.C66_map_map",
    "Bytecodec.Props.C66_try_map_ok",
    "Bytecodec.Props.C66_try_map_try_map",
    "Bytecodec.Props.C66_utf8",
    "Bytecodec.Props.C66_map_err_id",
    "Bytecodec.Props.C66_map_err_map_err",
    "Bytecodec.Props.C66_map_err_map",
    "Bytecodec.Props.C66_map_err_try_map",
    "Bytecodec.Props.C66_omit_map",
    "Bytecodec.Props.C66_length_map",
    "Bytecodec.Props.C66_max_bytes_map",
    "Bytecodec.Props.C66_slice_map",
    "Bytecodec.Props.C66_maybe_eos_map",
    "Bytecodec.Props.C66_peekable_map",
    "Bytecodec.Props.C66_collect_map",
    "Bytecodec.Props.C66_collectn_map",
    "Bytecodec.Props.C66_pair_map",
    "Bytecodec.Props.C66_and_then_map_header",
    "Bytecodec.Props.C66_and_then_map_body",
    "Bytecodec.Props.C66_pair_map_err",
    "Bytecodec.Props.C66_slice_map_err",
    "Bytecodec.Props.C66_maybe_eos_map_err",
    "Bytecodec.Props.C66_pair_assoc",
    "Bytecodec.Props.C66_max_bytes_max_bytes",
    "Bytecodec.Props.C66_slice_slice",
    "Bytecodec.Props.C66_length_length",
    "Bytecodec.Props.C66_maybe_eos_maybe_eos",
    "Bytecodec.Props.C66_peekable_peekable",
    "Bytecodec.Props.C66_omit_false",
    "Bytecodec.Props.C66_map_from_id",
    "Bytecodec.Props.C66_map_from_map_from",
    "Bytecodec.Props.C66_try_map_from_ok",
    "Bytecodec.Props.C66_try_map_from_try_map_from",
    "Bytecodec.Props.C66_map_err_id_encoder",
    "Bytecodec.Props.C66_map_err_map_err_encoder",
    "Bytecodec.Props.C66_map_err_map_from",
    "Bytecodec.Props.C66_map_err_try_map_from",
    "Bytecodec.Props.C66_optional_map_from",
    "Bytecodec.Props.C66_length_map_from",
    "Bytecodec.Props.C66_max_bytes_map_from",
    "Bytecodec.Props.C66_slice_map_from",
    "Bytecodec.Props.C66_pre_encode_map_from",
    "Bytecodec.Props.C66_last_map_from",
    "Bytecodec.Props.C66_repeat_map_from",
    "Bytecodec.Props.C66_pair_map_from",
    "Bytecodec.Props.C66_pair_map_err_encoder",
    "Bytecodec.Props.C66_slice_map_err_encoder",
    "Bytecodec.Props.C66_pair_assoc_encoder",
    "Bytecodec.Props.C66_max_bytes_max_bytes_encoder",
    "Bytecodec.Props.C66_slice_slice_encoder"
   ],
   "note": "For every state of the wrapped codec; nested `length` only for equal lengths (unequal ones behave differently, see the example in Props/Laws.lean)."
  },
  {
   "property": "C67",
   "status": "partial",
   "theorems": [
    "Bytecodec.Props.C67_safe",
    "Bytecodec.Props.C67_rejected",
    "Bytecodec.Props.C67_bytes_missing",
    "Bytecodec.Props.C67_idle_partial",
    "Bytecodec.Props.C67_eos_partial",
    "Bytecodec.Props.C67_collect_inner_mut_hang",
    "Bytecodec.Props.C67_safe_encoder",
    "Bytecodec.Props.C67_no_panic_encoder"
   ],
   "note": "Every codec and setter. `collect`: the inner decoder must still take at least one byte per item after the adjustment (otherwise `C67_collect_inner_mut_hang`); idle: without monolithic decoders (C06); end of stream: without `length`, `slice`, `maybe_eos` (C09). For `inner_mut` of monolithic codecs see C83."
  },
  {
   "property": "C68",
   "status": "proved",
   "theorems": [
    "Bytecodec.Props.C68_lossless",
    "Bytecodec.Props.C68_lossless_async",
    "Bytecodec.Props.C68_sizes",
    "Bytecodec.Props.C68_new",
    "Bytecodec.Props.C68_async_state"
   ],
   "note": ""
  },
  {
   "property": "C69",
   "status": "proved",
   "theorems": [
    "Bytecodec.Props.C69_collect",
    "Bytecodec.Props.C69_collectn",
    "Bytecodec.Props.C69_collect_vec",
    "Bytecodec.Props.C69_repeat"
   ],
   "note": ""
  },
  {
   "property": "C70",
   "status": "proved",
   "theorems": [
    "Bytecodec.Props.C70_endless",
    "Bytecodec.Props.C70_eos",
    "Bytecodec.Props.C70_empty_items_hang"
   ],
   "note": ""
  },
  {
   "property": "C71",
   "status": "proved",
   "theorems": [
    "Bytecodec.Props.C71_length",
    "Bytecodec.Props.C71_length_encoder",
    "Bytecodec.Props.C71_max_bytes",
    "Bytecodec.Props.C71_max_bytes_encoder",
    "Bytecodec.Props.C71_collect",
    "Bytecodec.Props.C71_collectn",
    "Bytecodec.Props.C71_noting"
   ],
   "note": ""
  },
  {
   "property": "C72",
   "status": "proved",
   "theorems": [
    "Bytecodec.Props.C72_safe",
    "Bytecodec.Props.C72_idle",
    "Bytecodec.Props.C72_eos",
    "Bytecodec.Props.C72_at_last",
    "Bytecodec.Props.C72_guarded",
    "Bytecodec.Props.C72_lower_bound",
    "Bytecodec.Props.C72_quiet",
    "Bytecodec.Props.C72_greedy",
    "Bytecodec.Props.C72_reuse",
    "Bytecodec.Props.C72_kinds",
    "Bytecodec.Props.C72_bytewise",
    "Bytecodec.Props.C72_asks",
    "Bytecodec.Props.C72_machine",
    "Bytecodec.Props.C72_line",
    "Bytecodec.Props.C72_emits",
    "Bytecodec.Props.C72_emitsSized",
    "Bytecodec.Props.C72_encoder_safe",
    "Bytecodec.Props.C72_encoder_reuse",
    "Bytecodec.Props.C72_full",
    "Bytecodec.Props.C72_queue"
   ],
   "note": "under the restrictions of the individual claims (C06, C09, C52, C55, C56, C64), which are about combinators of the library"
  },
  {
   "property": "C73",
   "status": "proved",
   "theorems": [
    "Bytecodec.Props.C73_encode_all",
    "Bytecodec.Props.C73_complete",
    "Bytecodec.Props.C73_decode_exact",
    "Bytecodec.Props.C73_fill",
    "Bytecodec.Props.C73_flush",
    "Bytecodec.Props.C73_state"
   ],
   "note": ""
  },
  {
   "property": "C74",
   "status": "proved",
   "theorems": [
    "Bytecodec.Props.C74_in_place",
    "Bytecodec.Props.C74_written",
    "Bytecodec.Props.C74_tidy",
    "Bytecodec.Props.C74_own",
    "Bytecodec.Props.C74_assembled",
    "Bytecodec.Props.C74_encode_all",
    "Bytecodec.Props.C74_into_bytes",
    "Bytecodec.Props.C74_write_buf"
   ],
   "note": ""
  },
  {
   "property": "C75",
   "status": "partial",
   "theorems": [
    "Bytecodec.Props.C75_decode_exact",
    "Bytecodec.Props.C75_messages",
    "Bytecodec.Props.C75_fill",
    "Bytecodec.Props.C75_drained_is_eos_fails",
    "Bytecodec.Props.C75_encode_all",
    "Bytecodec.Props.C75_flush",
    "Bytecodec.Props.C75_full_is_eos_fails"
   ],
   "note": "the last sentence is false of the code: an empty read buffer and a full write buffer both answer Ok(0), which is taken for the end of the stream (C75_drained_is_eos_fails, C75_full_is_eos_fails); the rest is proved in full"
  },
  {
   "property": "C76",
   "status": "proved",
   "theorems": [
    "Bytecodec.Props.C76_alike",
    "Bytecodec.Props.C76_depend",
    "Bytecodec.Props.C76_depend_chunked",
    "Bytecodec.Props.C76_keep",
    "Bytecodec.Props.C76_pair",
    "Bytecodec.Props.C76_assoc",
    "Bytecodec.Props.C76_safe",
    "Bytecodec.Props.C76_idle",
    "Bytecodec.Props.C76_eos",
    "Bytecodec.Props.C76_kinds",
    "Bytecodec.Props.C76_reuse",
    "Bytecodec.Props.C76_round_trip",
    "Bytecodec.Props.C76_tag_length_value"
   ],
   "note": "the families of C05, C06, C07, C08, C09, C10, C42, C52, C55, C57, C62, C63, C64, C65 also have captured values as a constructor"
  },
  {
   "property": "C77",
   "status": "partial",
   "theorems": [
    "Bytecodec.Props.C77_kinds_partial",
    "Bytecodec.Props.C77_length",
    "Bytecodec.Props.C77_any",
    "Bytecodec.Props.C77_full_partial",
    "Bytecodec.Props.C77_own",
    "Bytecodec.Props.C77_encode_all_partial",
    "Bytecodec.Props.C77_write_buf_partial",
    "Bytecodec.Props.C77_into_bytes",
    "Bytecodec.Props.C77_length_fails",
    "Bytecodec.Props.C77_preEncode_fails"
   ],
   "note": "Holds without length and pre_encode (C77_kinds_partial, C77_full_partial with C58 for EncoderFull); with them the code reports UnexpectedEos in the middle of the stream, start_encoding fails with UnexpectedEos or InconsistentState (C77_length_fails, C77_preEncode_fails); C77_length and C77_any say what remains true."
  },
  {
   "property": "C78",
   "status": "proved",
   "theorems": [
    "Bytecodec.Props.C78_read_fifo",
    "Bytecodec.Props.C78_read_accessors",
    "Bytecodec.Props.C78_read_no_panic",
    "Bytecodec.Props.C78_read_decode",
    "Bytecodec.Props.C78_read_grow",
    "Bytecodec.Props.C78_read_shrink_panics",
    "Bytecodec.Props.C78_write_fifo",
    "Bytecodec.Props.C78_write_accessors",
    "Bytecodec.Props.C78_write_no_panic",
    "Bytecodec.Props.C78_write_encode",
    "Bytecodec.Props.C78_write_grow",
    "Bytecodec.Props.C78_write_shrink_panics",
    "Bytecodec.Props.C78_read_into_inner",
    "Bytecodec.Props.C78_write_into_inner",
    "Bytecodec.Props.C78_read_state",
    "Bytecodec.Props.C78_fill_resumes",
    "Bytecodec.Props.C78_write_state",
    "Bytecodec.Props.C78_flush_resumes",
    "Bytecodec.Props.C78_state_queries"
   ],
   "note": "A mutable reference is the assignment through it (Model/BufAccess.lean)."
  },
  {
   "property": "C79",
   "status": "proved",
   "theorems": [
    "Bytecodec.Props.C79_read_order",
    "Bytecodec.Props.C79_consumed",
    "Bytecodec.Props.C79_any",
    "Bytecodec.Props.C79_exact",
    "Bytecodec.Props.C79_bincode",
    "Bytecodec.Props.C79_json",
    "Bytecodec.Props.C79_short_read_fails",
    "Bytecodec.Props.C79_write_order",
    "Bytecodec.Props.C79_write_any",
    "Bytecodec.Props.C79_text",
    "Bytecodec.Props.C79_short_write_fails"
   ],
   "note": "Programs are state machines that see each answer (Model/Program.lean); std's `Chain`, `read_exact` and the slices are modelled. The two `_fails` theorems show that the restriction to read_exact and to writing until done is needed; it concerns the user's program, not the library."
  },
  {
   "property": "C80",
   "status": "proved",
   "theorems": [
    "Bytecodec.Props.C80_fixed_size",
    "Bytecodec.Props.C80_to_the_end",
    "Bytecodec.Props.C80_padding",
    "Bytecodec.Props.C80_and_then_first",
    "Bytecodec.Props.C80_and_then_second",
    "Bytecodec.Props.C80_collections"
   ],
   "note": "Complements C52, which only says that the report is never too high."
  },
  {
   "property": "C81",
   "status": "partial",
   "theorems": [
    "Bytecodec.Props.C81_same_decoder",
    "Bytecodec.Props.C81_received_partial",
    "Bytecodec.Props.C81_received_or_announced",
    "Bytecodec.Props.C81_room",
    "Bytecodec.Props.C81_once",
    "Bytecodec.Props.C81_frame",
    "Bytecodec.Props.C81_announced_fails",
    "Bytecodec.Props.C81_max_outside_fails",
    "Bytecodec.Props.C81_max_inside"
   ],
   "note": "As stated the claim is false when a distance is announced: C81_announced_fails (one byte makes the decoder reserve any n < 2^63 bytes, if the sender chooses the frame length) and C81_max_outside_fails (also with max_bytes around the frame). Proved: the bounds in parentheses. The capacity of std's Vec is modelled (Model/Memory.lean) and C81_same_decoder ties this decoder to the one of the other claims."
  },
  {
   "property": "C82",
   "status": "proved",
   "theorems": [
    "Bytecodec.Props.C82_fill_registers",
    "Bytecodec.Props.C82_flush_registers",
    "Bytecodec.Props.C82_execute_registers",
    "Bytecodec.Props.C82_in_order",
    "Bytecodec.Props.C82_no_stall",
    "Bytecodec.Props.C82_bound",
    "Bytecodec.Props.C82_prompt",
    "Bytecodec.Props.C82_ends",
    "Bytecodec.Props.C82_pending_with_message"
   ],
   "note": "The two task programs and the channel are part of the specification (Spec/Tasks.lean); what they call is the model of the library. A round of a task is not interrupted (one thread). The same pairs and bounds as in C51."
  },
  {
   "property": "C83",
   "status": "proved",
   "theorems": [
    "Bytecodec.Props.C83_untouched_decoder",
    "Bytecodec.Props.C83_untouched_encoder",
    "Bytecodec.Props.C83_decode",
    "Bytecodec.Props.C83_retry",
    "Bytecodec.Props.C83_encode",
    "Bytecodec.Props.C83_rejected"
   ],
   "note": ""
  },
  {
   "property": "C84",
   "status": "proved",
   "theorems": [
    "Bytecodec.Props.C84_in_order",
    "Bytecodec.Props.C84_all_answered"
   ],
   "note": ""
  },
  {
   "property": "C85",
   "status": "proved",
   "theorems": [
    "Bytecodec.Props.C85_sends",
    "Bytecodec.Props.C85_in_order",
    "Bytecodec.Props.C85_complete",
    "Bytecodec.Props.C85_all_arrive"
   ],
   "note": "Messages take at least one byte. The receiving loop repeats a decode call until it makes no progress, so codecs that notice the end of an item only with the next call are covered."
  },
  {
   "property": "C86",
   "status": "proved",
   "theorems": [
    "Bytecodec.Props.C86_calls",
    "Bytecodec.Props.C86_item",
    "Bytecodec.Props.C86_schedules",
    "Bytecodec.Props.C86_from_bytes",
    "Bytecodec.Props.C86_exact",
    "Bytecodec.Props.C86_lossless",
    "Bytecodec.Props.C86_relay",
    "Bytecodec.Props.C86_encoder_calls",
    "Bytecodec.Props.C86_encode_into_bytes",
    "Bytecodec.Props.C86_encode_all"
   ],
   "note": "One-sided: what is accepted with the limits is the same without them. What is rejected is the subject of C27 and C31."
  },
  {
   "property": "C87",
   "status": "partial",
   "theorems": [
    "Bytecodec.Props.C87_meaning_partial",
    "Bytecodec.Props.C87_no_false_alarm_partial",
    "Bytecodec.Props.C87_agree_partial",
    "Bytecodec.Props.C87_buffer_meaning_partial",
    "Bytecodec.Props.C87_buffers_agree_partial",
    "Bytecodec.Props.C87_reject_partial",
    "Bytecodec.Props.C87_delivers_partial",
    "Bytecodec.Props.C87_limits_agree",
    "Bytecodec.Props.C87_maxBytes_fails",
    "Bytecodec.Props.C87_collect_fails"
   ],
   "note": "The code deviates (deviations of C08): receivers through max_bytes or collect disagree depending on their buffers (C87_maxBytes_fails, C87_collect_fails). Proved for every streamable decoder without these two; with max_bytes and checks, that receivers agree on what they accept (C87_limits_agree)."
  },
  {
   "property": "C88",
   "status": "proved",
   "theorems": [
    "Bytecodec.Props.C88_decoders",
    "Bytecodec.Props.C88_encoders",
    "Bytecodec.Props.C88_parameters",
    "Bytecodec.Props.C88_configure",
    "Bytecodec.Props.C88_idle",
    "Bytecodec.Props.C88_length",
    "Bytecodec.Props.C88_maxBytes",
    "Bytecodec.Props.C88_collectN",
    "Bytecodec.Props.C88_slice",
    "Bytecodec.Props.C88_bytes",
    "Bytecodec.Props.C88_mute",
    "Bytecodec.Props.C88_last"
   ],
   "note": "Derived defaults are modelled field by field (Model/Default.lean). The default `BytesDecoder` reports idle although it has no item, as it does after its last item (C88_bytes, C16)."
  },
  {
   "property": "C89",
   "status": "proved",
   "theorems": [
    "Bytecodec.Props.C89_ready_idle",
    "Bytecodec.Props.C89_back_pressure",
    "Bytecodec.Props.C89_pending",
    "Bytecodec.Props.C89_in_order",
    "Bytecodec.Props.C89_no_stall",
    "Bytecodec.Props.C89_bound",
    "Bytecodec.Props.C89_prompt",
    "Bytecodec.Props.C89_ends"
   ],
   "note": "The programs of the two tasks and the connection (like `tokio::io::duplex`) are part of the specification (Spec/Duplex.lean); rounds are atomic (one executor thread). C89_ready_idle and C89_back_pressure show why the tasks do not simply loop on `Ready` or `would_block()`."
  },
  {
   "property": "C90",
   "status": "proved",
   "theorems": [
    "Bytecodec.Props.C90_same_decoder",
    "Bytecodec.Props.C90_received",
    "Bytecodec.Props.C90_room",
    "Bytecodec.Props.C90_last_chunk",
    "Bytecodec.Props.C90_announcements",
    "Bytecodec.Props.C90_retained",
    "Bytecodec.Props.C90_length",
    "Bytecodec.Props.C90_length_first",
    "Bytecodec.Props.C90_max_bytes"
   ],
   "note": "The growth of `Vec` is std's (capacity doubled, at least 8). Memory the parser itself asks for is not counted. C90_received and C90_max_bytes are for callers that take an item before they pass further bytes, as every function of the crate does; C90_length holds for all histories."
  },
  {
   "property": "C91",
   "status": "partial",
   "theorems": [
    "Bytecodec.Props.C91_fill",
    "Bytecodec.Props.C91_flush",
    "Bytecodec.Props.C91_poll_fill",
    "Bytecodec.Props.C91_poll_flush",
    "Bytecodec.Props.C91_execute_io",
    "Bytecodec.Props.C91_execute_io_poll",
    "Bytecodec.Props.C91_encode_all",
    "Bytecodec.Props.C91_encode_all_full",
    "Bytecodec.Props.C91_decode_exact",
    "Bytecodec.Props.C91_collect",
    "Bytecodec.Props.C91_collectn",
    "Bytecodec.Props.C91_collectn_bytes",
    "Bytecodec.Props.C91_collectn_empty_items_fails",
    "Bytecodec.Props.C91_repeat",
    "Bytecodec.Props.C91_once",
    "Bytecodec.Props.C91_and_then_first",
    "Bytecodec.Props.C91_and_then_second",
    "Bytecodec.Props.C91_tuple2",
    "Bytecodec.Props.C91_tuple3",
    "Bytecodec.Props.C91_tuple4",
    "Bytecodec.Props.C91_tuple5",
    "Bytecodec.Props.C91_tuple6",
    "Bytecodec.Props.C91_tuple7",
    "Bytecodec.Props.C91_tuple8"
   ],
   "note": "False for `collectn` over items that take no bytes: one call with one byte in the buffer decodes as many empty items as the count says (C91_collectn_empty_items_fails), so a count taken from the wire decides how long the call takes. Bounded by the count (C91_collectn). `collect` over such items never returns (C64). `decode_exact` is for decoders that complete or fail at the end of the stream. Calls are counted, not machine steps."
  },
  {
   "property": "C92",
   "status": "partial",
   "theorems": [
    "Bytecodec.Props.C92_exactly_once_partial",
    "Bytecodec.Props.C92_as_undisturbed_partial",
    "Bytecodec.Props.C92_nothing_lost_partial",
    "Bytecodec.Props.C92_limits",
    "Bytecodec.Props.C92_reconnect",
    "Bytecodec.Props.C92_reconnect_delivers"
   ],
   "note": "As C87: proved for every reusable streamable decoder without `max_bytes` and `collect`, whose results depend on how the stream is cut (C87_maxBytes_fails, C87_collect_fails); with `max_bytes` and checks, that the recorded items are the first ones of the stream (C92_limits). The theorems on reconnecting hold for every pair in Spec.Matched that is self-delimiting and reusable."
  },
  {
   "property": "C93",
   "status": "partial",
   "theorems": [
    "Bytecodec.Props.C93_decode_exact",
    "Bytecodec.Props.C93_failed_call",
    "Bytecodec.Props.C93_decode_exact_arrives",
    "Bytecodec.Props.C93_message_partial",
    "Bytecodec.Props.C93_fill",
    "Bytecodec.Props.C93_flush",
    "Bytecodec.Props.C93_poll_fill",
    "Bytecodec.Props.C93_poll_flush",
    "Bytecodec.Props.C93_encode_all_fails",
    "Bytecodec.Props.C93_encode_all_partial"
   ],
   "note": "Proved for decode_exact with any decoder and reader, and for fill and flush. encode_all loses the up to 1024 bytes it has taken from the encoder and not yet written, and a repeated call may return Ok without them (C93_encode_all_fails); C93_encode_all_partial says exactly what is lost. C93_message_partial is about Exactable decoders, as C42."
  },
  {
   "property": "C94",
   "status": "partial",
   "theorems": [
    "Bytecodec.Props.C94_calls",
    "Bytecodec.Props.C94_moves_out",
    "Bytecodec.Props.C94_decode_exact",
    "Bytecodec.Props.C94_read_buf",
    "Bytecodec.Props.C94_messages_partial",
    "Bytecodec.Props.C94_tuple3",
    "Bytecodec.Props.C94_tuple4",
    "Bytecodec.Props.C94_tuple5",
    "Bytecodec.Props.C94_tuple6",
    "Bytecodec.Props.C94_tuple7",
    "Bytecodec.Props.C94_tuple8",
    "Bytecodec.Props.C94_tuple_mixes_fails",
    "Bytecodec.Props.C94_stuck_fails"
   ],
   "note": "Proved for every sequence of calls, for checks inside map, try_map, map_err, omit, length, max_bytes, slice, maybe_eos, the body of and_then and the last component of a tuple of any arity. False for the other components of a tuple, where the next item is mixed from two messages (C94_tuple_mixes_fails), and where decode itself completes items (peekable, collect, collectn, the header of and_then): there the refused bytes are never taken from the buffer (C94_stuck_fails)."
  },
  {
   "property": "C95",
   "status": "partial",
   "theorems": [
    "Bytecodec.Props.C95_refused",
    "Bytecodec.Props.C95_tuple3",
    "Bytecodec.Props.C95_tuple4",
    "Bytecodec.Props.C95_tuple5",
    "Bytecodec.Props.C95_tuple6",
    "Bytecodec.Props.C95_tuple7",
    "Bytecodec.Props.C95_tuple8",
    "Bytecodec.Props.C95_calls",
    "Bytecodec.Props.C95_send_partial",
    "Bytecodec.Props.C95_preEncode_refused",
    "Bytecodec.Props.C95_preEncode_send_partial",
    "Bytecodec.Props.C95_receiver_partial"
   ],
   "note": "Proved at any moment for all encoders of the library except tuples and pre_encode. Tuples (every arity): proved while idle if only the first component refuses. pre_encode: proved where the encoder inside it refuses the message itself, and for senders if it can write every message it accepts (C95_preEncode_send_partial). False for tuples of which a later component refuses (C20_rejected_fails, C20_busy_fails) and for pre_encode around an encoder that fails after accepting (C58_preEncode_fails), deviations 7 and 21."
  },
  {
   "property": "C96",
   "status": "partial",
   "theorems": [
    "Bytecodec.Props.C96_suffices_partial",
    "Bytecodec.Props.C96_anything_behind_partial",
    "Bytecodec.Props.C96_anything_behind_collect_partial",
    "Bytecodec.Props.C96_prefix_free_partial",
    "Bytecodec.Props.C96_collectN_fails"
   ],
   "note": "C96_suffices_partial for every Exactable decoder; independence of what is behind (and prefix-freeness) without max_bytes, which rejects by what is offered (C08_maxBytes_fails), and, with collect inside frames, for at least one byte behind. False for collectn over items without bytes (C96_collectN_fails)."
  },
  {
   "property": "C97",
   "status": "proved",
   "theorems": [
    "Bytecodec.Props.C97_item",
    "Bytecodec.Props.C97_session",
    "Bytecodec.Props.C97_counted_list"
   ],
   "note": "C97_item for one item obtained by the caller's loop, C97_session for any sequence of calls that succeed. The counting decoder is composed with the model's own combinators from innermost decoders that count their calls. Work inside the combinators themselves is a bounded number of steps per call of an inner decoder (their loops are covered: C91). Calls that fail and setters are not covered; tuples of more than two components are nested pairs (C66)."
  },
  {
   "property": "C98",
   "status": "proved",
   "theorems": [
    "Bytecodec.Props.C98_productive",
    "Bytecodec.Props.C98_at_least_a_byte",
    "Bytecodec.Props.C98_items_le_bytes",
    "Bytecodec.Props.C98_closes_remaining",
    "Bytecodec.Props.C98_closes_collect",
    "Bytecodec.Props.C98_closes_around",
    "Bytecodec.Props.C98_closes_utf8",
    "Bytecodec.Props.C98_named_text",
    "Bytecodec.Props.C98_empty_frame_fails"
   ],
   "note": "C98_productive is the rule book (Weighed) against Productive, the assumption of C05, C64, C67, C91 and C97 about collect; C98_at_least_a_byte and C98_items_le_bytes say what it means for callers. C98_empty_frame_fails: the rule about empty frames is needed. Not covered by the rules: slice and monolithic (their items may complete on a call that takes nothing)."
  },
  {
   "property": "C99",
   "status": "proved",
   "theorems": [
    "Bytecodec.Props.C99_same",
    "Bytecodec.Props.C99_session",
    "Bytecodec.Props.C99_call",
    "Bytecodec.Props.C99_within",
    "Bytecodec.Props.C99_bytes",
    "Bytecodec.Props.C99_texts_numbers",
    "Bytecodec.Props.C99_pre_encode",
    "Bytecodec.Props.C99_null_padding",
    "Bytecodec.Props.C99_monolithic",
    "Bytecodec.Props.C99_tagged"
   ],
   "note": "C99_session bounds the work after any sequence of calls, from what the caller sees; C99_same says that the counting version is indistinguishable from the encoder; C99_bytes, C99_texts_numbers, C99_pre_encode, C99_null_padding and C99_monolithic discharge the hypothesis about innermost encoders (pre_encode counts as innermost, its start does all the work of its item at once)."
  },
  {
   "property": "C100",
   "status": "proved",
   "theorems": [
    "Bytecodec.Props.C100_same",
    "Bytecodec.Props.C100_same_encoder",
    "Bytecodec.Props.C100_decoder",
    "Bytecodec.Props.C100_encoder",
    "Bytecodec.Props.C100_not_swallowed",
    "Bytecodec.Props.C100_not_swallowed_encoder",
    "Bytecodec.Props.C100_from_bytes",
    "Bytecodec.Props.C100_into_bytes",
    "Bytecodec.Props.C100_decode_exact",
    "Bytecodec.Props.C100_encode_all",
    "Bytecodec.Props.C100_not_swallowed_io",
    "Bytecodec.Props.C100_not_swallowed_io_encoder",
    "Bytecodec.Props.C100_try_map",
    "Bytecodec.Props.C100_try_map_from",
    "Bytecodec.Props.C100_utf8",
    "Bytecodec.Props.C100_map_err",
    "Bytecodec.Props.C100_reader_reported",
    "Bytecodec.Props.C100_writer_reported"
   ],
   "note": "Model/Tracked.lean models errors with cause and history and every track! of the combinators, tuples (all arities), Utf8Decoder, BytesEncoder and whole-item helpers. C100_same/_same_encoder: with kinds only this is the rest of the model. C100_decoder/_encoder: every error surfaces an origin. C100_not_swallowed*: errors of parts end the outermost call. C100_try_map/_try_map_from/_utf8/_map_err/_reader_reported/_writer_reported: nor are errors of closures, readers and writers replaced. The text of an assertion is represented by its place. The behaviour of the trackable crate is assumed as documented."
  },
  {
   "property": "C101",
   "status": "partial",
   "theorems": [
    "Bytecodec.Props.C101_same",
    "Bytecodec.Props.C101_same_async",
    "Bytecodec.Props.C101_fill",
    "Bytecodec.Props.C101_flush",
    "Bytecodec.Props.C101_execute_io",
    "Bytecodec.Props.C101_poll_fill",
    "Bytecodec.Props.C101_poll_flush",
    "Bytecodec.Props.C101_execute_io_poll_partial",
    "Bytecodec.Props.C101_execute_io_poll_fails",
    "Bytecodec.Props.C101_from_read_buf",
    "Bytecodec.Props.C101_to_write_buf",
    "Bytecodec.Props.C101_not_swallowed",
    "Bytecodec.Props.C101_not_swallowed_encoder"
   ],
   "note": "Proved for fill, flush, execute_io, poll_fill, poll_flush and the functions between codecs and buffers. execute_io_poll makes both calls before it looks at either result, so when both directions fail in one call the error of the write direction is dropped (C101_execute_io_poll_fails); C101_execute_io_poll_partial: the first failure is reported, there are at most two, and after two both buffers are in the state Error. The statement for execute_io_poll excludes calls that panic. C101_same/_same_async: with kinds only this is the rest of the model."
  },
  {
   "property": "C102",
   "status": "proved",
   "theorems": [
    "Bytecodec.Props.C102_same",
    "Bytecodec.Props.C102_same_encoder",
    "Bytecodec.Props.C102_decoder",
    "Bytecodec.Props.C102_encoder",
    "Bytecodec.Props.C102_placed",
    "Bytecodec.Props.C102_program",
    "Bytecodec.Props.C102_program_encoder",
    "Bytecodec.Props.C102_monolithic",
    "Bytecodec.Props.C102_monolithic_encoder",
    "Bytecodec.Props.C102_json",
    "Bytecodec.Props.C102_bincode",
    "Bytecodec.Props.C102_json_encoder",
    "Bytecodec.Props.C102_bincode_encoder",
    "Bytecodec.Props.C102_number"
   ],
   "note": "All states, not only reachable ones. C102_same/_same_encoder: with kinds only this is the rest of the model. C102_program carries the statement through every combinator (TracedDec of C100). serde_json and bincode are parameters."
  },
  {
   "property": "C103",
   "status": "proved",
   "theorems": [
    "Bytecodec.Props.C103_bounded",
    "Bytecodec.Props.C103_chain_bounded",
    "Bytecodec.Props.C103_in_order",
    "Bytecodec.Props.C103_prefix",
    "Bytecodec.Props.C103_no_errors",
    "Bytecodec.Props.C103_delivers",
    "Bytecodec.Props.C103_chain_prefix",
    "Bytecodec.Props.C103_chain_delivers"
   ],
   "note": "Each side is a pipe of C51 with any Matched pair. That the receiver gets nothing else is stated while the pipes are open and the formats have a message with a non-empty encoding (as C51_nothing_invented). C103_delivers: the system can always be run so that everything arrives. C103_bounded/_chain_bounded: the steps that get ahead are bounded in number. Total encodings and read buffers are below 2^64 bytes."
  },
  {
   "property": "C104",
   "status": "proved",
   "theorems": [
    "Bytecodec.Props.C104_speaks",
    "Bytecodec.Props.C104_in_order",
    "Bytecodec.Props.C104_no_errors",
    "Bytecodec.Props.C104_delivers",
    "Bytecodec.Props.C104_bounded",
    "Bytecodec.Props.C104_advances"
   ],
   "note": "For any Matched pair in each state whose messages are recognised from the bytes alone (delim). A new encoder and decoder is used for each message, so the decoders need not be usable again. C104_delivers: from every situation everything can still be heard. C104_advances and C104_bounded: which calls get ahead in every situation, and how many of them there are at most, so a listener that makes these calls hears everything once the stream delivers. Stream and read buffer are below 2^64 bytes."
  }
 ]
}