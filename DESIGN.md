# A formal model of sile/bytecodec in Lean 4

Source of truth: `/repo` (read as text, never built). Lean project: `/verif/lean`.

## 1. Trusted base

* Lean 4.33.0's kernel; axioms at most `propext`, `Classical.choice`, `Quot.sound`
  (no project axioms, no `sorry`, no `native_decide`, no `bv_decide`).
* The claim that the definitions under `lean/Verif/Model` mirror the Rust source. Each one cites the lines it models and says where it simplifies.
  As a check on the transcription, `Validation/Tests.lean` replays the 33 unit tests of the repository and the examples of its documentation on the model, as `example`s (91 of them, evaluated by the kernel). They are tests of the model; no claim rests on them.
* Semantics assumed for Rust: 64-bit `usize`; overflow-checked (debug profile) integer arithmetic; slices index-checked;
  closures passed to combinators are pure functions (they may capture values, `Model/Captured.lean`); `collect` gathers into a vector and `repeat` takes a finite list, except in `Model/Containers.lean`, which has any container and iterator (C69 shows that nothing is lost);
  allocation succeeds unless it exceeds `isize::MAX` bytes.

### What is modelled
`byte_count.rs`, `eos.rs`, `error.rs` (kinds only, but for `Model/Tracked.lean`, `Model/TrackedTuple.lean`, `Model/TrackedBuf.lean` and `Model/TrackedLeaves.lean`), `macros.rs`, `bytes.rs`, `null.rs`, `padding.rs`, `tuple.rs`,
`combinator.rs`, `fixnum.rs`, `io.rs`, `io_async.rs`, `monolithic.rs`, `json_codec.rs`, `bincode_codec.rs`, `slice.rs`,
the free-standing algorithms of `decode.rs`/`encode.rs` (`decode_from_bytes`, `encode_into_bytes`),
the forwarding impls for `&mut T` / `Box<T>` (`Model/Forward.lean`).

### What is not modelled
* Error messages (the text of an assertion is represented by its place) and the inside of the `trackable` crate, whose documented behaviour `Model/Tracked.lean` states. In all other files an error is its `ErrorKind`.
* serde_json and bincode: what they read and write are arbitrary functions (`Model/Serde.lean`) or arbitrary programs doing their own I/O (`Model/Program.lean`, C79); the wrappers in `json_codec.rs`, `bincode_codec.rs` are modelled.
* Concurrency: the crate has none (`Send` bounds only).

## 2. Modelling conventions

* A Rust type implementing `Decode` = a dictionary `Decoder σ α` of functions over a state type `σ`; a Rust value = a state.
  A combinator = a function on dictionaries. `&mut self` = the new state is returned, **also on error**
  (mutations before a `?` survive).
* `Res α = ok a | err kind | panic | capacity | diverge`. `panic`: arithmetic overflow / slice out of range;
  `capacity`: `Vec::reserve_exact` capacity overflow; `diverge`: a loop that never ends.
* Loops that terminate are structural or well-founded recursions. Loops that may run forever in Rust
  (`Collect::decode`, `decode_exact`, `encode_all`) are least fixed points (`partial_fixpoint` in `Option`), so
  non-termination is a provable fact about the model, not an artefact of fuel.
* An encoder's `encode` receives the buffer *capacity* and returns the bytes written. `Model/InPlace.lean` has the same encoders once more with the buffer itself; C74 shows that the two models agree, so that the other claims carry over.
* `Vec` is a list; only `Model/Memory.lean` and `Model/MonoMemory.lean` also track the capacity of a `Vec` (for `RemainingBytesDecoder`, C81, and `MonolithicDecoder`, C90). Running out of memory is not modelled.
* Readers/writers are arbitrary state machines with a contract (`delivers a stream in chunks of arbitrary size, may block or fail at any time`).

## 3. Specification vocabulary (`Verif/Spec`)

The property theorems (`Verif/Props`, namespace `Bytecodec.Props`) mention the model and the following
definitions only; helper lemmas (`Verif/Lemmas`) appear in proofs, never in statements.

| file | what it defines |
|---|---|
| `Counts` | the documented rule tables of `ByteCount` addition as inductive relations; `EosSane e n`: distance plus buffer fits in 64 bits |
| `Decode` | `Reach`: states reachable by any sequence of calls; `feed`: the loop a caller writes (chunk after chunk until idle, then finish); `Schedule`: a way of cutting bytes into chunks; `SafeFrom`, `IdleStable`, `FinishGuarded`, `EosStrict`, `Productive` |
| `Assembled`, `Streamable`, `Exactable` (file `Exact`) | which decoders can be assembled from the library blocks, as inductive families; each theorem says which one it covers |
| `Encode` | `EncRun`: any history of `start_encoding`/`encode` calls with the accepted items and the output so far; `Emits`: the encoder contract (output is always a prefix of the encodings, `EncoderFull` while busy, ...); `Writes`: assembled encoders with their format |
| `AssembledEnc` | reachability and safety of encoders, assembled encoders without a format |
| `Format` | `Reads`: a decoder reads a wire format; `Many`: concatenations of items |
| `Stream` | `DecRun`/`Receives`: a receiver on a stream; `Sends`; `RoundTrips` |
| `Matched` | matching encoder/decoder pairs, as an inductive family |
| `Numbers` | base-256 digits, the table of the 24 number codecs |
| `Trace` | observable traces of arbitrary call sequences; `Tally`: bytes and items counted over a history |
| `Slice` | allowances, demultiplexing |
| `Io` | readers, writers and streams as arbitrary state machines that log their answers; runs of buffers |
| `Pipeline` | sender, pipe and receiver with all interleavings |
| `Exact` | readers that deliver a stream in any pieces; `decode_exact` loops |
| `Overflow` | `requiring_bytes` and `exact_requiring_bytes` of whole codecs with checked sums; `offered`: buffer space offered by a list of calls |
| `Requiring` | successful call sequences and what they consume |
| `Reuse` | successful histories, states a caller cannot tell apart, the reusable codecs |
| `Kinds` | which functions raise which error kinds, the kinds of a decoder, states of encoders in use |
| `Lossless` | decoders that accept one encoding per item; relays |
| `Greedy` | decoders that take everything until the item is complete |
| `Captured` | `dependDecoder`, `keepDecoder`: the programs `a.and_then(\|x\| …)` whose body uses `x` |
| `BufAccess` | `ReadAccess`, `WriteAccess`: any calls on a buffer with changes of its state and storage in between |
| `Program` | `nextBytes`, `eval`: a `read_exact` program on one byte string; `WritesText`: a program that writes a text whatever the writer takes at a time |
| `Memory` | `announced`: the bytes announced by an `Eos`; `Offered`: histories whose calls satisfy a condition on what is offered |
| `Tasks` | `Channel`, `sendRound`, `recvRound`: the programs of two tasks and the channel between them; `Rounds`: all schedules; `KeepsWakers`: streams that wake whom they made wait |
| `MonoInner` | `MonoStep`, `innerAfter`, `passed`: what the caller of a monolithic decoder does; `DrainChanging`: `encode` calls with changes of the inner encoder in between |
| `Session` | `Line`: the two directions of a non-blocking connection; `clientTurn`, `serverTurn`: the bodies of the two event loops, statement by statement; `Session.run`: any schedule |
| `Mux` | `MuxSender.step`, `MuxReceiver.receive`: the programs of a sender and a receiver with one sliced codec per channel, statement by statement; `MuxOp`: what the sender does next |
| `Stripped` | `Stripped`, `StrippedE`: the second codec is the first without some of its limits, checks and conversions of errors |
| `Stall` | `Uses`: what a caller can have done with a decoder as documented; `Decodes`: further successful `decode` calls |
| `Receive` | `Means`: the items of a stream, each decoded from all that is left in one piece; `Receiver`, `ReceiveSteps`: anything a receiver with a read buffer can do; `Rejects`: its next call fails |
| `Default` | `Mute`: an encoder that writes no byte whatever is done with it |
| `Duplex` | `Endpoint.stream`: an end of a duplex connection with wakers; `clientRound`, `serverRound`: the programs of the tasks; `Polls`: any order of rounds and spurious wake-ups |
| `Work` | counters for the calls a codec or a stream receives; `AtMostOnce` |
| `Restart` | a receiver with a record of its items and its position, that may crash; a connection that breaks |
| `Retry` | streams that fail now and then, and callers that try again |
| `Vetted` | decoders with checks built in, and what the checks say to an item |
| `Steadfast` | encoders whose refusals have no effect, calls without refused messages, a sender that skips over refused messages |
| `Spec/MeteredEnc.lean` | encoders with counting innermost encoders, and what a sequence of calls is charged for |
| `Spec/Weighed.lean` | the rules by which formats whose items take at least a byte are composed |
| `Spec/Metered.lean` | counting innermost decoders; which decoder counts the work of which one, and the price list |
| `Spec/Tracked.lean` | erasure to kinds, when an error surfaces another, programs over whole errors and over parts that stop dead |
| `Spec/TrackedBuf.lean` | streams that note their failures, and when a result reports them |
| `Spec/TrackedIo.lean` | the same for the readers and writers of `decode_exact` and `encode_all` |
| `Spec/TrackedLeaves.lean` | which errors the codecs that are no combinators get from outside |
| `Spec/Relay.lean` | a relay between two pipes, and rows of relays |
| `Spec/PipeProgress.lean` | steps of pipes and relays that get ahead |
| `Spec/Talk.lean` | protocols in which each message decides the format of the next one |
| `Memory` (`Served`) | like `Offered`, for callers that do not pass bytes while an item waits |
| `Requiring` (`ExactAsk`), `Assembled` (`Shape.fixedSize`, `Shape.toTheEnd`) | which building blocks have items of a fixed size or take everything up to the end; what an exact report is |
| `RaisingEncWith`, `EncodeKind`, `StartKind`, `WriterRaises` (`Kinds`) | which kinds `encode`, `start_encoding` and writers raise |
| `Written`, `InPlace`, `SameProgram`, `Tidy` (`InPlace`) | what a call does to the buffer; the two models of an encoder agree; they are put together in the same way; an encoder touches what it reports and ignores what was there |
| `WithoutInterruptions`, `ReadsWithoutInterruptions` (`Interrupted`) | `V` answers each call as the interrupted writer or reader does after finitely many repetitions |
| `AssembledWith`, `ReusableWith`, `WritesWith`, ... with `own` | the same families with parts of the user's own; `Bytewise`, `Asks`, `machine`, `queueEncoder` (file `Bytewise`): contracts and examples of such parts |
| `LengthRun`, `MaxRun`, `CollectRun`, `CollectNRun`, `noting` (file `Progress`) | histories with the counts and items a caller would note down |
| `Lists`, `Endless` (file `Containers`) | iterators that end, with their items; iterators that do not |
| `IoFlow`, `loggedAsync` | any use of a `BufferedIo` with the bytes that went through it |
| `Touch`, `Handled`, `Adjustable` (`…Enc`) | calls, setters and inner accesses in any order, and the setters each type offers |
| `Alike`, `Exchanged` | same answers to every sequence of calls; compositions differing by parts that are alike |

## 4. Plan per property

Theorem names are in `MANIFEST.json` (all are called `Cnn_...`).

| id | how |
|---|---|
| C01 | rule table as an inductive relation, case analysis, `omega` |
| C02 | same |
| C03 | case analysis; negation at `Unknown` |
| C04 | case analysis |
| C05 | invariant "no crash, n <= len" closed under every combinator (`Assembled`), lifted to all call histories by induction; `collect` by least-fixed-point induction under `Productive` |
| C06 | idle invariant closed under the combinators; negation for monolithic |
| C07 | split law: one `decode` of `a ++ b` equals two calls; closed under the combinators of `Streamable`, lifted to chunk lists by induction |
| C08 | converse (join) law likewise; negations for `max_bytes`, `collect` |
| C09 | "at EOS: idle or error" closed under combinators; negations for `length`, `collect` |
| C10 | "finish before completion is `IncompleteDecoding`" closed under combinators; exact state statement per leaf; witnesses for state changes |
| C11 | base-256 digit arithmetic, then contracts of bytes encoder and copyable decoder over all schedules |
| C12 | digit arithmetic |
| C13 | same, range checks |
| C14 | encoder invariant: output so far ++ pending = accepted items |
| C15 | receiver invariant over all runs on all streams |
| C16 | step equations, feed theorem |
| C17 | invariant: buffer = concatenation of the chunks; exact condition of the capacity panic |
| C18 | UTF-8 validity via Lean's `String` library, all chunkings through C07/C17 |
| C19 | sequential composition of feeds; arities 3..8 simulated by nested pairs |
| C20 | encoder contract closed under pairs; arities by simulation; negations for rejection |
| C21 | trace equivalence for arbitrary call sequences |
| C22 | sequential composition; round trip through `Matched` |
| C23 | fixed-point induction over the loop; `Many` format |
| C24 | structural induction over the remaining count |
| C25 | `Tally` invariant over histories; trace simulation of the inner decoder |
| C26 | encoder contract for the three cases; negations |
| C27 | `Tally` invariant including `set_max_bytes` |
| C28 | encoder contract; error position; negation for restart |
| C29 | trace equivalence |
| C30 | invariant linking the held item to the inner decoder |
| C31 | trace simulation; item equivalence |
| C32 | allowance accounting over histories, equivalence with the unsliced codec, demultiplexing theorem |
| C33 | run decomposition into pending part and last item |
| C34 | encoder contract for both size branches, least fixed point of `encode_all` |
| C35 | encoder contract closed under `repeat`; negation for empty items |
| C36 | invariants over chunk lists |
| C37 | trace equivalence of pairs with a null component |
| C38 | refinement to a FIFO queue for arbitrary operation sequences |
| C39 | same for the write buffer |
| C40 | induction on the room |
| C41 | induction on the buffered bytes |
| C42 | `decode_exact` as least fixed point, driven by the lower bound `requiring_bytes` (`Exactable`); divergence witnesses |
| C43 | least fixed point, progress from the encoder contract |
| C44 | run invariant relating states to the last answers |
| C45 | simulation of the synchronous versions |
| C46 | encoder contract parametric in the serializer |
| C47 | invariant: buffer = concatenation; parametric in the parser |
| C48 | list window equations |
| C49 | propagation per entry point |
| C50 | unfolding, and inversion of C34 for every matching pair |
| C51 | invariant of the whole pipeline (encoder pending ++ write buffer ++ pipe ++ read buffer = encodings); for progress, a gauge that counts the bytes past each stage, grows with every step that gets ahead and is bounded by what was sent |
| C52 | lower bound closed under combinators |
| C53 | from the encoder contract |
| C54 | safety invariant closed under combinators (`AssembledEnc`) |
| C55 | a bisimulation per combinator that relates the state after an item to the initial one |
| C56 | as C55, with an invariant per encoder |
| C57 | the set of possible kinds of each decoder, closed under combinators, for every state |
| C58 | invariant per encoder under all calls (`Accepting`); case analysis for busy encoders (`Single`) |
| C59 | C46, C47 and the matching pairs (C22) at the wrappers' parser and serializer |
| C60 | C46 and C47 at the wrappers' parser and serializer |
| C61 | induction over the list of counts with the checked additions; for whole codecs `CheckedReq`, `CheckedWrites`, `CheckedExact` mirror every `requiring_bytes` with checked sums, and an overflowing answer is shown to be a lower bound of 2^64 on what completes the item (decoders) or on what is left (encoders) |
| C62 | decoding is a function: both messages are what the matching decoder returns; induction over the stream |
| C63 | per combinator: an item is delivered only for its encoding (`Keeps`), induction over `Spec.Lossless`; pieces by the joining law of C08; relays by induction over the items |
| C64 | per combinator by case analysis of one call in any reachable state; a `length` frame cuts the buffer only at its own end, where the inner decoder sees EOS and (C09) cannot stay busy; loops by induction. A decoder that leaves bytes over: the states from which no calls lead to an item (largest such set) contain the state after the call, by induction on the composition, using that the end of a frame cannot be announced twice (C08) |
| C65 | simulation relation between the states of the two compositions, one lemma per combinator; `Alike` itself is the largest simulation |
| C66 | equality of dictionaries where the states are the same, a simulation relation where they are nested differently |
| C67 | inductive family of all states compositions can be brought into, closed under calls, setters and inner accesses; the safety lemmas are proved for every such state |
| C68 | `IoFlow`: any calls on a `BufferedIo` with ghost records of the bytes taken out and put in; invariant by induction, for an arbitrary stream; the asynchronous operations are reduced to the synchronous ones over the stream that answers `WouldBlock` for `Pending` |
| C69 | `Model/Containers.lean` models the three types for an arbitrary container and iterator; simulation with the vector/list versions, so all theorems about those carry over (C65) |
| C70 | invariant of the loop over the items started so far; the hang is a least fixed point that is undefined |
| C71 | ghost counters next to arbitrary histories; the items are recorded by a wrapper around the inner decoder (`noting`); invariants by induction over the history and the loops |
| C72 | the families of assembled codecs have a parameter `own` for parts of which the promise is assumed; the inductions of the individual claims go through. `Bytewise` decoders: splitting and joining of calls by induction over the bytes; state machines are an instance |
| C73 | `Model/Interrupted.lean`: readers and writers with interruptions, and `write_all` with its retries; `V` is the same writer with the interruptions skipped. Equality of `encode_all` by fixpoint induction in both directions; `decode_exact` by fixpoint induction, `fill` and `flush` by induction over the room / contents |
| C74 | `Model/InPlace.lean`, `Model/InPlaceTuple.lean`: all encoders again, with `encode : state -> buffer -> (Result<usize>, state, buffer)`. Refinement: each encoder is `InPlace` with respect to the one of the other model, by induction over how it is put together; `MonolithicEncoder` by a simulation of its chained writer, `Repeat` by induction over the room left, `encode_all` by fixpoint induction in both directions |
| C75 | `Model/BufStreams.lean`: the two trait implementations as `Reader` and `Writer`. `decode_exact` and `encode_all` by running them over buffers that carry the proof of how they were reached (a simulation), then C42 and C43; buffer to buffer: the loops of `fill` and `flush` end after at most two rounds, evaluated |
| C76 | `Model/Captured.lean`: the captured values are a part of the state that never changes. A decoder restricted to one captured value is isomorphic to the decoder with this value written out, so each invariant of the other claims is carried over; then the theorems on `and_then` (C22) |
| C77 | Family `RaisingEncWith` of encoders in any state with flags for `max_bytes`, `length`, `pre_encode`; induction gives the allowed kinds of `encode` and `start`; partial correctness of `encodeAll`; combined with C58 for `EncoderFull` |
| C78 | `Model/BufAccess.lean`: the assignments through the references. `ReadAccess`/`WriteAccess`: histories with interventions; the invariants of C38 and C39 are kept by each step, and the queue property is relative to each step |
| C79 | `Model/Program.lean`: std's `Chain` on two slices, programs that call `read`/`read_exact`/`write`. The chain has an invariant (the flag is set only when the first slice is empty); runs on it are compared with `eval` on the concatenation, and with `WritesText` for writers |
| C80 | `ExactAsk`: whatever calls complete the item, the number reported now is the number of bytes they consume. Induction over `AssembledWith` with a measure of the state that each call reduces by exactly what it consumes |
| C81 | `Model/Memory.lean`: the decoder with the capacity of its `Vec` (std's `reserve_exact` and amortized growth); a simulation ties it to the decoder without. Histories with a condition on what is offered and announced (`Offered`); invariants relate capacity, bytes gathered and budget |
| C82 | `Spec/Tasks.lean`: a sender and a receiver program, a channel with wakers, an executor that polls only what was woken. The invariant of C51's pipe, plus: who sleeps is registered and has nothing to do. A measure that every round decreases gives the bound |
| C83 | `Model/MonoInner.lean`: the inner codec as a part of the state. Induction over the list of steps (changes and `decode` calls), and over the `encode` calls and changes after the first |
| C84 | Two pipes (requests, answers) with the invariant of C51 each; counters for bytes encoded, sent, received and decoded and for messages never decrease; when a turn of each side changes none of them, all answers have arrived |
| C85 | Sender: the encoder contract per channel, frames so far. Receiver: each decoder waits for the rest of a message whatever follows on the stream (`Waits`); induction on frames, messages and bytes for the loop; a message of which nothing is missing is always taken before the loop ends |
| C86 | One-sided simulation (`Retains`): a successful call of the limited codec is the same successful call of the other one, related states again; one lemma per combinator, induction on the composition (`stripped_kept`) |
| C87 | Invariant along every run: an item is decoded from the rest of the stream in the present state iff it is decoded, with the bytes since its start, from the state in which it started (forward by the splitting law of C07, backward by the joining law of C08; a decoder that leaves bytes over gives no item, C64); receivers with buffers are such runs |
| C88 | Equations for the default values; induction over every history of calls (`Tally`, `observeE`) with the invariant that the counters stay zero |
| C89 | The counters of C84 with the wakers added: a task sleeps only in a state in which it is stuck and its wakers are registered; the other task's rounds preserve this or wake it; each round makes progress or puts its task to sleep |
| C90 | The decoder with the capacity of its vector is alike to the plain one; invariant: the vector holds exactly the bytes consumed for the item, and is empty while an item waits; in a frame: buffered and missing bytes make up no more than the frame |
| C91 | Counters beside the states of the inner codecs and of the streams; induction over the rounds of each loop with the free room, the rest of the buffer or the bytes written as measure |
| C92 | A transition system with a record that survives crashes; a decoder after an item cannot be told from a new one (C55), so the meaning of the stream (C87) can be put together from its parts; C51 for connections |
| C93 | Compare each call over the failing stream with one over the stream that is tried again, by induction on the rounds of the loop; for `encode_all` a witness and a theorem on what is lost |
| C94 | Show that a check commutes with each combinator that hands `finish_decoding` on, by induction move all checks to the outside (with C65), and compare with the decoder without them; witnesses for the other places |
| C95 | Induction over the composition: an error of `start` leaves the state unchanged; lift it to sequences of calls, to a sender with `encode_all`, and with C42 to the receiver |
| C96 | Cut the buffer right behind the item; a decoder that had to see more would require 0 bytes and be waiting (excluded as in C42); then extend by C08 |
| C97 | The decoder composed a second time from counting innermost decoders; a potential argument by induction over the composition: a call pays a, each byte pays b |
| C98 | Rules for compositions (true: takes a byte; false: may follow one), each proved against Productive by an invariant over all states reached item by item |
| C99 | The encoder is composed again with counting innermost encoders; a potential (cost plus the items that wait) grows by at most the charge of each call; induction over repeat's loop and over the calls |
| C100 | A second model with whole errors; erasing all but the kinds commutes with every combinator (equality of decoders), so does replacing errors by panics; the origin of errors by induction over the composition, the loops by partial correctness |
| C101 | Model/TrackedBuf.lean has the buffered functions with whole errors. A stream that notes its failures is run through them (induction over the loops); the notes are compared with the result |
| C102 | Model/TrackedLeaves.lean has these codecs with whole errors. Case analysis of each call; C100's induction over compositions carries it to programs |
| C103 | Each side of a relay is a pipe of C51 (projection of runs), and what was sent on is what was taken. For delivery, a run of the first pipe is replayed inside the relay, draining the second pipe before each message; induction over the hops for a row of relays |
| C104 | Within one message the listener is a receiver of C87 (read buffer and one decoder) on the rest of the stream, for which the contract of a matched pair holds with the later messages as what follows; taking a message leaves exactly the encodings of the later ones. Induction over the steps and over the conversation |

## 5. Deviations found in the code

Each is proved of the model: a theorem with suffix `_fails` exhibits it, and a theorem with suffix `_partial`
(or the unsuffixed theorems of the claim) proves what remains. File and line refer to `/repo/src`.

| # | what the code does | where | theorems |
|---|---|---|---|
| 1 | `ByteCount`: `Unknown == Unknown` but `partial_cmp` is `None` | byte_count.rs 86 | `C03_equal_fails` |
| 2 | An idle `MonolithicDecoder` consumes more bytes and replaces its item; a failed parse leaves the gathered bytes in front of the next item; a parser that leaves bytes unread has them swallowed when the input is chunked | monolithic.rs 52 | `C06_monolithic_fails`, `C55_holding_fails`, `C47_error_fails`, `C07_monolithic_trailing_fails` |
| 3 | `Length::decode` counts the buffer twice in its eos check, so a too short stream is accepted for one more call | combinator.rs 726 | `C09_length_fails`, `C25_short_fails` |
| 4 | `Length::is_idle` is that of the inner decoder, also when declared bytes are missing | combinator.rs 748 | `C52_length_fails` |
| 5 | A failed `finish_decoding` of the inner decoder restarts the counters of `Length`, `MaxBytes`, `MaybeEos` | combinator.rs 737, 1034, 1440 | `C25_failed_finish_fails`, `C27_failed_finish_fails`, `C31_failed_finish_fails` |
| 6 | `Length` encoder is one-shot for positive lengths, and without an item it is not idle | combinator.rs 752 | `C26_reuse_fails`, `C26_empty_fails`, `C53_length_fails` |
| 7 | `TupleEncoder::start_encoding` is not atomic: a rejected tuple leaves its first components in the encoder, possibly in the middle of the tuple being encoded | tuple.rs 109 | `C20_rejected_fails`, `C20_busy_fails` |
| 8 | A failed `finish_decoding` of a tuple or `and_then` loses items already finished | tuple.rs 43, combinator.rs 223 | C10 witnesses |
| 9 | `Collect` drops a truncated item silently when EOS comes in an empty buffer and puts it in front of the next stream, loops forever on zero-byte items, and its `requiring_bytes` is no lower bound | combinator.rs 622 | `C23_truncated_fails`, `C23_leaks_fails`, `C08_collect_fails`, `C23_empty_items_fails`, `C52_collect_fails` |
| 10 | `Collect`/`CollectN` over a decoder that ends at EOS depend on the chunking | combinator.rs 628, 854 | `C07_collectN_remaining_fails` |
| 11 | `CollectN` does not decode zero-byte items from an empty buffer | combinator.rs 854 | `C24_empty_items_fails`, `C42_collectN_hangs_fails` |
| 12 | `MaxBytes::decode` rejects by what is offered, not by what the item needs | combinator.rs 1009 | `C08_maxBytes_fails` |
| 13 | `MaxBytes::encode` does not restart its counter after a rejected item | combinator.rs 1050 | `C28_restart_fails` |
| 14 | `Last::exact_requiring_bytes` leaves out the pending item; `Last::encode` does not fill the buffer | combinator.rs 1272, 1300 | `C33_exact_fails`, `C54_last_fails` |
| 15 | `Repeat` stops early at an item with an empty encoding, `encode_all` then fails | combinator.rs 424 | `C35_empty_item_fails` |
| 16 | `MonolithicEncoder`: too little room at EOS goes unnoticed in the first call | monolithic.rs 132 | `C46_too_short_fails` |
| 17 | `poll_flush` never wakes the waker stored by `encode_to_write_buf_async` | io_async.rs 55 | `C45_poll_flush_wakes_nobody_fails` |
| 18 | `decode_exact` hangs on `maybe_eos` at the end of the stream, on `collectn` of zero-byte items and on `collect` over a one-shot item decoder | io.rs 30 | `C42_maybeEos_hangs_fails`, `C42_collectN_hangs_fails`, `C42_collect_hangs_fails` |
| 19 | `RemainingBytesDecoder` panics (capacity overflow) on absurd announced lengths | bytes.rs 309 | `C17_capacity` |
| 20 | `decode` of `Peekable` fails with `IncompleteDecoding` when `Length` inside it expects more bytes than the item has | combinator.rs 1364 | `C57_peekable_fails` |
| 21 | A failed `start_encoding` of `PreEncode` leaves the inner encoder busy: the idle encoder then rejects everything | combinator.rs 1118 | `C58_preEncode_fails` |
| 22 | `BincodeDecoder` swallows bytes after the item when they come before the last chunk (see 2) | bincode_codec.rs 77 | `C60_trailing_fails` |
| 23 | `requiring_bytes` of a tuple overflows (panics) after a peer announced a frame of nearly 2^64 bytes | tuple.rs 51-53, byte_count.rs 54 | `C61_announced_fails` |
| 24 | `collect` with the end of the stream in an empty piece drops the bytes of an incomplete last item: decoding and encoding again is shorter than the input | combinator.rs 622-638 | `C63_collect_fails` |
| 25 | a `length(0)` frame around `maybe_eos`, or a `length` frame in a shorter one, stays busy without taking the bytes offered: callers that wait for it spin | combinator.rs 723-735, 748-750, 1428-1438 | `C64_frame_maybe_eos_fails`, `C64_frame_frame_fails` |
| 26 | `collect` whose inner decoder is set to empty items through `inner_mut` runs forever | `Collect::inner_mut`, `decode` | `C67_collect_inner_mut_hang` |
| 27 | a read buffer that has run empty answers `Ok(0)`: whatever reads from it sees the end of the stream, although the stream behind it only would block | io.rs 242-253 | `C75_drained_is_eos_fails` |
| 28 | a write buffer that is full answers `Ok(0)`: a flush into it sets the state `Eos`, and the next `encode_to_write_buf` fails with `UnexpectedEos` | io.rs 323-379 | `C75_full_is_eos_fails` |
| 29 | an item longer than the declared `length` is reported as `UnexpectedEos` although the stream goes on; `start_encoding` of `pre_encode` fails with `UnexpectedEos` or, over an encoder that pauses, with `InconsistentState` | combinator.rs 755-776, 1118; encode.rs 428-447 | `C77_length_fails`, `C77_preEncode_fails` |
| 30 | The memory asked for does not follow the data received: `RemainingBytesDecoder` reserves whatever distance is announced. The sender of a length prefix chooses it, and `max_bytes` around the frame does not help (inside the frame it does: `C81_max_inside`). | `src/bytes.rs` 308-310 | `C81_announced_fails`, `C81_max_outside_fails` |
| 31 | `decode_exact` asks a sliced decoder how much it requires, which does not take the allowance into account: bytes beyond the allowance are read from the reader and lost, and the error is `InconsistentState` | io.rs 30-52; combinator.rs 1204-1206 | `C42_slice_fails` |
| 32 | One call of `collectn` over items without bytes runs through its whole count as soon as one byte is available: the work is not bounded by the input | `CollectN::decode`, `src/combinator.rs` 854-860 | `C91_collectn_empty_items_fails` |
| 33 | `encode_all` called again after a write error (such as `WouldBlock`) goes on after bytes that were never written, and returns `Ok` | src/io.rs 95-105: `write_all(&buf[..size])` of a local buffer | `C93_encode_all_fails` |
| 34 | A tuple decoder whose first component refuses its item keeps the items of the later components and mixes them into the next tuple | src/tuple.rs 46-50: `finish_decoding` stops at the first error | `C94_tuple_mixes_fails` |
| 35 | When an item is refused inside `decode` (`peekable`, `collect`, `collectn`, header of `and_then`), the number of bytes taken is not reported; `decode_from_read_buf` offers the same bytes forever | src/combinator.rs 1364-1374 (`Peekable::decode`), src/io.rs 11-21 | `C94_stuck_fails` |
| 36 | When both directions of a `BufferedIo` fail in one `execute_io_poll`, the error of the write direction is dropped: it is in no result, only the state of the write buffer is `Error` | src/io_async.rs 101-112: both results are computed first, then `track!(rresult)?` returns | `C101_execute_io_poll_fails` |

## 6. Testing the theorems against wrong programs (`seeded/LOG.jsonl`)

Each line is one edit of the model in a scratch copy, rebuilt completely. `theorems_failed` lists the theorems of the manifest
that are no longer proved, either because their own proof breaks or because a lemma they use does. This is weaker than
saying that their statements became false: a proof may break although the statement survives the edit. Where this was noticed
(the theorem allows the wrong result in another clause), the remark says so and `theorems_tightened` names the theorem that
was added or sharpened so that its statement is false for the edited model. It has not been checked for every line.
