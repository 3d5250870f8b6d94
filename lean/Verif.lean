import Verif.Lemmas.Adjust
import Verif.Lemmas.AdjustEnc
import Verif.Lemmas.Buf
import Verif.Lemmas.BufAccess
import Verif.Lemmas.BufStreams
import Verif.Lemmas.Bytewise
import Verif.Lemmas.Captured
import Verif.Lemmas.Codes
import Verif.Lemmas.CodesIo
import Verif.Lemmas.Containers
import Verif.Lemmas.DecodeExact
import Verif.Lemmas.Default
import Verif.Lemmas.Demand
import Verif.Lemmas.Duplex
import Verif.Lemmas.DuplexPolls
import Verif.Lemmas.DuplexRun
import Verif.Lemmas.Eager
import Verif.Lemmas.EosLast
import Verif.Lemmas.Exact
import Verif.Lemmas.ExactAsk
import Verif.Lemmas.Feed
import Verif.Lemmas.Flow
import Verif.Lemmas.Frames
import Verif.Lemmas.Full
import Verif.Lemmas.Greedy
import Verif.Lemmas.Idle
import Verif.Lemmas.InPlace
import Verif.Lemmas.InPlaceTuple
import Verif.Lemmas.Interchange
import Verif.Lemmas.InterchangeEnc
import Verif.Lemmas.Interrupted
import Verif.Lemmas.Join
import Verif.Lemmas.Kinds
import Verif.Lemmas.KindsEnc
import Verif.Lemmas.Laws
import Verif.Lemmas.LawsEnc
import Verif.Lemmas.Lookahead
import Verif.Lemmas.Lossless
import Verif.Lemmas.Matched
import Verif.Lemmas.Memory
import Verif.Lemmas.Metered
import Verif.Lemmas.MeteredEnc
import Verif.Lemmas.MonoInner
import Verif.Lemmas.MonoMemory
import Verif.Lemmas.Mux
import Verif.Lemmas.Numbers
import Verif.Lemmas.OneShot
import Verif.Lemmas.Overflow
import Verif.Lemmas.Own
import Verif.Lemmas.PipeProgress
import Verif.Lemmas.Pipeline
import Verif.Lemmas.Productive
import Verif.Lemmas.Program
import Verif.Lemmas.Progress
import Verif.Lemmas.Reach
import Verif.Lemmas.Reads
import Verif.Lemmas.Receive
import Verif.Lemmas.Relay
import Verif.Lemmas.RepeatAny
import Verif.Lemmas.Requiring
import Verif.Lemmas.Restart
import Verif.Lemmas.Retry
import Verif.Lemmas.Reuse
import Verif.Lemmas.ReuseCollect
import Verif.Lemmas.ReuseEnc
import Verif.Lemmas.ReuseMany
import Verif.Lemmas.Safe
import Verif.Lemmas.SafeEnc
import Verif.Lemmas.Sequence
import Verif.Lemmas.Session
import Verif.Lemmas.SessionRun
import Verif.Lemmas.Slice
import Verif.Lemmas.Split
import Verif.Lemmas.SplitComb
import Verif.Lemmas.SplitSeq
import Verif.Lemmas.Stall
import Verif.Lemmas.Steadfast
import Verif.Lemmas.Stripped
import Verif.Lemmas.StrippedEnc
import Verif.Lemmas.Talk
import Verif.Lemmas.Tally
import Verif.Lemmas.Tasks
import Verif.Lemmas.Trace
import Verif.Lemmas.TrackedBuf
import Verif.Lemmas.TrackedErase
import Verif.Lemmas.TrackedEraseEnc
import Verif.Lemmas.TrackedIo
import Verif.Lemmas.TrackedLeaves
import Verif.Lemmas.TrackedOrigin
import Verif.Lemmas.TrackedOriginEnc
import Verif.Lemmas.TrackedStop
import Verif.Lemmas.TrackedStopEnc
import Verif.Lemmas.TupleNested
import Verif.Lemmas.Unambiguous
import Verif.Lemmas.Utf8
import Verif.Lemmas.Vetted
import Verif.Lemmas.Weighed
import Verif.Lemmas.Work
import Verif.Lemmas.WorkOnce
import Verif.Lemmas.Writes
import Verif.Model.Access
import Verif.Model.Basic
import Verif.Model.Buf
import Verif.Model.BufAccess
import Verif.Model.BufStreams
import Verif.Model.Bytes
import Verif.Model.Captured
import Verif.Model.Containers
import Verif.Model.Core
import Verif.Model.DecCombinator
import Verif.Model.Default
import Verif.Model.EncCombinator
import Verif.Model.Fixnum
import Verif.Model.Forward
import Verif.Model.InPlace
import Verif.Model.InPlaceTuple
import Verif.Model.Interrupted
import Verif.Model.Io
import Verif.Model.Memory
import Verif.Model.MonoInner
import Verif.Model.MonoMemory
import Verif.Model.Monolithic
import Verif.Model.NullPadding
import Verif.Model.Overflow
import Verif.Model.Program
import Verif.Model.Serde
import Verif.Model.Tracked
import Verif.Model.TrackedBuf
import Verif.Model.TrackedLeaves
import Verif.Model.TrackedTuple
import Verif.Model.Tuple
import Verif.Props.Adjust
import Verif.Props.BufAccess
import Verif.Props.BufStreams
import Verif.Props.Buffers
import Verif.Props.Captured
import Verif.Props.Chunking
import Verif.Props.Containers
import Verif.Props.Counts
import Verif.Props.Decoding
import Verif.Props.Default
import Verif.Props.Duplex
import Verif.Props.Encoding
import Verif.Props.Exact
import Verif.Props.ExactAsk
import Verif.Props.Flow
import Verif.Props.Greedy
import Verif.Props.InPlace
import Verif.Props.Interchange
import Verif.Props.Interrupted
import Verif.Props.Kinds
import Verif.Props.KindsEnc
import Verif.Props.Laws
import Verif.Props.Leaves
import Verif.Props.Limits
import Verif.Props.Lookahead
import Verif.Props.Lossless
import Verif.Props.Memory
import Verif.Props.Metered
import Verif.Props.MeteredEnc
import Verif.Props.MonoInner
import Verif.Props.MonoMemory
import Verif.Props.Mux
import Verif.Props.Numbers
import Verif.Props.Overflow
import Verif.Props.Own
import Verif.Props.PipeProgress
import Verif.Props.Pipeline
import Verif.Props.Program
import Verif.Props.Progress
import Verif.Props.Receive
import Verif.Props.Relay
import Verif.Props.Requiring
import Verif.Props.Restart
import Verif.Props.Retry
import Verif.Props.Reuse
import Verif.Props.Sequences
import Verif.Props.Serde
import Verif.Props.Session
import Verif.Props.Slices
import Verif.Props.Steadfast
import Verif.Props.Stripped
import Verif.Props.Talk
import Verif.Props.Tasks
import Verif.Props.Tracked
import Verif.Props.TrackedBuf
import Verif.Props.TrackedIo
import Verif.Props.TrackedLeaves
import Verif.Props.Transparent
import Verif.Props.Unambiguous
import Verif.Props.Vetted
import Verif.Props.Weighed
import Verif.Props.Work
import Verif.Spec.Adjust
import Verif.Spec.AdjustEnc
import Verif.Spec.Assembled
import Verif.Spec.AssembledEnc
import Verif.Spec.BufAccess
import Verif.Spec.Bytewise
import Verif.Spec.Captured
import Verif.Spec.Containers
import Verif.Spec.Counts
import Verif.Spec.Decode
import Verif.Spec.Default
import Verif.Spec.Duplex
import Verif.Spec.Encode
import Verif.Spec.Exact
import Verif.Spec.Format
import Verif.Spec.Greedy
import Verif.Spec.InPlace
import Verif.Spec.Interchange
import Verif.Spec.Interrupted
import Verif.Spec.Io
import Verif.Spec.Kinds
import Verif.Spec.Lossless
import Verif.Spec.Matched
import Verif.Spec.Memory
import Verif.Spec.Metered
import Verif.Spec.MeteredEnc
import Verif.Spec.MonoInner
import Verif.Spec.Mux
import Verif.Spec.Numbers
import Verif.Spec.Overflow
import Verif.Spec.PipeProgress
import Verif.Spec.Pipeline
import Verif.Spec.Program
import Verif.Spec.Progress
import Verif.Spec.Receive
import Verif.Spec.Relay
import Verif.Spec.Requiring
import Verif.Spec.Restart
import Verif.Spec.Retry
import Verif.Spec.Reuse
import Verif.Spec.Session
import Verif.Spec.Slice
import Verif.Spec.Stall
import Verif.Spec.Steadfast
import Verif.Spec.Stream
import Verif.Spec.Streamable
import Verif.Spec.Stripped
import Verif.Spec.Talk
import Verif.Spec.Tasks
import Verif.Spec.Trace
import Verif.Spec.Tracked
import Verif.Spec.TrackedBuf
import Verif.Spec.TrackedIo
import Verif.Spec.TrackedLeaves
import Verif.Spec.Vetted
import Verif.Spec.Weighed
import Verif.Spec.Work
import Verif.Validation.Run
import Verif.Validation.Tests
