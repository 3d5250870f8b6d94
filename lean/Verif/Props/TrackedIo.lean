import Verif.Lemmas.TrackedIo
/-!
# C100, continued: errors of closures, readers and writers are not replaced either

`C100_decoder` and its companions allow errors of the library's own in every place. The theorems here say that none of those
takes the place of an error that a closure, a reader or a writer has just returned. (For errors of parts this is
`C100_not_swallowed`; what surrounds a `try_map` may take it for a part.)
-/
namespace Bytecodec.Props
open Bytecodec

variable {κ σ α β ρ ω : Type}

/-- C100: when the closure of `try_map` refuses an item, `finish_decoding` returns the closure's error. -/
theorem C100_try_map (D : TDecoder κ σ α) (f : α → Except (TError κ) β) (s s' : σ) (a : α) (o : TError κ)
    (hd : D.finish s = (.ok a, s')) (hf : f a = .error o) :
    ∃ x, (tTryMapDecoder D f).finish s = (.err x, s') ∧ Surfaces o x := by
  refine ⟨_, ?_, (Surfaces.refl o).track (inCombinator 933)⟩
  simp only [tTryMapDecoder, hd, tracked, TRes.step, hf]

/-- C100: when the closure of `try_map_from` refuses an item, `start_encoding` returns the closure's error and leaves the encoder
alone. -/
theorem C100_try_map_from (E : TEncoder κ σ α) (f : β → Except (TError κ) α) (s : σ) (b : β) (o : TError κ)
    (hf : f b = .error o) : ∃ x, (tTryMapFromEncoder E f).start s b = (.err x, s) ∧ Surfaces o x := by
  refine ⟨_, ?_, (Surfaces.refl o).track (inCombinator 355)⟩
  simp only [tTryMapFromEncoder, hf, tracked]

/-- C100: for bytes that are no UTF-8 text, `Utf8Decoder` returns an error caused by the error of the conversion. -/
theorem C100_utf8 (bad : Bytes → κ) (D : TDecoder κ σ Bytes) (s s' : σ) (b : Bytes) (hd : D.finish s = (.ok b, s'))
    (hb : fromUtf8 b = none) :
    ∃ x, (tUtf8Decoder bad D).finish s = (.err x, s') ∧ x.kind = .invalidInput ∧ x.cause = some (.given (bad b)) := by
  refine ⟨TError.track ⟨"bytes.rs", 454⟩ ⟨.invalidInput, some (.given (bad b)), some []⟩, ?_, rfl, rfl⟩
  simp only [tUtf8Decoder, hd, tracked, TRes.step, hb]

/-- C100: `map_err` gives the closure the error as it was and returns what the closure makes of it, as it is; it touches
nothing else. -/
theorem C100_map_err (D : TDecoder κ σ α) (E : TEncoder κ σ α) (g : TError κ → TError κ) (x : TError κ) :
    (∀ s b e s', D.decode s b e = (.err x, s') → (tMapErrDecoder D g).decode s b e = (.err (g x), s')) ∧
      (∀ s s', D.finish s = (.err x, s') → (tMapErrDecoder D g).finish s = (.err (g x), s')) ∧
      (∀ s n e s', E.encode s n e = (.err x, s') → (tMapErrEncoder E g).encode s n e = (.err (g x), s')) ∧
      ∀ s a s', E.start s a = (.err x, s') → (tMapErrEncoder E g).start s a = (.err (g x), s') := by
  refine ⟨fun s b e s' h => ?_, fun s s' h => ?_, fun s n e s' h => ?_, fun s a s' h => ?_⟩
  · simp only [tMapErrDecoder, h, TRes.mapErr]
  · simp only [tMapErrDecoder, h, TRes.mapErr]
  · simp only [tMapErrEncoder, h, TRes.mapErr]
  · simp only [tMapErrEncoder, h, TRes.mapErr]

/-- C100: a failure of the reader ends `decode_exact`, and what it returns is the error caused by that failure. -/
theorem C100_reader_reported (D : TDecoder κ σ α) (R : TReader κ ρ) (s s' : σ) (r r' : ρ) (res : TRes κ α)
    (fs : List (Failed κ)) (h : tDecodeExact D R.notingAll s (r, []) = some (res, s', r', fs)) :
    tDecodeExact D R s r = some (res, s', r') ∧ ReportsAny fs res := by
  obtain ⟨gs, h1, h2, h3⟩ := tDecodeExact_notingAll D R s (r, []) _ h
  simp only [List.nil_append] at h1
  subst h1
  exact ⟨h2, h3⟩

/-- C100: a failure of the writer ends `encode_all`, and what it returns is the error caused by that failure. -/
theorem C100_writer_reported (zero : κ) (E : TEncoder κ σ α) (W : TWriter κ ω) (s s' : σ) (w w' : ω) (res : TRes κ Unit)
    (fs : List (Failed κ)) (h : tEncodeAll zero E (W.notingAll zero) s (w, []) = some (res, s', w', fs)) :
    tEncodeAll zero E W s w = some (res, s', w') ∧ ReportsAny fs res := by
  obtain ⟨gs, h1, h2, h3⟩ := tEncodeAll_notingAll zero E W s (w, []) _ h
  simp only [List.nil_append] at h1
  subst h1
  exact ⟨h2, h3⟩

/-- A decoder for the examples that wants two bytes and yields them. -/
private def twoBytes : TDecoder String Bytes Bytes where
  decode s b _ := (.ok (min b.length (2 - s.length)), s ++ b.take (2 - s.length))
  finish s := (.ok s, [])
  requiring s := .finite (2 - s.length)
  isIdle s := s.length == 2

/-- A reader that gives one byte and then fails. -/
private def oneThenFail : TReader String Bool where
  read r _ := if r then (.error .wouldBlock "not yet", true) else (.data [5], true)

/-- The failure is noted and reported. -/
example : tDecodeExact twoBytes oneThenFail.notingAll [] (false, []) =
    some (.err ⟨.other, some (.given "not yet"), some [⟨"io.rs", 39⟩]⟩, [5], true, [(.wouldBlock, "not yet")]) := by
  rw [tDecodeExact]
  simp [twoBytes, oneThenFail, TReader.notingAll, TReadRes.failures, tracked]
  rw [tDecodeExact]
  simp [TError.ofIo, TError.track, ErrorKind.ofIo]

/-- A writer that accepts nothing. -/
private def deaf : TWriter String Unit := ⟨fun _ _ => (.wrote 0, ())⟩

example : tEncodeAll "zero" tBytesEncoder (deaf.notingAll "zero") ⟨some [1, 2], 0⟩ ((), []) =
    some (.err ⟨.other, some (.given "zero"), some [⟨"io.rs", 99⟩]⟩, ⟨none, 2⟩, (), [(.other, "zero")]) := by
  rw [tEncodeAll]
  simp [tBytesEncoder, tracked, tWriteAll, deaf, TWriter.notingAll, TWriteRes.failuresOr, TError.ofIo, TError.track,
    ErrorKind.ofIo]

/-- Bytes that are no text. -/
example : ∃ b, fromUtf8 b = none ∧ (twoBytes.finish b).1 = .ok b := ⟨[0xff, 0xff], by decide +kernel, rfl⟩

end Bytecodec.Props
