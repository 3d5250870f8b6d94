import Verif.Model.TrackedTuple
/-!
# Specification: what becomes of an error on its way out

* `erase` forgets everything of an error but its kind, as the rest of the model does.
* `Surfaces o x`: `x` is the error `o` with possibly more places in its history; kind and cause are those of `o`, and what
  was in the history stays in front.
* `Own x`: the error was made by an assertion of the library itself.
* `TracedDec O D P` / `TracedEnc O E P`: `D` (with whole errors) and `P` (with kinds only) are the same program, built with
  the combinators from any parts and closures, whose errors are those in `O`.
* `StoppedDec Q D D'` / `StoppedEnc Q E E'`: `D'` is the program `D` over parts that stop dead (as a panic) where they would
  return an error with a cause in `Q`; the closures of the program do not make such causes.
-/
namespace Bytecodec

variable {κ σ α β τ : Type}

/-! ## Forgetting all but the kind -/

def TRes.erase : TRes κ α → Res α
  | .ok a => .ok a
  | .err e => .err e.kind
  | .panic => .panic
  | .capacity => .capacity
  | .diverge => .diverge

def eraseP (p : TRes κ α × τ) : Res α × τ := (p.1.erase, p.2)

def TDecoder.erase (D : TDecoder κ σ α) : Decoder σ α where
  decode s buf e := eraseP (D.decode s buf e)
  finish s := eraseP (D.finish s)
  requiring := D.requiring
  isIdle := D.isIdle

def TEncoder.erase (E : TEncoder κ σ α) : Encoder σ α where
  encode s cap e := eraseP (E.encode s cap e)
  start s x := eraseP (E.start s x)
  requiring := E.requiring
  isIdle := E.isIdle

/-- A fallible closure with kinds only. -/
def eraseFn (f : α → Except (TError κ) β) (x : α) : Except ErrorKind β :=
  match f x with
  | .ok y => .ok y
  | .error e => .error e.kind

def TReadRes.erase : TReadRes κ → ReadRes
  | .data bs => .data bs
  | .error k _ => .error k

def TReader.erase {ρ : Type} (R : TReader κ ρ) : Reader ρ where
  read r n := ((R.read r n).1.erase, (R.read r n).2)

def TWriteRes.erase : TWriteRes κ → WriteRes
  | .wrote n => .wrote n
  | .error k _ => .error k

def TWriter.erase {ω : Type} (W : TWriter κ ω) : Writer ω where
  write w b := ((W.write w b).1.erase, (W.write w b).2)

/-! ## Where errors come from -/

/-- `x` is `o`, tracked further. -/
def Surfaces (o x : TError κ) : Prop :=
  x.kind = o.kind ∧ x.cause = o.cause ∧ ∃ ls, x.history = o.history.map (· ++ ls)

/-- Made by `track_assert!` or `track_panic!` in the library. -/
def Own (x : TError κ) : Prop := ∃ k l, x = .raised k l ∨ x = .bare k l

/-- `x` is an error from `O`, or one of the library's own, tracked further. -/
def Arrives (O : TError κ → Prop) (x : TError κ) : Prop := ∃ o, (O o ∨ Own o) ∧ Surfaces o x

/-- The error for an I/O error `c` of kind `k`: `c` is the cause, and nothing has been tracked yet. -/
def becauseOf (k : IoErr) (c : κ) : TError κ where
  kind := if k = .unexpectedEof then .unexpectedEos else .other
  cause := some (.given c)
  history := some []

/-- The errors the calls of a decoder return. -/
def RaisedBy (D : TDecoder κ σ α) (x : TError κ) : Prop :=
  (∃ s b e, (D.decode s b e).1 = .err x) ∨ ∃ s, (D.finish s).1 = .err x

/-- The errors the calls of an encoder return. -/
def RaisedByE (E : TEncoder κ σ α) (x : TError κ) : Prop :=
  (∃ s n e, (E.encode s n e).1 = .err x) ∨ ∃ s a, (E.start s a).1 = .err x

inductive TracedDec : {σ α : Type} → (TError κ → Prop) → TDecoder κ σ α → Decoder σ α → Prop where
  | part {σ α : Type} (D : TDecoder κ σ α) : TracedDec (RaisedBy D) D D.erase
  | map {σ α β : Type} {O} {D : TDecoder κ σ α} {P} (f : α → β) (h : TracedDec O D P) :
      TracedDec O (tMapDecoder D f) (mapDecoder P f)
  | tryMap {σ α β : Type} {O} {D : TDecoder κ σ α} {P} (f : α → Except (TError κ) β) (h : TracedDec O D P) :
      TracedDec (fun x => O x ∨ ∃ a, f a = .error x) (tTryMapDecoder D f) (tryMapDecoder P (eraseFn f))
  | mapErr {σ α : Type} {O} {D : TDecoder κ σ α} {P} (g : TError κ → TError κ) (g' : ErrorKind → ErrorKind)
      (hg : ∀ x, (g x).kind = g' x.kind) (h : TracedDec O D P) :
      TracedDec (fun x => ∃ y, Arrives O y ∧ x = g y) (tMapErrDecoder D g) (mapErrDecoder P g')
  | andThen {σ0 α0 σ1 α1 : Type} {O0 O1} {D0 : TDecoder κ σ0 α0} {P0} {D1 : TDecoder κ σ1 α1} {P1} (f : α0 → σ1)
      (h0 : TracedDec O0 D0 P0) (h1 : TracedDec O1 D1 P1) :
      TracedDec (fun x => O0 x ∨ O1 x) (tAndThenDecoder D0 D1 f) (andThenDecoder P0 P1 f)
  | pair {σ0 α0 σ1 α1 : Type} {O0 O1} {D0 : TDecoder κ σ0 α0} {P0} {D1 : TDecoder κ σ1 α1} {P1}
      (h0 : TracedDec O0 D0 P0) (h1 : TracedDec O1 D1 P1) :
      TracedDec (fun x => O0 x ∨ O1 x) (tPairDecoder D0 D1) (tupleDecoder2 P0 P1)
  | tuple3 {σ0 α0 σ1 α1 σ2 α2 : Type} {O0 O1 O2}
      {D0 : TDecoder κ σ0 α0} {P0}
      {D1 : TDecoder κ σ1 α1} {P1}
      {D2 : TDecoder κ σ2 α2} {P2}
      (h0 : TracedDec O0 D0 P0)
      (h1 : TracedDec O1 D1 P1)
      (h2 : TracedDec O2 D2 P2) :
      TracedDec (fun x => O0 x ∨ O1 x ∨ O2 x)
        (tTuple3Decoder D0 D1 D2) (tupleDecoder3 P0 P1 P2)
  | tuple4 {σ0 α0 σ1 α1 σ2 α2 σ3 α3 : Type} {O0 O1 O2 O3}
      {D0 : TDecoder κ σ0 α0} {P0}
      {D1 : TDecoder κ σ1 α1} {P1}
      {D2 : TDecoder κ σ2 α2} {P2}
      {D3 : TDecoder κ σ3 α3} {P3}
      (h0 : TracedDec O0 D0 P0)
      (h1 : TracedDec O1 D1 P1)
      (h2 : TracedDec O2 D2 P2)
      (h3 : TracedDec O3 D3 P3) :
      TracedDec (fun x => O0 x ∨ O1 x ∨ O2 x ∨ O3 x)
        (tTuple4Decoder D0 D1 D2 D3) (tupleDecoder4 P0 P1 P2 P3)
  | tuple5 {σ0 α0 σ1 α1 σ2 α2 σ3 α3 σ4 α4 : Type} {O0 O1 O2 O3 O4}
      {D0 : TDecoder κ σ0 α0} {P0}
      {D1 : TDecoder κ σ1 α1} {P1}
      {D2 : TDecoder κ σ2 α2} {P2}
      {D3 : TDecoder κ σ3 α3} {P3}
      {D4 : TDecoder κ σ4 α4} {P4}
      (h0 : TracedDec O0 D0 P0)
      (h1 : TracedDec O1 D1 P1)
      (h2 : TracedDec O2 D2 P2)
      (h3 : TracedDec O3 D3 P3)
      (h4 : TracedDec O4 D4 P4) :
      TracedDec (fun x => O0 x ∨ O1 x ∨ O2 x ∨ O3 x ∨ O4 x)
        (tTuple5Decoder D0 D1 D2 D3 D4) (tupleDecoder5 P0 P1 P2 P3 P4)
  | tuple6 {σ0 α0 σ1 α1 σ2 α2 σ3 α3 σ4 α4 σ5 α5 : Type} {O0 O1 O2 O3 O4 O5}
      {D0 : TDecoder κ σ0 α0} {P0}
      {D1 : TDecoder κ σ1 α1} {P1}
      {D2 : TDecoder κ σ2 α2} {P2}
      {D3 : TDecoder κ σ3 α3} {P3}
      {D4 : TDecoder κ σ4 α4} {P4}
      {D5 : TDecoder κ σ5 α5} {P5}
      (h0 : TracedDec O0 D0 P0)
      (h1 : TracedDec O1 D1 P1)
      (h2 : TracedDec O2 D2 P2)
      (h3 : TracedDec O3 D3 P3)
      (h4 : TracedDec O4 D4 P4)
      (h5 : TracedDec O5 D5 P5) :
      TracedDec (fun x => O0 x ∨ O1 x ∨ O2 x ∨ O3 x ∨ O4 x ∨ O5 x)
        (tTuple6Decoder D0 D1 D2 D3 D4 D5) (tupleDecoder6 P0 P1 P2 P3 P4 P5)
  | tuple7 {σ0 α0 σ1 α1 σ2 α2 σ3 α3 σ4 α4 σ5 α5 σ6 α6 : Type} {O0 O1 O2 O3 O4 O5 O6}
      {D0 : TDecoder κ σ0 α0} {P0}
      {D1 : TDecoder κ σ1 α1} {P1}
      {D2 : TDecoder κ σ2 α2} {P2}
      {D3 : TDecoder κ σ3 α3} {P3}
      {D4 : TDecoder κ σ4 α4} {P4}
      {D5 : TDecoder κ σ5 α5} {P5}
      {D6 : TDecoder κ σ6 α6} {P6}
      (h0 : TracedDec O0 D0 P0)
      (h1 : TracedDec O1 D1 P1)
      (h2 : TracedDec O2 D2 P2)
      (h3 : TracedDec O3 D3 P3)
      (h4 : TracedDec O4 D4 P4)
      (h5 : TracedDec O5 D5 P5)
      (h6 : TracedDec O6 D6 P6) :
      TracedDec (fun x => O0 x ∨ O1 x ∨ O2 x ∨ O3 x ∨ O4 x ∨ O5 x ∨ O6 x)
        (tTuple7Decoder D0 D1 D2 D3 D4 D5 D6) (tupleDecoder7 P0 P1 P2 P3 P4 P5 P6)
  | tuple8 {σ0 α0 σ1 α1 σ2 α2 σ3 α3 σ4 α4 σ5 α5 σ6 α6 σ7 α7 : Type} {O0 O1 O2 O3 O4 O5 O6 O7}
      {D0 : TDecoder κ σ0 α0} {P0}
      {D1 : TDecoder κ σ1 α1} {P1}
      {D2 : TDecoder κ σ2 α2} {P2}
      {D3 : TDecoder κ σ3 α3} {P3}
      {D4 : TDecoder κ σ4 α4} {P4}
      {D5 : TDecoder κ σ5 α5} {P5}
      {D6 : TDecoder κ σ6 α6} {P6}
      {D7 : TDecoder κ σ7 α7} {P7}
      (h0 : TracedDec O0 D0 P0)
      (h1 : TracedDec O1 D1 P1)
      (h2 : TracedDec O2 D2 P2)
      (h3 : TracedDec O3 D3 P3)
      (h4 : TracedDec O4 D4 P4)
      (h5 : TracedDec O5 D5 P5)
      (h6 : TracedDec O6 D6 P6)
      (h7 : TracedDec O7 D7 P7) :
      TracedDec (fun x => O0 x ∨ O1 x ∨ O2 x ∨ O3 x ∨ O4 x ∨ O5 x ∨ O6 x ∨ O7 x)
        (tTuple8Decoder D0 D1 D2 D3 D4 D5 D6 D7) (tupleDecoder8 P0 P1 P2 P3 P4 P5 P6 P7)
  | omittable {σ α : Type} {O} {D : TDecoder κ σ α} {P} (h : TracedDec O D P) :
      TracedDec O (tOmittableDecoder D) (omittableDecoder P)
  | collect {σ α : Type} {O} {D : TDecoder κ σ α} {P} (h : TracedDec O D P) :
      TracedDec O (tCollectDecoder D) (collectDecoder P)
  | collectN {σ α : Type} {O} {D : TDecoder κ σ α} {P} (h : TracedDec O D P) :
      TracedDec O (tCollectNDecoder D) (collectNDecoder P)
  | length {σ α : Type} {O} {D : TDecoder κ σ α} {P} (h : TracedDec O D P) :
      TracedDec O (tLengthDecoder D) (lengthDecoder P)
  | maxBytes {σ α : Type} {O} {D : TDecoder κ σ α} {P} (h : TracedDec O D P) :
      TracedDec O (tMaxBytesDecoder D) (maxBytesDecoder P)
  | slice {σ α : Type} {O} {D : TDecoder κ σ α} {P} (h : TracedDec O D P) :
      TracedDec O (tSliceDecoder D) (sliceDecoder P)
  | peekable {σ α : Type} {O} {D : TDecoder κ σ α} {P} (h : TracedDec O D P) :
      TracedDec O (tPeekableDecoder D) (peekableDecoder P)
  | maybeEos {σ α : Type} {O} {D : TDecoder κ σ α} {P} (h : TracedDec O D P) :
      TracedDec O (tMaybeEosDecoder D) (maybeEosDecoder P)
  | utf8 {σ : Type} {O} {D : TDecoder κ σ Bytes} {P} (bad : Bytes → κ) (h : TracedDec O D P) :
      TracedDec (fun x => O x ∨ ∃ b, x = ⟨.invalidInput, some (.given (bad b)), some []⟩)
        (tUtf8Decoder bad D) (utf8Decoder P)

inductive TracedEnc : {σ α : Type} → (TError κ → Prop) → TEncoder κ σ α → Encoder σ α → Prop where
  | part {σ α : Type} (E : TEncoder κ σ α) : TracedEnc (RaisedByE E) E E.erase
  | bytes : TracedEnc (fun _ => False) tBytesEncoder (bytesEncoder id).toEncoder
  | mapErr {σ α : Type} {O} {E : TEncoder κ σ α} {P} (g : TError κ → TError κ) (g' : ErrorKind → ErrorKind)
      (hg : ∀ x, (g x).kind = g' x.kind) (h : TracedEnc O E P) :
      TracedEnc (fun x => ∃ y, Arrives O y ∧ x = g y) (tMapErrEncoder E g) (mapErrEncoder P g')
  | mapFrom {σ α β : Type} {O} {E : TEncoder κ σ α} {P} (f : β → α) (h : TracedEnc O E P) :
      TracedEnc O (tMapFromEncoder E f) (mapFromEncoder P f)
  | tryMapFrom {σ α β : Type} {O} {E : TEncoder κ σ α} {P} (f : β → Except (TError κ) α) (h : TracedEnc O E P) :
      TracedEnc (fun x => O x ∨ ∃ a, f a = .error x) (tTryMapFromEncoder E f) (tryMapFromEncoder P (eraseFn f))
  | «repeat» {σ α : Type} {O} {E : TEncoder κ σ α} {P} (h : TracedEnc O E P) :
      TracedEnc O (tRepeatEncoder E) (repeatEncoder P)
  | optional {σ α : Type} {O} {E : TEncoder κ σ α} {P} (h : TracedEnc O E P) :
      TracedEnc O (tOptionalEncoder E) (optionalEncoder P)
  | length {σ α : Type} {O} {E : TEncoder κ σ α} {P} (h : TracedEnc O E P) :
      TracedEnc O (tLengthEncoder E) (lengthEncoder P).toEncoder
  | maxBytes {σ α : Type} {O} {E : TEncoder κ σ α} {P} (h : TracedEnc O E P) :
      TracedEnc O (tMaxBytesEncoder E) (maxBytesEncoder P)
  | preEncode {σ α : Type} {O} {E : TEncoder κ σ α} {P} (zero : κ) (h : TracedEnc O E P) :
      TracedEnc O (tPreEncodeEncoder zero E) (preEncodeEncoder P).toEncoder
  | slice {σ α : Type} {O} {E : TEncoder κ σ α} {P} (h : TracedEnc O E P) :
      TracedEnc O (tSliceEncoder E) (sliceEncoder P)
  | last {σ α : Type} {O} {E : TEncoder κ σ α} {P} (h : TracedEnc O E P) :
      TracedEnc O (tLastEncoder E) (lastEncoder P)
  | pair {σ0 α0 σ1 α1 : Type} {O0 O1} {E0 : TEncoder κ σ0 α0} {P0} {E1 : TEncoder κ σ1 α1} {P1}
      (h0 : TracedEnc O0 E0 P0) (h1 : TracedEnc O1 E1 P1) :
      TracedEnc (fun x => O0 x ∨ O1 x) (tPairEncoder E0 E1) (tupleEncoder2 P0 P1)
  | tuple3 {σ0 α0 σ1 α1 σ2 α2 : Type} {O0 O1 O2}
      {E0 : TEncoder κ σ0 α0} {P0}
      {E1 : TEncoder κ σ1 α1} {P1}
      {E2 : TEncoder κ σ2 α2} {P2}
      (h0 : TracedEnc O0 E0 P0)
      (h1 : TracedEnc O1 E1 P1)
      (h2 : TracedEnc O2 E2 P2) :
      TracedEnc (fun x => O0 x ∨ O1 x ∨ O2 x)
        (tTuple3Encoder E0 E1 E2) (tupleEncoder3 P0 P1 P2)
  | tuple4 {σ0 α0 σ1 α1 σ2 α2 σ3 α3 : Type} {O0 O1 O2 O3}
      {E0 : TEncoder κ σ0 α0} {P0}
      {E1 : TEncoder κ σ1 α1} {P1}
      {E2 : TEncoder κ σ2 α2} {P2}
      {E3 : TEncoder κ σ3 α3} {P3}
      (h0 : TracedEnc O0 E0 P0)
      (h1 : TracedEnc O1 E1 P1)
      (h2 : TracedEnc O2 E2 P2)
      (h3 : TracedEnc O3 E3 P3) :
      TracedEnc (fun x => O0 x ∨ O1 x ∨ O2 x ∨ O3 x)
        (tTuple4Encoder E0 E1 E2 E3) (tupleEncoder4 P0 P1 P2 P3)
  | tuple5 {σ0 α0 σ1 α1 σ2 α2 σ3 α3 σ4 α4 : Type} {O0 O1 O2 O3 O4}
      {E0 : TEncoder κ σ0 α0} {P0}
      {E1 : TEncoder κ σ1 α1} {P1}
      {E2 : TEncoder κ σ2 α2} {P2}
      {E3 : TEncoder κ σ3 α3} {P3}
      {E4 : TEncoder κ σ4 α4} {P4}
      (h0 : TracedEnc O0 E0 P0)
      (h1 : TracedEnc O1 E1 P1)
      (h2 : TracedEnc O2 E2 P2)
      (h3 : TracedEnc O3 E3 P3)
      (h4 : TracedEnc O4 E4 P4) :
      TracedEnc (fun x => O0 x ∨ O1 x ∨ O2 x ∨ O3 x ∨ O4 x)
        (tTuple5Encoder E0 E1 E2 E3 E4) (tupleEncoder5 P0 P1 P2 P3 P4)
  | tuple6 {σ0 α0 σ1 α1 σ2 α2 σ3 α3 σ4 α4 σ5 α5 : Type} {O0 O1 O2 O3 O4 O5}
      {E0 : TEncoder κ σ0 α0} {P0}
      {E1 : TEncoder κ σ1 α1} {P1}
      {E2 : TEncoder κ σ2 α2} {P2}
      {E3 : TEncoder κ σ3 α3} {P3}
      {E4 : TEncoder κ σ4 α4} {P4}
      {E5 : TEncoder κ σ5 α5} {P5}
      (h0 : TracedEnc O0 E0 P0)
      (h1 : TracedEnc O1 E1 P1)
      (h2 : TracedEnc O2 E2 P2)
      (h3 : TracedEnc O3 E3 P3)
      (h4 : TracedEnc O4 E4 P4)
      (h5 : TracedEnc O5 E5 P5) :
      TracedEnc (fun x => O0 x ∨ O1 x ∨ O2 x ∨ O3 x ∨ O4 x ∨ O5 x)
        (tTuple6Encoder E0 E1 E2 E3 E4 E5) (tupleEncoder6 P0 P1 P2 P3 P4 P5)
  | tuple7 {σ0 α0 σ1 α1 σ2 α2 σ3 α3 σ4 α4 σ5 α5 σ6 α6 : Type} {O0 O1 O2 O3 O4 O5 O6}
      {E0 : TEncoder κ σ0 α0} {P0}
      {E1 : TEncoder κ σ1 α1} {P1}
      {E2 : TEncoder κ σ2 α2} {P2}
      {E3 : TEncoder κ σ3 α3} {P3}
      {E4 : TEncoder κ σ4 α4} {P4}
      {E5 : TEncoder κ σ5 α5} {P5}
      {E6 : TEncoder κ σ6 α6} {P6}
      (h0 : TracedEnc O0 E0 P0)
      (h1 : TracedEnc O1 E1 P1)
      (h2 : TracedEnc O2 E2 P2)
      (h3 : TracedEnc O3 E3 P3)
      (h4 : TracedEnc O4 E4 P4)
      (h5 : TracedEnc O5 E5 P5)
      (h6 : TracedEnc O6 E6 P6) :
      TracedEnc (fun x => O0 x ∨ O1 x ∨ O2 x ∨ O3 x ∨ O4 x ∨ O5 x ∨ O6 x)
        (tTuple7Encoder E0 E1 E2 E3 E4 E5 E6) (tupleEncoder7 P0 P1 P2 P3 P4 P5 P6)
  | tuple8 {σ0 α0 σ1 α1 σ2 α2 σ3 α3 σ4 α4 σ5 α5 σ6 α6 σ7 α7 : Type} {O0 O1 O2 O3 O4 O5 O6 O7}
      {E0 : TEncoder κ σ0 α0} {P0}
      {E1 : TEncoder κ σ1 α1} {P1}
      {E2 : TEncoder κ σ2 α2} {P2}
      {E3 : TEncoder κ σ3 α3} {P3}
      {E4 : TEncoder κ σ4 α4} {P4}
      {E5 : TEncoder κ σ5 α5} {P5}
      {E6 : TEncoder κ σ6 α6} {P6}
      {E7 : TEncoder κ σ7 α7} {P7}
      (h0 : TracedEnc O0 E0 P0)
      (h1 : TracedEnc O1 E1 P1)
      (h2 : TracedEnc O2 E2 P2)
      (h3 : TracedEnc O3 E3 P3)
      (h4 : TracedEnc O4 E4 P4)
      (h5 : TracedEnc O5 E5 P5)
      (h6 : TracedEnc O6 E6 P6)
      (h7 : TracedEnc O7 E7 P7) :
      TracedEnc (fun x => O0 x ∨ O1 x ∨ O2 x ∨ O3 x ∨ O4 x ∨ O5 x ∨ O6 x ∨ O7 x)
        (tTuple8Encoder E0 E1 E2 E3 E4 E5 E6 E7) (tupleEncoder8 P0 P1 P2 P3 P4 P5 P6 P7)

/-! ## Parts that stop dead instead -/

/-- The cause of the error is one of those in `Q`. -/
def TError.causedBy (Q : κ → Bool) (x : TError κ) : Bool :=
  match x.cause with
  | some (.given c) => Q c
  | _ => false

/-- A panic in place of an error with a cause in `Q`. -/
def TRes.stop (Q : κ → Bool) : TRes κ α → TRes κ α
  | .err x => if x.causedBy Q then .panic else .err x
  | .ok a => .ok a
  | .panic => .panic
  | .capacity => .capacity
  | .diverge => .diverge

def stopAt (Q : κ → Bool) (p : TRes κ α × τ) : TRes κ α × τ := (p.1.stop Q, p.2)

def TDecoder.stopping (Q : κ → Bool) (D : TDecoder κ σ α) : TDecoder κ σ α where
  decode s buf e := stopAt Q (D.decode s buf e)
  finish s := stopAt Q (D.finish s)
  requiring := D.requiring
  isIdle := D.isIdle

def TEncoder.stopping (Q : κ → Bool) (E : TEncoder κ σ α) : TEncoder κ σ α where
  encode s cap e := stopAt Q (E.encode s cap e)
  start s x := stopAt Q (E.start s x)
  requiring := E.requiring
  isIdle := E.isIdle

inductive StoppedDec (Q : κ → Bool) : {σ α : Type} → TDecoder κ σ α → TDecoder κ σ α → Prop where
  | part {σ α : Type} (D : TDecoder κ σ α) : StoppedDec Q D (D.stopping Q)
  | map {σ α β : Type} {D D' : TDecoder κ σ α} (f : α → β) (h : StoppedDec Q D D') :
      StoppedDec Q (tMapDecoder D f) (tMapDecoder D' f)
  | tryMap {σ α β : Type} {D D' : TDecoder κ σ α} (f : α → Except (TError κ) β)
      (hf : ∀ a x, f a = .error x → x.causedBy Q = false) (h : StoppedDec Q D D') :
      StoppedDec Q (tTryMapDecoder D f) (tTryMapDecoder D' f)
  | mapErr {σ α : Type} {D D' : TDecoder κ σ α} (g : TError κ → TError κ)
      (hg : ∀ x, (g x).causedBy Q = x.causedBy Q) (h : StoppedDec Q D D') :
      StoppedDec Q (tMapErrDecoder D g) (tMapErrDecoder D' g)
  | andThen {σ0 α0 σ1 α1 : Type} {D0 D0' : TDecoder κ σ0 α0} {D1 D1' : TDecoder κ σ1 α1} (f : α0 → σ1)
      (h0 : StoppedDec Q D0 D0') (h1 : StoppedDec Q D1 D1') :
      StoppedDec Q (tAndThenDecoder D0 D1 f) (tAndThenDecoder D0' D1' f)
  | pair {σ0 α0 σ1 α1 : Type} {D0 D0' : TDecoder κ σ0 α0} {D1 D1' : TDecoder κ σ1 α1}
      (h0 : StoppedDec Q D0 D0') (h1 : StoppedDec Q D1 D1') :
      StoppedDec Q (tPairDecoder D0 D1) (tPairDecoder D0' D1')
  | tuple3 {σ0 α0 σ1 α1 σ2 α2 : Type}
      {D0 D0' : TDecoder κ σ0 α0}
      {D1 D1' : TDecoder κ σ1 α1}
      {D2 D2' : TDecoder κ σ2 α2}
      (h0 : StoppedDec Q D0 D0')
      (h1 : StoppedDec Q D1 D1')
      (h2 : StoppedDec Q D2 D2') :
      StoppedDec Q (tTuple3Decoder D0 D1 D2)
        (tTuple3Decoder D0' D1' D2')
  | tuple4 {σ0 α0 σ1 α1 σ2 α2 σ3 α3 : Type}
      {D0 D0' : TDecoder κ σ0 α0}
      {D1 D1' : TDecoder κ σ1 α1}
      {D2 D2' : TDecoder κ σ2 α2}
      {D3 D3' : TDecoder κ σ3 α3}
      (h0 : StoppedDec Q D0 D0')
      (h1 : StoppedDec Q D1 D1')
      (h2 : StoppedDec Q D2 D2')
      (h3 : StoppedDec Q D3 D3') :
      StoppedDec Q (tTuple4Decoder D0 D1 D2 D3)
        (tTuple4Decoder D0' D1' D2' D3')
  | tuple5 {σ0 α0 σ1 α1 σ2 α2 σ3 α3 σ4 α4 : Type}
      {D0 D0' : TDecoder κ σ0 α0}
      {D1 D1' : TDecoder κ σ1 α1}
      {D2 D2' : TDecoder κ σ2 α2}
      {D3 D3' : TDecoder κ σ3 α3}
      {D4 D4' : TDecoder κ σ4 α4}
      (h0 : StoppedDec Q D0 D0')
      (h1 : StoppedDec Q D1 D1')
      (h2 : StoppedDec Q D2 D2')
      (h3 : StoppedDec Q D3 D3')
      (h4 : StoppedDec Q D4 D4') :
      StoppedDec Q (tTuple5Decoder D0 D1 D2 D3 D4)
        (tTuple5Decoder D0' D1' D2' D3' D4')
  | tuple6 {σ0 α0 σ1 α1 σ2 α2 σ3 α3 σ4 α4 σ5 α5 : Type}
      {D0 D0' : TDecoder κ σ0 α0}
      {D1 D1' : TDecoder κ σ1 α1}
      {D2 D2' : TDecoder κ σ2 α2}
      {D3 D3' : TDecoder κ σ3 α3}
      {D4 D4' : TDecoder κ σ4 α4}
      {D5 D5' : TDecoder κ σ5 α5}
      (h0 : StoppedDec Q D0 D0')
      (h1 : StoppedDec Q D1 D1')
      (h2 : StoppedDec Q D2 D2')
      (h3 : StoppedDec Q D3 D3')
      (h4 : StoppedDec Q D4 D4')
      (h5 : StoppedDec Q D5 D5') :
      StoppedDec Q (tTuple6Decoder D0 D1 D2 D3 D4 D5)
        (tTuple6Decoder D0' D1' D2' D3' D4' D5')
  | tuple7 {σ0 α0 σ1 α1 σ2 α2 σ3 α3 σ4 α4 σ5 α5 σ6 α6 : Type}
      {D0 D0' : TDecoder κ σ0 α0}
      {D1 D1' : TDecoder κ σ1 α1}
      {D2 D2' : TDecoder κ σ2 α2}
      {D3 D3' : TDecoder κ σ3 α3}
      {D4 D4' : TDecoder κ σ4 α4}
      {D5 D5' : TDecoder κ σ5 α5}
      {D6 D6' : TDecoder κ σ6 α6}
      (h0 : StoppedDec Q D0 D0')
      (h1 : StoppedDec Q D1 D1')
      (h2 : StoppedDec Q D2 D2')
      (h3 : StoppedDec Q D3 D3')
      (h4 : StoppedDec Q D4 D4')
      (h5 : StoppedDec Q D5 D5')
      (h6 : StoppedDec Q D6 D6') :
      StoppedDec Q (tTuple7Decoder D0 D1 D2 D3 D4 D5 D6)
        (tTuple7Decoder D0' D1' D2' D3' D4' D5' D6')
  | tuple8 {σ0 α0 σ1 α1 σ2 α2 σ3 α3 σ4 α4 σ5 α5 σ6 α6 σ7 α7 : Type}
      {D0 D0' : TDecoder κ σ0 α0}
      {D1 D1' : TDecoder κ σ1 α1}
      {D2 D2' : TDecoder κ σ2 α2}
      {D3 D3' : TDecoder κ σ3 α3}
      {D4 D4' : TDecoder κ σ4 α4}
      {D5 D5' : TDecoder κ σ5 α5}
      {D6 D6' : TDecoder κ σ6 α6}
      {D7 D7' : TDecoder κ σ7 α7}
      (h0 : StoppedDec Q D0 D0')
      (h1 : StoppedDec Q D1 D1')
      (h2 : StoppedDec Q D2 D2')
      (h3 : StoppedDec Q D3 D3')
      (h4 : StoppedDec Q D4 D4')
      (h5 : StoppedDec Q D5 D5')
      (h6 : StoppedDec Q D6 D6')
      (h7 : StoppedDec Q D7 D7') :
      StoppedDec Q (tTuple8Decoder D0 D1 D2 D3 D4 D5 D6 D7)
        (tTuple8Decoder D0' D1' D2' D3' D4' D5' D6' D7')
  | omittable {σ α : Type} {D D' : TDecoder κ σ α} (h : StoppedDec Q D D') :
      StoppedDec Q (tOmittableDecoder D) (tOmittableDecoder D')
  | collect {σ α : Type} {D D' : TDecoder κ σ α} (h : StoppedDec Q D D') :
      StoppedDec Q (tCollectDecoder D) (tCollectDecoder D')
  | collectN {σ α : Type} {D D' : TDecoder κ σ α} (h : StoppedDec Q D D') :
      StoppedDec Q (tCollectNDecoder D) (tCollectNDecoder D')
  | length {σ α : Type} {D D' : TDecoder κ σ α} (h : StoppedDec Q D D') :
      StoppedDec Q (tLengthDecoder D) (tLengthDecoder D')
  | maxBytes {σ α : Type} {D D' : TDecoder κ σ α} (h : StoppedDec Q D D') :
      StoppedDec Q (tMaxBytesDecoder D) (tMaxBytesDecoder D')
  | slice {σ α : Type} {D D' : TDecoder κ σ α} (h : StoppedDec Q D D') :
      StoppedDec Q (tSliceDecoder D) (tSliceDecoder D')
  | peekable {σ α : Type} {D D' : TDecoder κ σ α} (h : StoppedDec Q D D') :
      StoppedDec Q (tPeekableDecoder D) (tPeekableDecoder D')
  | maybeEos {σ α : Type} {D D' : TDecoder κ σ α} (h : StoppedDec Q D D') :
      StoppedDec Q (tMaybeEosDecoder D) (tMaybeEosDecoder D')
  | utf8 {σ : Type} {D D' : TDecoder κ σ Bytes} (bad : Bytes → κ) (hb : ∀ b, Q (bad b) = false) (h : StoppedDec Q D D') :
      StoppedDec Q (tUtf8Decoder bad D) (tUtf8Decoder bad D')

inductive StoppedEnc (Q : κ → Bool) : {σ α : Type} → TEncoder κ σ α → TEncoder κ σ α → Prop where
  | part {σ α : Type} (E : TEncoder κ σ α) : StoppedEnc Q E (E.stopping Q)
  | mapErr {σ α : Type} {E E' : TEncoder κ σ α} (g : TError κ → TError κ)
      (hg : ∀ x, (g x).causedBy Q = x.causedBy Q) (h : StoppedEnc Q E E') :
      StoppedEnc Q (tMapErrEncoder E g) (tMapErrEncoder E' g)
  | mapFrom {σ α β : Type} {E E' : TEncoder κ σ α} (f : β → α) (h : StoppedEnc Q E E') :
      StoppedEnc Q (tMapFromEncoder E f) (tMapFromEncoder E' f)
  | tryMapFrom {σ α β : Type} {E E' : TEncoder κ σ α} (f : β → Except (TError κ) α)
      (hf : ∀ a x, f a = .error x → x.causedBy Q = false) (h : StoppedEnc Q E E') :
      StoppedEnc Q (tTryMapFromEncoder E f) (tTryMapFromEncoder E' f)
  | «repeat» {σ α : Type} {E E' : TEncoder κ σ α} (h : StoppedEnc Q E E') :
      StoppedEnc Q (tRepeatEncoder E) (tRepeatEncoder E')
  | optional {σ α : Type} {E E' : TEncoder κ σ α} (h : StoppedEnc Q E E') :
      StoppedEnc Q (tOptionalEncoder E) (tOptionalEncoder E')
  | length {σ α : Type} {E E' : TEncoder κ σ α} (h : StoppedEnc Q E E') :
      StoppedEnc Q (tLengthEncoder E) (tLengthEncoder E')
  | maxBytes {σ α : Type} {E E' : TEncoder κ σ α} (h : StoppedEnc Q E E') :
      StoppedEnc Q (tMaxBytesEncoder E) (tMaxBytesEncoder E')
  | preEncode {σ α : Type} {E E' : TEncoder κ σ α} (zero : κ) (h : StoppedEnc Q E E') :
      StoppedEnc Q (tPreEncodeEncoder zero E) (tPreEncodeEncoder zero E')
  | slice {σ α : Type} {E E' : TEncoder κ σ α} (h : StoppedEnc Q E E') :
      StoppedEnc Q (tSliceEncoder E) (tSliceEncoder E')
  | last {σ α : Type} {E E' : TEncoder κ σ α} (h : StoppedEnc Q E E') :
      StoppedEnc Q (tLastEncoder E) (tLastEncoder E')
  | pair {σ0 α0 σ1 α1 : Type} {E0 E0' : TEncoder κ σ0 α0} {E1 E1' : TEncoder κ σ1 α1}
      (h0 : StoppedEnc Q E0 E0') (h1 : StoppedEnc Q E1 E1') :
      StoppedEnc Q (tPairEncoder E0 E1) (tPairEncoder E0' E1')
  | tuple3 {σ0 α0 σ1 α1 σ2 α2 : Type}
      {E0 E0' : TEncoder κ σ0 α0}
      {E1 E1' : TEncoder κ σ1 α1}
      {E2 E2' : TEncoder κ σ2 α2}
      (h0 : StoppedEnc Q E0 E0')
      (h1 : StoppedEnc Q E1 E1')
      (h2 : StoppedEnc Q E2 E2') :
      StoppedEnc Q (tTuple3Encoder E0 E1 E2)
        (tTuple3Encoder E0' E1' E2')
  | tuple4 {σ0 α0 σ1 α1 σ2 α2 σ3 α3 : Type}
      {E0 E0' : TEncoder κ σ0 α0}
      {E1 E1' : TEncoder κ σ1 α1}
      {E2 E2' : TEncoder κ σ2 α2}
      {E3 E3' : TEncoder κ σ3 α3}
      (h0 : StoppedEnc Q E0 E0')
      (h1 : StoppedEnc Q E1 E1')
      (h2 : StoppedEnc Q E2 E2')
      (h3 : StoppedEnc Q E3 E3') :
      StoppedEnc Q (tTuple4Encoder E0 E1 E2 E3)
        (tTuple4Encoder E0' E1' E2' E3')
  | tuple5 {σ0 α0 σ1 α1 σ2 α2 σ3 α3 σ4 α4 : Type}
      {E0 E0' : TEncoder κ σ0 α0}
      {E1 E1' : TEncoder κ σ1 α1}
      {E2 E2' : TEncoder κ σ2 α2}
      {E3 E3' : TEncoder κ σ3 α3}
      {E4 E4' : TEncoder κ σ4 α4}
      (h0 : StoppedEnc Q E0 E0')
      (h1 : StoppedEnc Q E1 E1')
      (h2 : StoppedEnc Q E2 E2')
      (h3 : StoppedEnc Q E3 E3')
      (h4 : StoppedEnc Q E4 E4') :
      StoppedEnc Q (tTuple5Encoder E0 E1 E2 E3 E4)
        (tTuple5Encoder E0' E1' E2' E3' E4')
  | tuple6 {σ0 α0 σ1 α1 σ2 α2 σ3 α3 σ4 α4 σ5 α5 : Type}
      {E0 E0' : TEncoder κ σ0 α0}
      {E1 E1' : TEncoder κ σ1 α1}
      {E2 E2' : TEncoder κ σ2 α2}
      {E3 E3' : TEncoder κ σ3 α3}
      {E4 E4' : TEncoder κ σ4 α4}
      {E5 E5' : TEncoder κ σ5 α5}
      (h0 : StoppedEnc Q E0 E0')
      (h1 : StoppedEnc Q E1 E1')
      (h2 : StoppedEnc Q E2 E2')
      (h3 : StoppedEnc Q E3 E3')
      (h4 : StoppedEnc Q E4 E4')
      (h5 : StoppedEnc Q E5 E5') :
      StoppedEnc Q (tTuple6Encoder E0 E1 E2 E3 E4 E5)
        (tTuple6Encoder E0' E1' E2' E3' E4' E5')
  | tuple7 {σ0 α0 σ1 α1 σ2 α2 σ3 α3 σ4 α4 σ5 α5 σ6 α6 : Type}
      {E0 E0' : TEncoder κ σ0 α0}
      {E1 E1' : TEncoder κ σ1 α1}
      {E2 E2' : TEncoder κ σ2 α2}
      {E3 E3' : TEncoder κ σ3 α3}
      {E4 E4' : TEncoder κ σ4 α4}
      {E5 E5' : TEncoder κ σ5 α5}
      {E6 E6' : TEncoder κ σ6 α6}
      (h0 : StoppedEnc Q E0 E0')
      (h1 : StoppedEnc Q E1 E1')
      (h2 : StoppedEnc Q E2 E2')
      (h3 : StoppedEnc Q E3 E3')
      (h4 : StoppedEnc Q E4 E4')
      (h5 : StoppedEnc Q E5 E5')
      (h6 : StoppedEnc Q E6 E6') :
      StoppedEnc Q (tTuple7Encoder E0 E1 E2 E3 E4 E5 E6)
        (tTuple7Encoder E0' E1' E2' E3' E4' E5' E6')
  | tuple8 {σ0 α0 σ1 α1 σ2 α2 σ3 α3 σ4 α4 σ5 α5 σ6 α6 σ7 α7 : Type}
      {E0 E0' : TEncoder κ σ0 α0}
      {E1 E1' : TEncoder κ σ1 α1}
      {E2 E2' : TEncoder κ σ2 α2}
      {E3 E3' : TEncoder κ σ3 α3}
      {E4 E4' : TEncoder κ σ4 α4}
      {E5 E5' : TEncoder κ σ5 α5}
      {E6 E6' : TEncoder κ σ6 α6}
      {E7 E7' : TEncoder κ σ7 α7}
      (h0 : StoppedEnc Q E0 E0')
      (h1 : StoppedEnc Q E1 E1')
      (h2 : StoppedEnc Q E2 E2')
      (h3 : StoppedEnc Q E3 E3')
      (h4 : StoppedEnc Q E4 E4')
      (h5 : StoppedEnc Q E5 E5')
      (h6 : StoppedEnc Q E6 E6')
      (h7 : StoppedEnc Q E7 E7') :
      StoppedEnc Q (tTuple8Encoder E0 E1 E2 E3 E4 E5 E6 E7)
        (tTuple8Encoder E0' E1' E2' E3' E4' E5' E6' E7')

end Bytecodec
