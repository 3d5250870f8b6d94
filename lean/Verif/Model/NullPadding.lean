import Verif.Model.Core
/-!
# Null and padding codecs

Models `src/null.rs` and `src/padding.rs`.
-/
namespace Bytecodec

/-- `src/null.rs` 8-27: `NullDecoder`. -/
def nullDecoder : Decoder Unit Unit where
  decode s _ _ := (.ok 0, s)
  finish s := (.ok (), s)
  requiring _ := .finite 0
  isIdle _ := true

/-- `src/null.rs` 33-57: `NullEncoder`. -/
def nullEncoder : SizedEncoder Unit Unit where
  encode s _ _ := (.ok [], s)
  start s _ := (.ok (), s)
  requiring _ := .finite 0
  isIdle _ := true
  exact _ := 0

/-- `src/padding.rs` 8-11: `struct PaddingDecoder`. -/
structure PaddingState where
  expected : Option UInt8
  eos : Bool
deriving DecidableEq, Repr

/-- `src/padding.rs` 14-19: `new`. -/
def PaddingState.new (expected : Option UInt8) : PaddingState := ⟨expected, false⟩

/-- `src/padding.rs` 29-31: `set_expected_byte`. -/
def PaddingState.setExpectedByte (s : PaddingState) (b : Option UInt8) : PaddingState :=
  { s with expected := b }

/-- `src/padding.rs` 33-68: `impl Decode for PaddingDecoder`.
`decode` 36-49: the `for` loop over the buffer fails on the first byte that differs. -/
def paddingDecoder : Decoder PaddingState Unit where
  decode s buf e :=
    if s.eos then (.ok 0, s)
    else
      match s.expected with
      | some expected =>
        if buf.all (fun b => b == expected) then (.ok buf.length, { s with eos := e.isReached })
        else (.err .invalidInput, s)
      | none => (.ok buf.length, { s with eos := e.isReached })
  finish s := if s.eos then (.ok (), { s with eos := false }) else (.err .incompleteDecoding, s)
  requiring s := if s.eos then .finite 0 else .infinite
  isIdle s := s.eos

/-- `src/padding.rs` 75-119: `PaddingEncoder { padding_byte: Option<u8> }`.
`encode` 87-100, `start` 102-106, `requiring` 108-114, `isIdle` 116-118. -/
def paddingEncoder : Encoder (Option UInt8) UInt8 where
  encode s cap e :=
    match s with
    | some b => (.ok (List.replicate cap b), if e.isReached then none else some b)
    | none => (.ok [], none)
  start s item := if s.isNone then (.ok (), some item) else (.err .encoderFull, s)
  requiring s := if s.isNone then .finite 0 else .infinite
  isIdle s := s.isNone

end Bytecodec
