import Verif.Lemmas.LawsEnc
import Verif.Model.Fixnum
import Verif.Model.Buf
/-!
# C65: codecs that behave alike can be exchanged

`Alike` (Spec/Interchange) says that no sequence of calls tells two codecs apart; `Exchanged` replaces any number of
parts of a composition by parts that are alike.
-/
namespace Bytecodec.Props

open Bytecodec Bytecodec.Spec

variable {σ τ α : Type}

/-! ## In compositions -/

/-- C65: exchanging parts of a decoder for parts that are alike gives a decoder that is alike. -/
theorem C65_substitution {D : Decoder σ α} {s : σ} {D' : Decoder τ α} {s' : τ} (h : Exchanged D s D' s') :
    Alike D s D' s' :=
  exchanged_alike h

/-- C65: the same for encoders. -/
theorem C65_substitution_encoder {E : Encoder σ α} {s : σ} {E' : Encoder τ α} {s' : τ} (h : ExchangedE E s E' s') :
    AlikeE E s E' s' :=
  exchangedE_alike h

/-- C65: the same for the components of a tuple of 3 decoders. -/
theorem C65_tuple3 {σ0 τ0 α0 σ1 τ1 α1 σ2 τ2 α2 : Type}
    {D0 : Decoder σ0 α0} {s0 : σ0} {D0' : Decoder τ0 α0} {s0' : τ0}
    {D1 : Decoder σ1 α1} {s1 : σ1} {D1' : Decoder τ1 α1} {s1' : τ1}
    {D2 : Decoder σ2 α2} {s2 : σ2} {D2' : Decoder τ2 α2} {s2' : τ2}
    (h0 : Alike D0 s0 D0' s0') (h1 : Alike D1 s1 D1' s1') (h2 : Alike D2 s2 D2' s2') :
    Alike (tupleDecoder3 D0 D1 D2) (s0, s1, s2) (tupleDecoder3 D0' D1' D2') (s0', s1', s2') := by
  rw [tupleDecoder3_nested, tupleDecoder3_nested]
  exact C65_substitution (.pair (.part h0) (.pair (.part h1) (.part h2)))

/-- C65: the same for the components of a tuple of 3 encoders. -/
theorem C65_tuple3_encoder {σ0 τ0 α0 σ1 τ1 α1 σ2 τ2 α2 : Type}
    {E0 : Encoder σ0 α0} {s0 : σ0} {E0' : Encoder τ0 α0} {s0' : τ0}
    {E1 : Encoder σ1 α1} {s1 : σ1} {E1' : Encoder τ1 α1} {s1' : τ1}
    {E2 : Encoder σ2 α2} {s2 : σ2} {E2' : Encoder τ2 α2} {s2' : τ2}
    (h0 : AlikeE E0 s0 E0' s0') (h1 : AlikeE E1 s1 E1' s1') (h2 : AlikeE E2 s2 E2' s2') :
    AlikeE (tupleEncoder3 E0 E1 E2) (s0, s1, s2) (tupleEncoder3 E0' E1' E2') (s0', s1', s2') := by
  rw [tupleEncoder3_nested, tupleEncoder3_nested]
  exact C65_substitution_encoder (.pair (.part h0) (.pair (.part h1) (.part h2)))

/-- C65: the same for the components of a tuple of 4 decoders. -/
theorem C65_tuple4 {σ0 τ0 α0 σ1 τ1 α1 σ2 τ2 α2 σ3 τ3 α3 : Type}
    {D0 : Decoder σ0 α0} {s0 : σ0} {D0' : Decoder τ0 α0} {s0' : τ0}
    {D1 : Decoder σ1 α1} {s1 : σ1} {D1' : Decoder τ1 α1} {s1' : τ1}
    {D2 : Decoder σ2 α2} {s2 : σ2} {D2' : Decoder τ2 α2} {s2' : τ2}
    {D3 : Decoder σ3 α3} {s3 : σ3} {D3' : Decoder τ3 α3} {s3' : τ3}
    (h0 : Alike D0 s0 D0' s0') (h1 : Alike D1 s1 D1' s1') (h2 : Alike D2 s2 D2' s2') (h3 : Alike D3 s3 D3' s3') :
    Alike (tupleDecoder4 D0 D1 D2 D3) (s0, s1, s2, s3) (tupleDecoder4 D0' D1' D2' D3') (s0', s1', s2', s3') := by
  rw [tupleDecoder4_nested, tupleDecoder4_nested]
  exact C65_substitution (.pair (.part h0) (.pair (.part h1) (.pair (.part h2) (.part h3))))

/-- C65: the same for the components of a tuple of 4 encoders. -/
theorem C65_tuple4_encoder {σ0 τ0 α0 σ1 τ1 α1 σ2 τ2 α2 σ3 τ3 α3 : Type}
    {E0 : Encoder σ0 α0} {s0 : σ0} {E0' : Encoder τ0 α0} {s0' : τ0}
    {E1 : Encoder σ1 α1} {s1 : σ1} {E1' : Encoder τ1 α1} {s1' : τ1}
    {E2 : Encoder σ2 α2} {s2 : σ2} {E2' : Encoder τ2 α2} {s2' : τ2}
    {E3 : Encoder σ3 α3} {s3 : σ3} {E3' : Encoder τ3 α3} {s3' : τ3}
    (h0 : AlikeE E0 s0 E0' s0') (h1 : AlikeE E1 s1 E1' s1') (h2 : AlikeE E2 s2 E2' s2') (h3 : AlikeE E3 s3 E3' s3') :
    AlikeE (tupleEncoder4 E0 E1 E2 E3) (s0, s1, s2, s3) (tupleEncoder4 E0' E1' E2' E3') (s0', s1', s2', s3') := by
  rw [tupleEncoder4_nested, tupleEncoder4_nested]
  exact C65_substitution_encoder (.pair (.part h0) (.pair (.part h1) (.pair (.part h2) (.part h3))))

/-- C65: the same for the components of a tuple of 5 decoders. -/
theorem C65_tuple5 {σ0 τ0 α0 σ1 τ1 α1 σ2 τ2 α2 σ3 τ3 α3 σ4 τ4 α4 : Type}
    {D0 : Decoder σ0 α0} {s0 : σ0} {D0' : Decoder τ0 α0} {s0' : τ0}
    {D1 : Decoder σ1 α1} {s1 : σ1} {D1' : Decoder τ1 α1} {s1' : τ1}
    {D2 : Decoder σ2 α2} {s2 : σ2} {D2' : Decoder τ2 α2} {s2' : τ2}
    {D3 : Decoder σ3 α3} {s3 : σ3} {D3' : Decoder τ3 α3} {s3' : τ3}
    {D4 : Decoder σ4 α4} {s4 : σ4} {D4' : Decoder τ4 α4} {s4' : τ4}
    (h0 : Alike D0 s0 D0' s0') (h1 : Alike D1 s1 D1' s1') (h2 : Alike D2 s2 D2' s2') (h3 : Alike D3 s3 D3' s3') (h4 : Alike D4 s4 D4' s4') :
    Alike (tupleDecoder5 D0 D1 D2 D3 D4) (s0, s1, s2, s3, s4) (tupleDecoder5 D0' D1' D2' D3' D4') (s0', s1', s2', s3', s4') := by
  rw [tupleDecoder5_nested, tupleDecoder5_nested]
  exact C65_substitution (.pair (.part h0) (.pair (.part h1) (.pair (.part h2) (.pair (.part h3) (.part h4)))))

/-- C65: the same for the components of a tuple of 5 encoders. -/
theorem C65_tuple5_encoder {σ0 τ0 α0 σ1 τ1 α1 σ2 τ2 α2 σ3 τ3 α3 σ4 τ4 α4 : Type}
    {E0 : Encoder σ0 α0} {s0 : σ0} {E0' : Encoder τ0 α0} {s0' : τ0}
    {E1 : Encoder σ1 α1} {s1 : σ1} {E1' : Encoder τ1 α1} {s1' : τ1}
    {E2 : Encoder σ2 α2} {s2 : σ2} {E2' : Encoder τ2 α2} {s2' : τ2}
    {E3 : Encoder σ3 α3} {s3 : σ3} {E3' : Encoder τ3 α3} {s3' : τ3}
    {E4 : Encoder σ4 α4} {s4 : σ4} {E4' : Encoder τ4 α4} {s4' : τ4}
    (h0 : AlikeE E0 s0 E0' s0') (h1 : AlikeE E1 s1 E1' s1') (h2 : AlikeE E2 s2 E2' s2') (h3 : AlikeE E3 s3 E3' s3') (h4 : AlikeE E4 s4 E4' s4') :
    AlikeE (tupleEncoder5 E0 E1 E2 E3 E4) (s0, s1, s2, s3, s4) (tupleEncoder5 E0' E1' E2' E3' E4') (s0', s1', s2', s3', s4') := by
  rw [tupleEncoder5_nested, tupleEncoder5_nested]
  exact C65_substitution_encoder (.pair (.part h0) (.pair (.part h1) (.pair (.part h2) (.pair (.part h3) (.part h4)))))

/-- C65: the same for the components of a tuple of 6 decoders. -/
theorem C65_tuple6 {σ0 τ0 α0 σ1 τ1 α1 σ2 τ2 α2 σ3 τ3 α3 σ4 τ4 α4 σ5 τ5 α5 : Type}
    {D0 : Decoder σ0 α0} {s0 : σ0} {D0' : Decoder τ0 α0} {s0' : τ0}
    {D1 : Decoder σ1 α1} {s1 : σ1} {D1' : Decoder τ1 α1} {s1' : τ1}
    {D2 : Decoder σ2 α2} {s2 : σ2} {D2' : Decoder τ2 α2} {s2' : τ2}
    {D3 : Decoder σ3 α3} {s3 : σ3} {D3' : Decoder τ3 α3} {s3' : τ3}
    {D4 : Decoder σ4 α4} {s4 : σ4} {D4' : Decoder τ4 α4} {s4' : τ4}
    {D5 : Decoder σ5 α5} {s5 : σ5} {D5' : Decoder τ5 α5} {s5' : τ5}
    (h0 : Alike D0 s0 D0' s0') (h1 : Alike D1 s1 D1' s1') (h2 : Alike D2 s2 D2' s2') (h3 : Alike D3 s3 D3' s3') (h4 : Alike D4 s4 D4' s4') (h5 : Alike D5 s5 D5' s5') :
    Alike (tupleDecoder6 D0 D1 D2 D3 D4 D5) (s0, s1, s2, s3, s4, s5) (tupleDecoder6 D0' D1' D2' D3' D4' D5') (s0', s1', s2', s3', s4', s5') := by
  rw [tupleDecoder6_nested, tupleDecoder6_nested]
  exact C65_substitution (.pair (.part h0) (.pair (.part h1) (.pair (.part h2) (.pair (.part h3) (.pair (.part h4) (.part h5))))))

/-- C65: the same for the components of a tuple of 6 encoders. -/
theorem C65_tuple6_encoder {σ0 τ0 α0 σ1 τ1 α1 σ2 τ2 α2 σ3 τ3 α3 σ4 τ4 α4 σ5 τ5 α5 : Type}
    {E0 : Encoder σ0 α0} {s0 : σ0} {E0' : Encoder τ0 α0} {s0' : τ0}
    {E1 : Encoder σ1 α1} {s1 : σ1} {E1' : Encoder τ1 α1} {s1' : τ1}
    {E2 : Encoder σ2 α2} {s2 : σ2} {E2' : Encoder τ2 α2} {s2' : τ2}
    {E3 : Encoder σ3 α3} {s3 : σ3} {E3' : Encoder τ3 α3} {s3' : τ3}
    {E4 : Encoder σ4 α4} {s4 : σ4} {E4' : Encoder τ4 α4} {s4' : τ4}
    {E5 : Encoder σ5 α5} {s5 : σ5} {E5' : Encoder τ5 α5} {s5' : τ5}
    (h0 : AlikeE E0 s0 E0' s0') (h1 : AlikeE E1 s1 E1' s1') (h2 : AlikeE E2 s2 E2' s2') (h3 : AlikeE E3 s3 E3' s3') (h4 : AlikeE E4 s4 E4' s4') (h5 : AlikeE E5 s5 E5' s5') :
    AlikeE (tupleEncoder6 E0 E1 E2 E3 E4 E5) (s0, s1, s2, s3, s4, s5) (tupleEncoder6 E0' E1' E2' E3' E4' E5') (s0', s1', s2', s3', s4', s5') := by
  rw [tupleEncoder6_nested, tupleEncoder6_nested]
  exact C65_substitution_encoder (.pair (.part h0) (.pair (.part h1) (.pair (.part h2) (.pair (.part h3) (.pair (.part h4) (.part h5))))))

/-- C65: the same for the components of a tuple of 7 decoders. -/
theorem C65_tuple7 {σ0 τ0 α0 σ1 τ1 α1 σ2 τ2 α2 σ3 τ3 α3 σ4 τ4 α4 σ5 τ5 α5 σ6 τ6 α6 : Type}
    {D0 : Decoder σ0 α0} {s0 : σ0} {D0' : Decoder τ0 α0} {s0' : τ0}
    {D1 : Decoder σ1 α1} {s1 : σ1} {D1' : Decoder τ1 α1} {s1' : τ1}
    {D2 : Decoder σ2 α2} {s2 : σ2} {D2' : Decoder τ2 α2} {s2' : τ2}
    {D3 : Decoder σ3 α3} {s3 : σ3} {D3' : Decoder τ3 α3} {s3' : τ3}
    {D4 : Decoder σ4 α4} {s4 : σ4} {D4' : Decoder τ4 α4} {s4' : τ4}
    {D5 : Decoder σ5 α5} {s5 : σ5} {D5' : Decoder τ5 α5} {s5' : τ5}
    {D6 : Decoder σ6 α6} {s6 : σ6} {D6' : Decoder τ6 α6} {s6' : τ6}
    (h0 : Alike D0 s0 D0' s0') (h1 : Alike D1 s1 D1' s1') (h2 : Alike D2 s2 D2' s2') (h3 : Alike D3 s3 D3' s3') (h4 : Alike D4 s4 D4' s4') (h5 : Alike D5 s5 D5' s5') (h6 : Alike D6 s6 D6' s6') :
    Alike (tupleDecoder7 D0 D1 D2 D3 D4 D5 D6) (s0, s1, s2, s3, s4, s5, s6) (tupleDecoder7 D0' D1' D2' D3' D4' D5' D6') (s0', s1', s2', s3', s4', s5', s6') := by
  rw [tupleDecoder7_nested, tupleDecoder7_nested]
  exact C65_substitution (.pair (.part h0) (.pair (.part h1) (.pair (.part h2) (.pair (.part h3) (.pair (.part h4) (.pair (.part h5) (.part h6)))))))

/-- C65: the same for the components of a tuple of 7 encoders. -/
theorem C65_tuple7_encoder {σ0 τ0 α0 σ1 τ1 α1 σ2 τ2 α2 σ3 τ3 α3 σ4 τ4 α4 σ5 τ5 α5 σ6 τ6 α6 : Type}
    {E0 : Encoder σ0 α0} {s0 : σ0} {E0' : Encoder τ0 α0} {s0' : τ0}
    {E1 : Encoder σ1 α1} {s1 : σ1} {E1' : Encoder τ1 α1} {s1' : τ1}
    {E2 : Encoder σ2 α2} {s2 : σ2} {E2' : Encoder τ2 α2} {s2' : τ2}
    {E3 : Encoder σ3 α3} {s3 : σ3} {E3' : Encoder τ3 α3} {s3' : τ3}
    {E4 : Encoder σ4 α4} {s4 : σ4} {E4' : Encoder τ4 α4} {s4' : τ4}
    {E5 : Encoder σ5 α5} {s5 : σ5} {E5' : Encoder τ5 α5} {s5' : τ5}
    {E6 : Encoder σ6 α6} {s6 : σ6} {E6' : Encoder τ6 α6} {s6' : τ6}
    (h0 : AlikeE E0 s0 E0' s0') (h1 : AlikeE E1 s1 E1' s1') (h2 : AlikeE E2 s2 E2' s2') (h3 : AlikeE E3 s3 E3' s3') (h4 : AlikeE E4 s4 E4' s4') (h5 : AlikeE E5 s5 E5' s5') (h6 : AlikeE E6 s6 E6' s6') :
    AlikeE (tupleEncoder7 E0 E1 E2 E3 E4 E5 E6) (s0, s1, s2, s3, s4, s5, s6) (tupleEncoder7 E0' E1' E2' E3' E4' E5' E6') (s0', s1', s2', s3', s4', s5', s6') := by
  rw [tupleEncoder7_nested, tupleEncoder7_nested]
  exact C65_substitution_encoder (.pair (.part h0) (.pair (.part h1) (.pair (.part h2) (.pair (.part h3) (.pair (.part h4) (.pair (.part h5) (.part h6)))))))

/-- C65: the same for the components of a tuple of 8 decoders. -/
theorem C65_tuple8 {σ0 τ0 α0 σ1 τ1 α1 σ2 τ2 α2 σ3 τ3 α3 σ4 τ4 α4 σ5 τ5 α5 σ6 τ6 α6 σ7 τ7 α7 : Type}
    {D0 : Decoder σ0 α0} {s0 : σ0} {D0' : Decoder τ0 α0} {s0' : τ0}
    {D1 : Decoder σ1 α1} {s1 : σ1} {D1' : Decoder τ1 α1} {s1' : τ1}
    {D2 : Decoder σ2 α2} {s2 : σ2} {D2' : Decoder τ2 α2} {s2' : τ2}
    {D3 : Decoder σ3 α3} {s3 : σ3} {D3' : Decoder τ3 α3} {s3' : τ3}
    {D4 : Decoder σ4 α4} {s4 : σ4} {D4' : Decoder τ4 α4} {s4' : τ4}
    {D5 : Decoder σ5 α5} {s5 : σ5} {D5' : Decoder τ5 α5} {s5' : τ5}
    {D6 : Decoder σ6 α6} {s6 : σ6} {D6' : Decoder τ6 α6} {s6' : τ6}
    {D7 : Decoder σ7 α7} {s7 : σ7} {D7' : Decoder τ7 α7} {s7' : τ7}
    (h0 : Alike D0 s0 D0' s0') (h1 : Alike D1 s1 D1' s1') (h2 : Alike D2 s2 D2' s2') (h3 : Alike D3 s3 D3' s3') (h4 : Alike D4 s4 D4' s4') (h5 : Alike D5 s5 D5' s5') (h6 : Alike D6 s6 D6' s6') (h7 : Alike D7 s7 D7' s7') :
    Alike (tupleDecoder8 D0 D1 D2 D3 D4 D5 D6 D7) (s0, s1, s2, s3, s4, s5, s6, s7) (tupleDecoder8 D0' D1' D2' D3' D4' D5' D6' D7') (s0', s1', s2', s3', s4', s5', s6', s7') := by
  rw [tupleDecoder8_nested, tupleDecoder8_nested]
  exact C65_substitution (.pair (.part h0) (.pair (.part h1) (.pair (.part h2) (.pair (.part h3) (.pair (.part h4) (.pair (.part h5) (.pair (.part h6) (.part h7))))))))

/-- C65: the same for the components of a tuple of 8 encoders. -/
theorem C65_tuple8_encoder {σ0 τ0 α0 σ1 τ1 α1 σ2 τ2 α2 σ3 τ3 α3 σ4 τ4 α4 σ5 τ5 α5 σ6 τ6 α6 σ7 τ7 α7 : Type}
    {E0 : Encoder σ0 α0} {s0 : σ0} {E0' : Encoder τ0 α0} {s0' : τ0}
    {E1 : Encoder σ1 α1} {s1 : σ1} {E1' : Encoder τ1 α1} {s1' : τ1}
    {E2 : Encoder σ2 α2} {s2 : σ2} {E2' : Encoder τ2 α2} {s2' : τ2}
    {E3 : Encoder σ3 α3} {s3 : σ3} {E3' : Encoder τ3 α3} {s3' : τ3}
    {E4 : Encoder σ4 α4} {s4 : σ4} {E4' : Encoder τ4 α4} {s4' : τ4}
    {E5 : Encoder σ5 α5} {s5 : σ5} {E5' : Encoder τ5 α5} {s5' : τ5}
    {E6 : Encoder σ6 α6} {s6 : σ6} {E6' : Encoder τ6 α6} {s6' : τ6}
    {E7 : Encoder σ7 α7} {s7 : σ7} {E7' : Encoder τ7 α7} {s7' : τ7}
    (h0 : AlikeE E0 s0 E0' s0') (h1 : AlikeE E1 s1 E1' s1') (h2 : AlikeE E2 s2 E2' s2') (h3 : AlikeE E3 s3 E3' s3') (h4 : AlikeE E4 s4 E4' s4') (h5 : AlikeE E5 s5 E5' s5') (h6 : AlikeE E6 s6 E6' s6') (h7 : AlikeE E7 s7 E7' s7') :
    AlikeE (tupleEncoder8 E0 E1 E2 E3 E4 E5 E6 E7) (s0, s1, s2, s3, s4, s5, s6, s7) (tupleEncoder8 E0' E1' E2' E3' E4' E5' E6' E7') (s0', s1', s2', s3', s4', s5', s6', s7') := by
  rw [tupleEncoder8_nested, tupleEncoder8_nested]
  exact C65_substitution_encoder (.pair (.part h0) (.pair (.part h1) (.pair (.part h2) (.pair (.part h3) (.pair (.part h4) (.pair (.part h5) (.pair (.part h6) (.part h7))))))))

/-! ## Behind pointers -/

/-- C65: a decoder behind a `Box` or a `&mut` reference is alike to the decoder. -/
theorem C65_pointer (D : Decoder σ α) (s : σ) : Alike (pointerDecoder D) ⟨s⟩ D s := (sim_pointer D).alike rfl

/-- C65: the same for encoders. -/
theorem C65_pointer_encoder (E : Encoder σ α) (s : σ) : AlikeE (pointerEncoder E) ⟨s⟩ E s := (simE_pointer E).alike rfl

/-- C65: after any calls, `exact_requiring_bytes` through a pointer is that of the encoder. -/
theorem C65_pointer_sized (E : SizedEncoder σ α) (s : σ) (calls : List (ECall α)) :
    (pointerSizedEncoder E).exact (calls.foldl (ecallState (pointerSizedEncoder E).toEncoder) ⟨s⟩) =
      E.exact (calls.foldl (ecallState E.toEncoder) s) := by
  induction calls generalizing s with
  | nil => rfl
  | cons c cs ih => cases c <;> exact ih _

/-- C65: preparing a tagged decoder through a pointer gives the same answer and leaves the decoders alike. -/
theorem C65_pointer_tagged {τ : Type} (D : TaggedDecoder σ τ α) (s : σ) (tag : τ) :
    ((pointerTaggedDecoder D).startDecoding ⟨s⟩ tag).1 = (D.startDecoding s tag).1 ∧
    Alike (pointerTaggedDecoder D).toDecoder ((pointerTaggedDecoder D).startDecoding ⟨s⟩ tag).2 D.toDecoder
      (D.startDecoding s tag).2 :=
  ⟨rfl, C65_pointer _ _⟩

/-- C65: the same for decoders that may refuse a tag. -/
theorem C65_pointer_try_tagged {τ : Type} (D : TryTaggedDecoder σ τ α) (s : σ) (tag : τ) :
    ((pointerTryTaggedDecoder D).tryStartDecoding ⟨s⟩ tag).1 = (D.tryStartDecoding s tag).1 ∧
    Alike (pointerTryTaggedDecoder D).toDecoder ((pointerTryTaggedDecoder D).tryStartDecoding ⟨s⟩ tag).2 D.toDecoder
      (D.tryStartDecoding s tag).2 :=
  ⟨rfl, C65_pointer _ _⟩

/-- A number behind a pointer, halfway written. -/
example : (pointerSizedEncoder u16beEncoder).exact
    ([ECall.start 7, .encode 1 (Eos.new false)].foldl (ecallState (pointerSizedEncoder u16beEncoder).toEncoder) ⟨.new⟩) =
      1 := by decide +kernel

/-- Example: items of two bytes, each decoded by a boxed decoder, in a frame of four bytes. -/
example : Alike
    (lengthDecoder (collectDecoder (pointerDecoder u16beDecoder))) (.new ⟨⟨fixInit 2⟩, [], false⟩ 4)
    (lengthDecoder (collectDecoder u16beDecoder)) (.new ⟨fixInit 2, [], false⟩ 4) :=
  C65_substitution (.length 4 (.collect (.part (C65_pointer _ _))))

/-- Example: an array of numbers, each encoded by a boxed encoder, encoded beforehand. -/
example : AlikeE
    (preEncodeEncoder (repeatEncoder (pointerEncoder u16beEncoder.toEncoder))).toEncoder (.new (.new ⟨.new⟩))
    (preEncodeEncoder (repeatEncoder u16beEncoder.toEncoder)).toEncoder (.new (.new .new)) :=
  C65_substitution_encoder (.preEncode (.repeat (.part (C65_pointer_encoder _ _))))

/-! ## For the functions that drive a codec -/

/-- C65: `decode_from_bytes` gives the same answer, and leaves the decoders alike. -/
theorem C65_decode_from_bytes {D : Decoder σ α} {s : σ} {D' : Decoder τ α} {s' : τ} (h : Alike D s D' s') (b : Bytes) :
    (decodeFromBytes D s b).1 = (decodeFromBytes D' s' b).1 ∧
      Alike D (decodeFromBytes D s b).2 D' (decodeFromBytes D' s' b).2 :=
  (sim_alike D D').decodeFromBytes h b

/-- C65: `decode_exact` runs forever with both or with neither; it gives the same answer, takes the same bytes from the
reader, and leaves the decoders alike. -/
theorem C65_decode_exact {ρ : Type} {D : Decoder σ α} {s : σ} {D' : Decoder τ α} {s' : τ} (h : Alike D s D' s')
    (R : Reader ρ) (r : ρ) :
    (decodeExact D R s r = none ∧ decodeExact D' R s' r = none) ∨
      ∃ answer t t' r', decodeExact D R s r = some (answer, t, r') ∧ decodeExact D' R s' r = some (answer, t', r') ∧
        Alike D t D' t' := by
  cases hp : decodeExact D R s r with
  | none => exact .inl ⟨rfl, (sim_alike D D').decodeExact_none R h hp⟩
  | some x =>
    obtain ⟨⟨a, t', r'⟩, h1, h2, h3, h4⟩ := (sim_alike D D').decodeExact_some R _ _ _ hp _ h
    obtain ⟨a0, t, r0⟩ := x
    simp only at h2 h3 h4
    subst h2 h4
    exact .inr ⟨a0, t, t', r0, rfl, h1, h3⟩

/-- C65: `decode_from_read_buf` gives the same answer, leaves the same buffer, and leaves the decoders alike. -/
theorem C65_decode_from_read_buf {D : Decoder σ α} {s : σ} {D' : Decoder τ α} {s' : τ} (h : Alike D s D' s')
    (b : ReadBuf) :
    (decodeFromReadBuf D s b).1 = (decodeFromReadBuf D' s' b).1 ∧
      Alike D (decodeFromReadBuf D s b).2.1 D' (decodeFromReadBuf D' s' b).2.1 ∧
      (decodeFromReadBuf D s b).2.2 = (decodeFromReadBuf D' s' b).2.2 := by
  simp only [decodeFromReadBuf]
  split
  · exact ⟨rfl, h, rfl⟩
  · exact Meet.step (S := fun (p : σ × ReadBuf) (q : τ × ReadBuf) => Alike D p.1 D' q.1 ∧ p.2 = q.2)
      ((sim_alike D D').decode h _ _)
      (fun _ _ h => ⟨h, rfl⟩) fun _ _ _ h => .mk ⟨h, rfl⟩

/-- C65: `encode_all` runs forever with both or with neither; it gives the same answer, writes the same bytes, and
leaves the encoders alike. -/
theorem C65_encode_all {ω : Type} {E : Encoder σ α} {s : σ} {E' : Encoder τ α} {s' : τ} (h : AlikeE E s E' s')
    (W : Writer ω) (w : ω) :
    (encodeAll E W s w = none ∧ encodeAll E' W s' w = none) ∨
      ∃ answer t t' w', encodeAll E W s w = some (answer, t, w') ∧ encodeAll E' W s' w = some (answer, t', w') ∧
        AlikeE E t E' t' := by
  cases hp : encodeAll E W s w with
  | none => exact .inl ⟨rfl, (simE_alike E E').encodeAll_none W h hp⟩
  | some x =>
    obtain ⟨⟨a, t', r'⟩, h1, h2, h3, h4⟩ := (simE_alike E E').encodeAll_some W _ _ _ hp _ h
    obtain ⟨a0, t, r0⟩ := x
    simp only at h2 h3 h4
    subst h2 h4
    exact .inr ⟨a0, t, t', r0, rfl, h1, h3⟩

/-- C65: `encode_into_bytes` gives the same bytes or the same error, and leaves the encoders alike. -/
theorem C65_encode_into_bytes {E : Encoder σ α} {s : σ} {E' : Encoder τ α} {s' : τ} (h : AlikeE E s E' s') (x : α) :
    (encodeIntoBytes E s x).1 = (encodeIntoBytes E' s' x).1 ∧
      AlikeE E (encodeIntoBytes E s x).2 E' (encodeIntoBytes E' s' x).2 :=
  (simE_alike E E').encodeIntoBytes h x

/-- C65: `encode_to_write_buf` gives the same answer, leaves the same buffer, and leaves the encoders alike. -/
theorem C65_encode_to_write_buf {E : Encoder σ α} {s : σ} {E' : Encoder τ α} {s' : τ} (h : AlikeE E s E' s')
    (b : WriteBuf) :
    (encodeToWriteBuf E s b).1 = (encodeToWriteBuf E' s' b).1 ∧
      AlikeE E (encodeToWriteBuf E s b).2.1 E' (encodeToWriteBuf E' s' b).2.1 ∧
      (encodeToWriteBuf E s b).2.2 = (encodeToWriteBuf E' s' b).2.2 := by
  simp only [encodeToWriteBuf]
  split
  · exact ⟨rfl, h, rfl⟩
  · exact Meet.step (S := fun (p : σ × WriteBuf) (q : τ × WriteBuf) => AlikeE E p.1 E' q.1 ∧ p.2 = q.2)
      ((simE_alike E E').encode h _ _)
      (fun _ _ h => ⟨h, rfl⟩) fun _ _ _ h => .mk ⟨h, rfl⟩

/-- C65: being alike is symmetric and transitive. -/
theorem C65_equivalence :
    (∀ {σ τ α : Type} {D : Decoder σ α} {s : σ} {D' : Decoder τ α} {s' : τ}, Alike D s D' s' → Alike D' s' D s) ∧
    (∀ {σ τ υ α : Type} {D : Decoder σ α} {s : σ} {D' : Decoder τ α} {s' : τ} {D'' : Decoder υ α} {s'' : υ},
      Alike D s D' s' → Alike D' s' D'' s'' → Alike D s D'' s'') ∧
    (∀ {σ τ α : Type} {E : Encoder σ α} {s : σ} {E' : Encoder τ α} {s' : τ}, AlikeE E s E' s' → AlikeE E' s' E s) ∧
    (∀ {σ τ υ α : Type} {E : Encoder σ α} {s : σ} {E' : Encoder τ α} {s' : τ} {E'' : Encoder υ α} {s'' : υ},
      AlikeE E s E' s' → AlikeE E' s' E'' s'' → AlikeE E s E'' s'') :=
  ⟨.symm, .trans, .symm, .trans⟩

/-- Example: a decoder and the same decoder reading the other byte order are not alike. -/
example : ¬ Alike u16beDecoder (fixInit 2) u16leDecoder (fixInit 2) := by
  intro h
  have h1 := (C65_decode_from_bytes h [1, 2]).1
  revert h1
  decide

end Bytecodec.Props
