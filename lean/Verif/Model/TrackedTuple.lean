import Verif.Model.Tracked
/-!
# Model: tuples of three to eight parts, with whole errors

As `tPairDecoder` and `tPairEncoder` of `Model/Tracked.lean`, which are the tuples of two parts. (Generated text; one definition per
arity, as in `Model/Tuple.lean`.)
-/
namespace Bytecodec

variable {κ : Type}

/-- `src/tuple.rs` 31-60 at arity 3: `impl Decode for TupleDecoder`; the macro is called on line 62. -/
def tTuple3Decoder {σ0 α0 σ1 α1 σ2 α2 : Type} (D0 : TDecoder κ σ0 α0) (D1 : TDecoder κ σ1 α1) (D2 : TDecoder κ σ2 α2) :
    TDecoder κ (σ0 × σ1 × σ2) (α0 × α1 × α2) where
  decode s buf e :=
    match tTryDecode ⟨"tuple.rs", 62⟩ D0 s.1 0 buf e with
    | .ret r s0 => (r, (s0, s.2))
    | .next o0 s0 =>
      match tTryDecode ⟨"tuple.rs", 62⟩ D1 s.2.1 o0 buf e with
      | .ret r s1 => (r, (s0, s1, s.2.2))
      | .next o1 s1 =>
        match tTryDecode ⟨"tuple.rs", 62⟩ D2 s.2.2 o1 buf e with
        | .ret r s2 => (r, (s0, s1, s2))
        | .next o2 s2 => (.ok o2, (s0, s1, s2))
  finish s :=
    TRes.step (tracked ⟨"tuple.rs", 62⟩ (D0.finish s.1)) (fun t => (t, s.2)) fun x0 s0 =>
      TRes.step (tracked ⟨"tuple.rs", 62⟩ (D1.finish s.2.1)) (fun t => (s0, t, s.2.2)) fun x1 s1 =>
        TRes.step (tracked ⟨"tuple.rs", 62⟩ (D2.finish s.2.2)) (fun t => (s0, s1, t)) fun x2 s2 =>
          (.ok (x0, x1, x2), (s0, s1, s2))
  requiring s := ((((ByteCount.finite 0).addForDecoding (D0.requiring s.1)).addForDecoding (D1.requiring s.2.1)).addForDecoding (D2.requiring s.2.2))
  isIdle s := D0.isIdle s.1 && D1.isIdle s.2.1 && D2.isIdle s.2.2

/-- `src/tuple.rs` 31-60 at arity 4: `impl Decode for TupleDecoder`; the macro is called on line 63. -/
def tTuple4Decoder {σ0 α0 σ1 α1 σ2 α2 σ3 α3 : Type} (D0 : TDecoder κ σ0 α0) (D1 : TDecoder κ σ1 α1) (D2 : TDecoder κ σ2 α2) (D3 : TDecoder κ σ3 α3) :
    TDecoder κ (σ0 × σ1 × σ2 × σ3) (α0 × α1 × α2 × α3) where
  decode s buf e :=
    match tTryDecode ⟨"tuple.rs", 63⟩ D0 s.1 0 buf e with
    | .ret r s0 => (r, (s0, s.2))
    | .next o0 s0 =>
      match tTryDecode ⟨"tuple.rs", 63⟩ D1 s.2.1 o0 buf e with
      | .ret r s1 => (r, (s0, s1, s.2.2))
      | .next o1 s1 =>
        match tTryDecode ⟨"tuple.rs", 63⟩ D2 s.2.2.1 o1 buf e with
        | .ret r s2 => (r, (s0, s1, s2, s.2.2.2))
        | .next o2 s2 =>
          match tTryDecode ⟨"tuple.rs", 63⟩ D3 s.2.2.2 o2 buf e with
          | .ret r s3 => (r, (s0, s1, s2, s3))
          | .next o3 s3 => (.ok o3, (s0, s1, s2, s3))
  finish s :=
    TRes.step (tracked ⟨"tuple.rs", 63⟩ (D0.finish s.1)) (fun t => (t, s.2)) fun x0 s0 =>
      TRes.step (tracked ⟨"tuple.rs", 63⟩ (D1.finish s.2.1)) (fun t => (s0, t, s.2.2)) fun x1 s1 =>
        TRes.step (tracked ⟨"tuple.rs", 63⟩ (D2.finish s.2.2.1)) (fun t => (s0, s1, t, s.2.2.2)) fun x2 s2 =>
          TRes.step (tracked ⟨"tuple.rs", 63⟩ (D3.finish s.2.2.2)) (fun t => (s0, s1, s2, t)) fun x3 s3 =>
            (.ok (x0, x1, x2, x3), (s0, s1, s2, s3))
  requiring s := (((((ByteCount.finite 0).addForDecoding (D0.requiring s.1)).addForDecoding (D1.requiring s.2.1)).addForDecoding (D2.requiring s.2.2.1)).addForDecoding (D3.requiring s.2.2.2))
  isIdle s := D0.isIdle s.1 && D1.isIdle s.2.1 && D2.isIdle s.2.2.1 && D3.isIdle s.2.2.2

/-- `src/tuple.rs` 31-60 at arity 5: `impl Decode for TupleDecoder`; the macro is called on line 64. -/
def tTuple5Decoder {σ0 α0 σ1 α1 σ2 α2 σ3 α3 σ4 α4 : Type} (D0 : TDecoder κ σ0 α0) (D1 : TDecoder κ σ1 α1) (D2 : TDecoder κ σ2 α2) (D3 : TDecoder κ σ3 α3) (D4 : TDecoder κ σ4 α4) :
    TDecoder κ (σ0 × σ1 × σ2 × σ3 × σ4) (α0 × α1 × α2 × α3 × α4) where
  decode s buf e :=
    match tTryDecode ⟨"tuple.rs", 64⟩ D0 s.1 0 buf e with
    | .ret r s0 => (r, (s0, s.2))
    | .next o0 s0 =>
      match tTryDecode ⟨"tuple.rs", 64⟩ D1 s.2.1 o0 buf e with
      | .ret r s1 => (r, (s0, s1, s.2.2))
      | .next o1 s1 =>
        match tTryDecode ⟨"tuple.rs", 64⟩ D2 s.2.2.1 o1 buf e with
        | .ret r s2 => (r, (s0, s1, s2, s.2.2.2))
        | .next o2 s2 =>
          match tTryDecode ⟨"tuple.rs", 64⟩ D3 s.2.2.2.1 o2 buf e with
          | .ret r s3 => (r, (s0, s1, s2, s3, s.2.2.2.2))
          | .next o3 s3 =>
            match tTryDecode ⟨"tuple.rs", 64⟩ D4 s.2.2.2.2 o3 buf e with
            | .ret r s4 => (r, (s0, s1, s2, s3, s4))
            | .next o4 s4 => (.ok o4, (s0, s1, s2, s3, s4))
  finish s :=
    TRes.step (tracked ⟨"tuple.rs", 64⟩ (D0.finish s.1)) (fun t => (t, s.2)) fun x0 s0 =>
      TRes.step (tracked ⟨"tuple.rs", 64⟩ (D1.finish s.2.1)) (fun t => (s0, t, s.2.2)) fun x1 s1 =>
        TRes.step (tracked ⟨"tuple.rs", 64⟩ (D2.finish s.2.2.1)) (fun t => (s0, s1, t, s.2.2.2)) fun x2 s2 =>
          TRes.step (tracked ⟨"tuple.rs", 64⟩ (D3.finish s.2.2.2.1)) (fun t => (s0, s1, s2, t, s.2.2.2.2)) fun x3 s3 =>
            TRes.step (tracked ⟨"tuple.rs", 64⟩ (D4.finish s.2.2.2.2)) (fun t => (s0, s1, s2, s3, t)) fun x4 s4 =>
              (.ok (x0, x1, x2, x3, x4), (s0, s1, s2, s3, s4))
  requiring s := ((((((ByteCount.finite 0).addForDecoding (D0.requiring s.1)).addForDecoding (D1.requiring s.2.1)).addForDecoding (D2.requiring s.2.2.1)).addForDecoding (D3.requiring s.2.2.2.1)).addForDecoding (D4.requiring s.2.2.2.2))
  isIdle s := D0.isIdle s.1 && D1.isIdle s.2.1 && D2.isIdle s.2.2.1 && D3.isIdle s.2.2.2.1 && D4.isIdle s.2.2.2.2

/-- `src/tuple.rs` 31-60 at arity 6: `impl Decode for TupleDecoder`; the macro is called on line 65. -/
def tTuple6Decoder {σ0 α0 σ1 α1 σ2 α2 σ3 α3 σ4 α4 σ5 α5 : Type} (D0 : TDecoder κ σ0 α0) (D1 : TDecoder κ σ1 α1) (D2 : TDecoder κ σ2 α2) (D3 : TDecoder κ σ3 α3) (D4 : TDecoder κ σ4 α4) (D5 : TDecoder κ σ5 α5) :
    TDecoder κ (σ0 × σ1 × σ2 × σ3 × σ4 × σ5) (α0 × α1 × α2 × α3 × α4 × α5) where
  decode s buf e :=
    match tTryDecode ⟨"tuple.rs", 65⟩ D0 s.1 0 buf e with
    | .ret r s0 => (r, (s0, s.2))
    | .next o0 s0 =>
      match tTryDecode ⟨"tuple.rs", 65⟩ D1 s.2.1 o0 buf e with
      | .ret r s1 => (r, (s0, s1, s.2.2))
      | .next o1 s1 =>
        match tTryDecode ⟨"tuple.rs", 65⟩ D2 s.2.2.1 o1 buf e with
        | .ret r s2 => (r, (s0, s1, s2, s.2.2.2))
        | .next o2 s2 =>
          match tTryDecode ⟨"tuple.rs", 65⟩ D3 s.2.2.2.1 o2 buf e with
          | .ret r s3 => (r, (s0, s1, s2, s3, s.2.2.2.2))
          | .next o3 s3 =>
            match tTryDecode ⟨"tuple.rs", 65⟩ D4 s.2.2.2.2.1 o3 buf e with
            | .ret r s4 => (r, (s0, s1, s2, s3, s4, s.2.2.2.2.2))
            | .next o4 s4 =>
              match tTryDecode ⟨"tuple.rs", 65⟩ D5 s.2.2.2.2.2 o4 buf e with
              | .ret r s5 => (r, (s0, s1, s2, s3, s4, s5))
              | .next o5 s5 => (.ok o5, (s0, s1, s2, s3, s4, s5))
  finish s :=
    TRes.step (tracked ⟨"tuple.rs", 65⟩ (D0.finish s.1)) (fun t => (t, s.2)) fun x0 s0 =>
      TRes.step (tracked ⟨"tuple.rs", 65⟩ (D1.finish s.2.1)) (fun t => (s0, t, s.2.2)) fun x1 s1 =>
        TRes.step (tracked ⟨"tuple.rs", 65⟩ (D2.finish s.2.2.1)) (fun t => (s0, s1, t, s.2.2.2)) fun x2 s2 =>
          TRes.step (tracked ⟨"tuple.rs", 65⟩ (D3.finish s.2.2.2.1)) (fun t => (s0, s1, s2, t, s.2.2.2.2)) fun x3 s3 =>
            TRes.step (tracked ⟨"tuple.rs", 65⟩ (D4.finish s.2.2.2.2.1)) (fun t => (s0, s1, s2, s3, t, s.2.2.2.2.2)) fun x4 s4 =>
              TRes.step (tracked ⟨"tuple.rs", 65⟩ (D5.finish s.2.2.2.2.2)) (fun t => (s0, s1, s2, s3, s4, t)) fun x5 s5 =>
                (.ok (x0, x1, x2, x3, x4, x5), (s0, s1, s2, s3, s4, s5))
  requiring s := (((((((ByteCount.finite 0).addForDecoding (D0.requiring s.1)).addForDecoding (D1.requiring s.2.1)).addForDecoding (D2.requiring s.2.2.1)).addForDecoding (D3.requiring s.2.2.2.1)).addForDecoding (D4.requiring s.2.2.2.2.1)).addForDecoding (D5.requiring s.2.2.2.2.2))
  isIdle s := D0.isIdle s.1 && D1.isIdle s.2.1 && D2.isIdle s.2.2.1 && D3.isIdle s.2.2.2.1 && D4.isIdle s.2.2.2.2.1 && D5.isIdle s.2.2.2.2.2

/-- `src/tuple.rs` 31-60 at arity 7: `impl Decode for TupleDecoder`; the macro is called on line 66. -/
def tTuple7Decoder {σ0 α0 σ1 α1 σ2 α2 σ3 α3 σ4 α4 σ5 α5 σ6 α6 : Type} (D0 : TDecoder κ σ0 α0) (D1 : TDecoder κ σ1 α1) (D2 : TDecoder κ σ2 α2) (D3 : TDecoder κ σ3 α3) (D4 : TDecoder κ σ4 α4) (D5 : TDecoder κ σ5 α5) (D6 : TDecoder κ σ6 α6) :
    TDecoder κ (σ0 × σ1 × σ2 × σ3 × σ4 × σ5 × σ6) (α0 × α1 × α2 × α3 × α4 × α5 × α6) where
  decode s buf e :=
    match tTryDecode ⟨"tuple.rs", 66⟩ D0 s.1 0 buf e with
    | .ret r s0 => (r, (s0, s.2))
    | .next o0 s0 =>
      match tTryDecode ⟨"tuple.rs", 66⟩ D1 s.2.1 o0 buf e with
      | .ret r s1 => (r, (s0, s1, s.2.2))
      | .next o1 s1 =>
        match tTryDecode ⟨"tuple.rs", 66⟩ D2 s.2.2.1 o1 buf e with
        | .ret r s2 => (r, (s0, s1, s2, s.2.2.2))
        | .next o2 s2 =>
          match tTryDecode ⟨"tuple.rs", 66⟩ D3 s.2.2.2.1 o2 buf e with
          | .ret r s3 => (r, (s0, s1, s2, s3, s.2.2.2.2))
          | .next o3 s3 =>
            match tTryDecode ⟨"tuple.rs", 66⟩ D4 s.2.2.2.2.1 o3 buf e with
            | .ret r s4 => (r, (s0, s1, s2, s3, s4, s.2.2.2.2.2))
            | .next o4 s4 =>
              match tTryDecode ⟨"tuple.rs", 66⟩ D5 s.2.2.2.2.2.1 o4 buf e with
              | .ret r s5 => (r, (s0, s1, s2, s3, s4, s5, s.2.2.2.2.2.2))
              | .next o5 s5 =>
                match tTryDecode ⟨"tuple.rs", 66⟩ D6 s.2.2.2.2.2.2 o5 buf e with
                | .ret r s6 => (r, (s0, s1, s2, s3, s4, s5, s6))
                | .next o6 s6 => (.ok o6, (s0, s1, s2, s3, s4, s5, s6))
  finish s :=
    TRes.step (tracked ⟨"tuple.rs", 66⟩ (D0.finish s.1)) (fun t => (t, s.2)) fun x0 s0 =>
      TRes.step (tracked ⟨"tuple.rs", 66⟩ (D1.finish s.2.1)) (fun t => (s0, t, s.2.2)) fun x1 s1 =>
        TRes.step (tracked ⟨"tuple.rs", 66⟩ (D2.finish s.2.2.1)) (fun t => (s0, s1, t, s.2.2.2)) fun x2 s2 =>
          TRes.step (tracked ⟨"tuple.rs", 66⟩ (D3.finish s.2.2.2.1)) (fun t => (s0, s1, s2, t, s.2.2.2.2)) fun x3 s3 =>
            TRes.step (tracked ⟨"tuple.rs", 66⟩ (D4.finish s.2.2.2.2.1)) (fun t => (s0, s1, s2, s3, t, s.2.2.2.2.2)) fun x4 s4 =>
              TRes.step (tracked ⟨"tuple.rs", 66⟩ (D5.finish s.2.2.2.2.2.1)) (fun t => (s0, s1, s2, s3, s4, t, s.2.2.2.2.2.2)) fun x5 s5 =>
                TRes.step (tracked ⟨"tuple.rs", 66⟩ (D6.finish s.2.2.2.2.2.2)) (fun t => (s0, s1, s2, s3, s4, s5, t)) fun x6 s6 =>
                  (.ok (x0, x1, x2, x3, x4, x5, x6), (s0, s1, s2, s3, s4, s5, s6))
  requiring s := ((((((((ByteCount.finite 0).addForDecoding (D0.requiring s.1)).addForDecoding (D1.requiring s.2.1)).addForDecoding (D2.requiring s.2.2.1)).addForDecoding (D3.requiring s.2.2.2.1)).addForDecoding (D4.requiring s.2.2.2.2.1)).addForDecoding (D5.requiring s.2.2.2.2.2.1)).addForDecoding (D6.requiring s.2.2.2.2.2.2))
  isIdle s := D0.isIdle s.1 && D1.isIdle s.2.1 && D2.isIdle s.2.2.1 && D3.isIdle s.2.2.2.1 && D4.isIdle s.2.2.2.2.1 && D5.isIdle s.2.2.2.2.2.1 && D6.isIdle s.2.2.2.2.2.2

/-- `src/tuple.rs` 31-60 at arity 8: `impl Decode for TupleDecoder`; the macro is called on line 67. -/
def tTuple8Decoder {σ0 α0 σ1 α1 σ2 α2 σ3 α3 σ4 α4 σ5 α5 σ6 α6 σ7 α7 : Type} (D0 : TDecoder κ σ0 α0) (D1 : TDecoder κ σ1 α1) (D2 : TDecoder κ σ2 α2) (D3 : TDecoder κ σ3 α3) (D4 : TDecoder κ σ4 α4) (D5 : TDecoder κ σ5 α5) (D6 : TDecoder κ σ6 α6) (D7 : TDecoder κ σ7 α7) :
    TDecoder κ (σ0 × σ1 × σ2 × σ3 × σ4 × σ5 × σ6 × σ7) (α0 × α1 × α2 × α3 × α4 × α5 × α6 × α7) where
  decode s buf e :=
    match tTryDecode ⟨"tuple.rs", 67⟩ D0 s.1 0 buf e with
    | .ret r s0 => (r, (s0, s.2))
    | .next o0 s0 =>
      match tTryDecode ⟨"tuple.rs", 67⟩ D1 s.2.1 o0 buf e with
      | .ret r s1 => (r, (s0, s1, s.2.2))
      | .next o1 s1 =>
        match tTryDecode ⟨"tuple.rs", 67⟩ D2 s.2.2.1 o1 buf e with
        | .ret r s2 => (r, (s0, s1, s2, s.2.2.2))
        | .next o2 s2 =>
          match tTryDecode ⟨"tuple.rs", 67⟩ D3 s.2.2.2.1 o2 buf e with
          | .ret r s3 => (r, (s0, s1, s2, s3, s.2.2.2.2))
          | .next o3 s3 =>
            match tTryDecode ⟨"tuple.rs", 67⟩ D4 s.2.2.2.2.1 o3 buf e with
            | .ret r s4 => (r, (s0, s1, s2, s3, s4, s.2.2.2.2.2))
            | .next o4 s4 =>
              match tTryDecode ⟨"tuple.rs", 67⟩ D5 s.2.2.2.2.2.1 o4 buf e with
              | .ret r s5 => (r, (s0, s1, s2, s3, s4, s5, s.2.2.2.2.2.2))
              | .next o5 s5 =>
                match tTryDecode ⟨"tuple.rs", 67⟩ D6 s.2.2.2.2.2.2.1 o5 buf e with
                | .ret r s6 => (r, (s0, s1, s2, s3, s4, s5, s6, s.2.2.2.2.2.2.2))
                | .next o6 s6 =>
                  match tTryDecode ⟨"tuple.rs", 67⟩ D7 s.2.2.2.2.2.2.2 o6 buf e with
                  | .ret r s7 => (r, (s0, s1, s2, s3, s4, s5, s6, s7))
                  | .next o7 s7 => (.ok o7, (s0, s1, s2, s3, s4, s5, s6, s7))
  finish s :=
    TRes.step (tracked ⟨"tuple.rs", 67⟩ (D0.finish s.1)) (fun t => (t, s.2)) fun x0 s0 =>
      TRes.step (tracked ⟨"tuple.rs", 67⟩ (D1.finish s.2.1)) (fun t => (s0, t, s.2.2)) fun x1 s1 =>
        TRes.step (tracked ⟨"tuple.rs", 67⟩ (D2.finish s.2.2.1)) (fun t => (s0, s1, t, s.2.2.2)) fun x2 s2 =>
          TRes.step (tracked ⟨"tuple.rs", 67⟩ (D3.finish s.2.2.2.1)) (fun t => (s0, s1, s2, t, s.2.2.2.2)) fun x3 s3 =>
            TRes.step (tracked ⟨"tuple.rs", 67⟩ (D4.finish s.2.2.2.2.1)) (fun t => (s0, s1, s2, s3, t, s.2.2.2.2.2)) fun x4 s4 =>
              TRes.step (tracked ⟨"tuple.rs", 67⟩ (D5.finish s.2.2.2.2.2.1)) (fun t => (s0, s1, s2, s3, s4, t, s.2.2.2.2.2.2)) fun x5 s5 =>
                TRes.step (tracked ⟨"tuple.rs", 67⟩ (D6.finish s.2.2.2.2.2.2.1)) (fun t => (s0, s1, s2, s3, s4, s5, t, s.2.2.2.2.2.2.2)) fun x6 s6 =>
                  TRes.step (tracked ⟨"tuple.rs", 67⟩ (D7.finish s.2.2.2.2.2.2.2)) (fun t => (s0, s1, s2, s3, s4, s5, s6, t)) fun x7 s7 =>
                    (.ok (x0, x1, x2, x3, x4, x5, x6, x7), (s0, s1, s2, s3, s4, s5, s6, s7))
  requiring s := (((((((((ByteCount.finite 0).addForDecoding (D0.requiring s.1)).addForDecoding (D1.requiring s.2.1)).addForDecoding (D2.requiring s.2.2.1)).addForDecoding (D3.requiring s.2.2.2.1)).addForDecoding (D4.requiring s.2.2.2.2.1)).addForDecoding (D5.requiring s.2.2.2.2.2.1)).addForDecoding (D6.requiring s.2.2.2.2.2.2.1)).addForDecoding (D7.requiring s.2.2.2.2.2.2.2))
  isIdle s := D0.isIdle s.1 && D1.isIdle s.2.1 && D2.isIdle s.2.2.1 && D3.isIdle s.2.2.2.1 && D4.isIdle s.2.2.2.2.1 && D5.isIdle s.2.2.2.2.2.1 && D6.isIdle s.2.2.2.2.2.2.1 && D7.isIdle s.2.2.2.2.2.2.2

/-- `src/tuple.rs` 96-121 at arity 3: `impl Encode for TupleEncoder`; the macro is called on line 134. -/
def tTuple3Encoder {σ0 α0 σ1 α1 σ2 α2 : Type} (E0 : TEncoder κ σ0 α0) (E1 : TEncoder κ σ1 α1) (E2 : TEncoder κ σ2 α2) :
    TEncoder κ (σ0 × σ1 × σ2) (α0 × α1 × α2) where
  encode s cap e :=
    match tTryEncode ⟨"tuple.rs", 134⟩ E0 s.1 [] cap e with
    | .ret r s0 => (r, (s0, s.2))
    | .next o0 s0 =>
      match tTryEncode ⟨"tuple.rs", 134⟩ E1 s.2.1 o0 cap e with
      | .ret r s1 => (r, (s0, s1, s.2.2))
      | .next o1 s1 =>
        match tTryEncode ⟨"tuple.rs", 134⟩ E2 s.2.2 o1 cap e with
        | .ret r s2 => (r, (s0, s1, s2))
        | .next o2 s2 => (.ok o2, (s0, s1, s2))
  start s t :=
    TRes.step (tracked ⟨"tuple.rs", 134⟩ (E0.start s.1 t.1)) (fun u => (u, s.2)) fun _ s0 =>
      TRes.step (tracked ⟨"tuple.rs", 134⟩ (E1.start s.2.1 t.2.1)) (fun u => (s0, u, s.2.2)) fun _ s1 =>
        TRes.step (tracked ⟨"tuple.rs", 134⟩ (E2.start s.2.2 t.2.2)) (fun u => (s0, s1, u)) fun _ s2 =>
          (.ok (), (s0, s1, s2))
  requiring s := ((((ByteCount.finite 0).addForEncoding (E0.requiring s.1)).addForEncoding (E1.requiring s.2.1)).addForEncoding (E2.requiring s.2.2))
  isIdle s := E0.isIdle s.1 && E1.isIdle s.2.1 && E2.isIdle s.2.2

/-- `src/tuple.rs` 96-121 at arity 4: `impl Encode for TupleEncoder`; the macro is called on line 135. -/
def tTuple4Encoder {σ0 α0 σ1 α1 σ2 α2 σ3 α3 : Type} (E0 : TEncoder κ σ0 α0) (E1 : TEncoder κ σ1 α1) (E2 : TEncoder κ σ2 α2) (E3 : TEncoder κ σ3 α3) :
    TEncoder κ (σ0 × σ1 × σ2 × σ3) (α0 × α1 × α2 × α3) where
  encode s cap e :=
    match tTryEncode ⟨"tuple.rs", 135⟩ E0 s.1 [] cap e with
    | .ret r s0 => (r, (s0, s.2))
    | .next o0 s0 =>
      match tTryEncode ⟨"tuple.rs", 135⟩ E1 s.2.1 o0 cap e with
      | .ret r s1 => (r, (s0, s1, s.2.2))
      | .next o1 s1 =>
        match tTryEncode ⟨"tuple.rs", 135⟩ E2 s.2.2.1 o1 cap e with
        | .ret r s2 => (r, (s0, s1, s2, s.2.2.2))
        | .next o2 s2 =>
          match tTryEncode ⟨"tuple.rs", 135⟩ E3 s.2.2.2 o2 cap e with
          | .ret r s3 => (r, (s0, s1, s2, s3))
          | .next o3 s3 => (.ok o3, (s0, s1, s2, s3))
  start s t :=
    TRes.step (tracked ⟨"tuple.rs", 135⟩ (E0.start s.1 t.1)) (fun u => (u, s.2)) fun _ s0 =>
      TRes.step (tracked ⟨"tuple.rs", 135⟩ (E1.start s.2.1 t.2.1)) (fun u => (s0, u, s.2.2)) fun _ s1 =>
        TRes.step (tracked ⟨"tuple.rs", 135⟩ (E2.start s.2.2.1 t.2.2.1)) (fun u => (s0, s1, u, s.2.2.2)) fun _ s2 =>
          TRes.step (tracked ⟨"tuple.rs", 135⟩ (E3.start s.2.2.2 t.2.2.2)) (fun u => (s0, s1, s2, u)) fun _ s3 =>
            (.ok (), (s0, s1, s2, s3))
  requiring s := (((((ByteCount.finite 0).addForEncoding (E0.requiring s.1)).addForEncoding (E1.requiring s.2.1)).addForEncoding (E2.requiring s.2.2.1)).addForEncoding (E3.requiring s.2.2.2))
  isIdle s := E0.isIdle s.1 && E1.isIdle s.2.1 && E2.isIdle s.2.2.1 && E3.isIdle s.2.2.2

/-- `src/tuple.rs` 96-121 at arity 5: `impl Encode for TupleEncoder`; the macro is called on line 136. -/
def tTuple5Encoder {σ0 α0 σ1 α1 σ2 α2 σ3 α3 σ4 α4 : Type} (E0 : TEncoder κ σ0 α0) (E1 : TEncoder κ σ1 α1) (E2 : TEncoder κ σ2 α2) (E3 : TEncoder κ σ3 α3) (E4 : TEncoder κ σ4 α4) :
    TEncoder κ (σ0 × σ1 × σ2 × σ3 × σ4) (α0 × α1 × α2 × α3 × α4) where
  encode s cap e :=
    match tTryEncode ⟨"tuple.rs", 136⟩ E0 s.1 [] cap e with
    | .ret r s0 => (r, (s0, s.2))
    | .next o0 s0 =>
      match tTryEncode ⟨"tuple.rs", 136⟩ E1 s.2.1 o0 cap e with
      | .ret r s1 => (r, (s0, s1, s.2.2))
      | .next o1 s1 =>
        match tTryEncode ⟨"tuple.rs", 136⟩ E2 s.2.2.1 o1 cap e with
        | .ret r s2 => (r, (s0, s1, s2, s.2.2.2))
        | .next o2 s2 =>
          match tTryEncode ⟨"tuple.rs", 136⟩ E3 s.2.2.2.1 o2 cap e with
          | .ret r s3 => (r, (s0, s1, s2, s3, s.2.2.2.2))
          | .next o3 s3 =>
            match tTryEncode ⟨"tuple.rs", 136⟩ E4 s.2.2.2.2 o3 cap e with
            | .ret r s4 => (r, (s0, s1, s2, s3, s4))
            | .next o4 s4 => (.ok o4, (s0, s1, s2, s3, s4))
  start s t :=
    TRes.step (tracked ⟨"tuple.rs", 136⟩ (E0.start s.1 t.1)) (fun u => (u, s.2)) fun _ s0 =>
      TRes.step (tracked ⟨"tuple.rs", 136⟩ (E1.start s.2.1 t.2.1)) (fun u => (s0, u, s.2.2)) fun _ s1 =>
        TRes.step (tracked ⟨"tuple.rs", 136⟩ (E2.start s.2.2.1 t.2.2.1)) (fun u => (s0, s1, u, s.2.2.2)) fun _ s2 =>
          TRes.step (tracked ⟨"tuple.rs", 136⟩ (E3.start s.2.2.2.1 t.2.2.2.1)) (fun u => (s0, s1, s2, u, s.2.2.2.2)) fun _ s3 =>
            TRes.step (tracked ⟨"tuple.rs", 136⟩ (E4.start s.2.2.2.2 t.2.2.2.2)) (fun u => (s0, s1, s2, s3, u)) fun _ s4 =>
              (.ok (), (s0, s1, s2, s3, s4))
  requiring s := ((((((ByteCount.finite 0).addForEncoding (E0.requiring s.1)).addForEncoding (E1.requiring s.2.1)).addForEncoding (E2.requiring s.2.2.1)).addForEncoding (E3.requiring s.2.2.2.1)).addForEncoding (E4.requiring s.2.2.2.2))
  isIdle s := E0.isIdle s.1 && E1.isIdle s.2.1 && E2.isIdle s.2.2.1 && E3.isIdle s.2.2.2.1 && E4.isIdle s.2.2.2.2

/-- `src/tuple.rs` 96-121 at arity 6: `impl Encode for TupleEncoder`; the macro is called on line 137. -/
def tTuple6Encoder {σ0 α0 σ1 α1 σ2 α2 σ3 α3 σ4 α4 σ5 α5 : Type} (E0 : TEncoder κ σ0 α0) (E1 : TEncoder κ σ1 α1) (E2 : TEncoder κ σ2 α2) (E3 : TEncoder κ σ3 α3) (E4 : TEncoder κ σ4 α4) (E5 : TEncoder κ σ5 α5) :
    TEncoder κ (σ0 × σ1 × σ2 × σ3 × σ4 × σ5) (α0 × α1 × α2 × α3 × α4 × α5) where
  encode s cap e :=
    match tTryEncode ⟨"tuple.rs", 137⟩ E0 s.1 [] cap e with
    | .ret r s0 => (r, (s0, s.2))
    | .next o0 s0 =>
      match tTryEncode ⟨"tuple.rs", 137⟩ E1 s.2.1 o0 cap e with
      | .ret r s1 => (r, (s0, s1, s.2.2))
      | .next o1 s1 =>
        match tTryEncode ⟨"tuple.rs", 137⟩ E2 s.2.2.1 o1 cap e with
        | .ret r s2 => (r, (s0, s1, s2, s.2.2.2))
        | .next o2 s2 =>
          match tTryEncode ⟨"tuple.rs", 137⟩ E3 s.2.2.2.1 o2 cap e with
          | .ret r s3 => (r, (s0, s1, s2, s3, s.2.2.2.2))
          | .next o3 s3 =>
            match tTryEncode ⟨"tuple.rs", 137⟩ E4 s.2.2.2.2.1 o3 cap e with
            | .ret r s4 => (r, (s0, s1, s2, s3, s4, s.2.2.2.2.2))
            | .next o4 s4 =>
              match tTryEncode ⟨"tuple.rs", 137⟩ E5 s.2.2.2.2.2 o4 cap e with
              | .ret r s5 => (r, (s0, s1, s2, s3, s4, s5))
              | .next o5 s5 => (.ok o5, (s0, s1, s2, s3, s4, s5))
  start s t :=
    TRes.step (tracked ⟨"tuple.rs", 137⟩ (E0.start s.1 t.1)) (fun u => (u, s.2)) fun _ s0 =>
      TRes.step (tracked ⟨"tuple.rs", 137⟩ (E1.start s.2.1 t.2.1)) (fun u => (s0, u, s.2.2)) fun _ s1 =>
        TRes.step (tracked ⟨"tuple.rs", 137⟩ (E2.start s.2.2.1 t.2.2.1)) (fun u => (s0, s1, u, s.2.2.2)) fun _ s2 =>
          TRes.step (tracked ⟨"tuple.rs", 137⟩ (E3.start s.2.2.2.1 t.2.2.2.1)) (fun u => (s0, s1, s2, u, s.2.2.2.2)) fun _ s3 =>
            TRes.step (tracked ⟨"tuple.rs", 137⟩ (E4.start s.2.2.2.2.1 t.2.2.2.2.1)) (fun u => (s0, s1, s2, s3, u, s.2.2.2.2.2)) fun _ s4 =>
              TRes.step (tracked ⟨"tuple.rs", 137⟩ (E5.start s.2.2.2.2.2 t.2.2.2.2.2)) (fun u => (s0, s1, s2, s3, s4, u)) fun _ s5 =>
                (.ok (), (s0, s1, s2, s3, s4, s5))
  requiring s := (((((((ByteCount.finite 0).addForEncoding (E0.requiring s.1)).addForEncoding (E1.requiring s.2.1)).addForEncoding (E2.requiring s.2.2.1)).addForEncoding (E3.requiring s.2.2.2.1)).addForEncoding (E4.requiring s.2.2.2.2.1)).addForEncoding (E5.requiring s.2.2.2.2.2))
  isIdle s := E0.isIdle s.1 && E1.isIdle s.2.1 && E2.isIdle s.2.2.1 && E3.isIdle s.2.2.2.1 && E4.isIdle s.2.2.2.2.1 && E5.isIdle s.2.2.2.2.2

/-- `src/tuple.rs` 96-121 at arity 7: `impl Encode for TupleEncoder`; the macro is called on line 138. -/
def tTuple7Encoder {σ0 α0 σ1 α1 σ2 α2 σ3 α3 σ4 α4 σ5 α5 σ6 α6 : Type} (E0 : TEncoder κ σ0 α0) (E1 : TEncoder κ σ1 α1) (E2 : TEncoder κ σ2 α2) (E3 : TEncoder κ σ3 α3) (E4 : TEncoder κ σ4 α4) (E5 : TEncoder κ σ5 α5) (E6 : TEncoder κ σ6 α6) :
    TEncoder κ (σ0 × σ1 × σ2 × σ3 × σ4 × σ5 × σ6) (α0 × α1 × α2 × α3 × α4 × α5 × α6) where
  encode s cap e :=
    match tTryEncode ⟨"tuple.rs", 138⟩ E0 s.1 [] cap e with
    | .ret r s0 => (r, (s0, s.2))
    | .next o0 s0 =>
      match tTryEncode ⟨"tuple.rs", 138⟩ E1 s.2.1 o0 cap e with
      | .ret r s1 => (r, (s0, s1, s.2.2))
      | .next o1 s1 =>
        match tTryEncode ⟨"tuple.rs", 138⟩ E2 s.2.2.1 o1 cap e with
        | .ret r s2 => (r, (s0, s1, s2, s.2.2.2))
        | .next o2 s2 =>
          match tTryEncode ⟨"tuple.rs", 138⟩ E3 s.2.2.2.1 o2 cap e with
          | .ret r s3 => (r, (s0, s1, s2, s3, s.2.2.2.2))
          | .next o3 s3 =>
            match tTryEncode ⟨"tuple.rs", 138⟩ E4 s.2.2.2.2.1 o3 cap e with
            | .ret r s4 => (r, (s0, s1, s2, s3, s4, s.2.2.2.2.2))
            | .next o4 s4 =>
              match tTryEncode ⟨"tuple.rs", 138⟩ E5 s.2.2.2.2.2.1 o4 cap e with
              | .ret r s5 => (r, (s0, s1, s2, s3, s4, s5, s.2.2.2.2.2.2))
              | .next o5 s5 =>
                match tTryEncode ⟨"tuple.rs", 138⟩ E6 s.2.2.2.2.2.2 o5 cap e with
                | .ret r s6 => (r, (s0, s1, s2, s3, s4, s5, s6))
                | .next o6 s6 => (.ok o6, (s0, s1, s2, s3, s4, s5, s6))
  start s t :=
    TRes.step (tracked ⟨"tuple.rs", 138⟩ (E0.start s.1 t.1)) (fun u => (u, s.2)) fun _ s0 =>
      TRes.step (tracked ⟨"tuple.rs", 138⟩ (E1.start s.2.1 t.2.1)) (fun u => (s0, u, s.2.2)) fun _ s1 =>
        TRes.step (tracked ⟨"tuple.rs", 138⟩ (E2.start s.2.2.1 t.2.2.1)) (fun u => (s0, s1, u, s.2.2.2)) fun _ s2 =>
          TRes.step (tracked ⟨"tuple.rs", 138⟩ (E3.start s.2.2.2.1 t.2.2.2.1)) (fun u => (s0, s1, s2, u, s.2.2.2.2)) fun _ s3 =>
            TRes.step (tracked ⟨"tuple.rs", 138⟩ (E4.start s.2.2.2.2.1 t.2.2.2.2.1)) (fun u => (s0, s1, s2, s3, u, s.2.2.2.2.2)) fun _ s4 =>
              TRes.step (tracked ⟨"tuple.rs", 138⟩ (E5.start s.2.2.2.2.2.1 t.2.2.2.2.2.1)) (fun u => (s0, s1, s2, s3, s4, u, s.2.2.2.2.2.2)) fun _ s5 =>
                TRes.step (tracked ⟨"tuple.rs", 138⟩ (E6.start s.2.2.2.2.2.2 t.2.2.2.2.2.2)) (fun u => (s0, s1, s2, s3, s4, s5, u)) fun _ s6 =>
                  (.ok (), (s0, s1, s2, s3, s4, s5, s6))
  requiring s := ((((((((ByteCount.finite 0).addForEncoding (E0.requiring s.1)).addForEncoding (E1.requiring s.2.1)).addForEncoding (E2.requiring s.2.2.1)).addForEncoding (E3.requiring s.2.2.2.1)).addForEncoding (E4.requiring s.2.2.2.2.1)).addForEncoding (E5.requiring s.2.2.2.2.2.1)).addForEncoding (E6.requiring s.2.2.2.2.2.2))
  isIdle s := E0.isIdle s.1 && E1.isIdle s.2.1 && E2.isIdle s.2.2.1 && E3.isIdle s.2.2.2.1 && E4.isIdle s.2.2.2.2.1 && E5.isIdle s.2.2.2.2.2.1 && E6.isIdle s.2.2.2.2.2.2

/-- `src/tuple.rs` 96-121 at arity 8: `impl Encode for TupleEncoder`; the macro is called on line 139. -/
def tTuple8Encoder {σ0 α0 σ1 α1 σ2 α2 σ3 α3 σ4 α4 σ5 α5 σ6 α6 σ7 α7 : Type} (E0 : TEncoder κ σ0 α0) (E1 : TEncoder κ σ1 α1) (E2 : TEncoder κ σ2 α2) (E3 : TEncoder κ σ3 α3) (E4 : TEncoder κ σ4 α4) (E5 : TEncoder κ σ5 α5) (E6 : TEncoder κ σ6 α6) (E7 : TEncoder κ σ7 α7) :
    TEncoder κ (σ0 × σ1 × σ2 × σ3 × σ4 × σ5 × σ6 × σ7) (α0 × α1 × α2 × α3 × α4 × α5 × α6 × α7) where
  encode s cap e :=
    match tTryEncode ⟨"tuple.rs", 139⟩ E0 s.1 [] cap e with
    | .ret r s0 => (r, (s0, s.2))
    | .next o0 s0 =>
      match tTryEncode ⟨"tuple.rs", 139⟩ E1 s.2.1 o0 cap e with
      | .ret r s1 => (r, (s0, s1, s.2.2))
      | .next o1 s1 =>
        match tTryEncode ⟨"tuple.rs", 139⟩ E2 s.2.2.1 o1 cap e with
        | .ret r s2 => (r, (s0, s1, s2, s.2.2.2))
        | .next o2 s2 =>
          match tTryEncode ⟨"tuple.rs", 139⟩ E3 s.2.2.2.1 o2 cap e with
          | .ret r s3 => (r, (s0, s1, s2, s3, s.2.2.2.2))
          | .next o3 s3 =>
            match tTryEncode ⟨"tuple.rs", 139⟩ E4 s.2.2.2.2.1 o3 cap e with
            | .ret r s4 => (r, (s0, s1, s2, s3, s4, s.2.2.2.2.2))
            | .next o4 s4 =>
              match tTryEncode ⟨"tuple.rs", 139⟩ E5 s.2.2.2.2.2.1 o4 cap e with
              | .ret r s5 => (r, (s0, s1, s2, s3, s4, s5, s.2.2.2.2.2.2))
              | .next o5 s5 =>
                match tTryEncode ⟨"tuple.rs", 139⟩ E6 s.2.2.2.2.2.2.1 o5 cap e with
                | .ret r s6 => (r, (s0, s1, s2, s3, s4, s5, s6, s.2.2.2.2.2.2.2))
                | .next o6 s6 =>
                  match tTryEncode ⟨"tuple.rs", 139⟩ E7 s.2.2.2.2.2.2.2 o6 cap e with
                  | .ret r s7 => (r, (s0, s1, s2, s3, s4, s5, s6, s7))
                  | .next o7 s7 => (.ok o7, (s0, s1, s2, s3, s4, s5, s6, s7))
  start s t :=
    TRes.step (tracked ⟨"tuple.rs", 139⟩ (E0.start s.1 t.1)) (fun u => (u, s.2)) fun _ s0 =>
      TRes.step (tracked ⟨"tuple.rs", 139⟩ (E1.start s.2.1 t.2.1)) (fun u => (s0, u, s.2.2)) fun _ s1 =>
        TRes.step (tracked ⟨"tuple.rs", 139⟩ (E2.start s.2.2.1 t.2.2.1)) (fun u => (s0, s1, u, s.2.2.2)) fun _ s2 =>
          TRes.step (tracked ⟨"tuple.rs", 139⟩ (E3.start s.2.2.2.1 t.2.2.2.1)) (fun u => (s0, s1, s2, u, s.2.2.2.2)) fun _ s3 =>
            TRes.step (tracked ⟨"tuple.rs", 139⟩ (E4.start s.2.2.2.2.1 t.2.2.2.2.1)) (fun u => (s0, s1, s2, s3, u, s.2.2.2.2.2)) fun _ s4 =>
              TRes.step (tracked ⟨"tuple.rs", 139⟩ (E5.start s.2.2.2.2.2.1 t.2.2.2.2.2.1)) (fun u => (s0, s1, s2, s3, s4, u, s.2.2.2.2.2.2)) fun _ s5 =>
                TRes.step (tracked ⟨"tuple.rs", 139⟩ (E6.start s.2.2.2.2.2.2.1 t.2.2.2.2.2.2.1)) (fun u => (s0, s1, s2, s3, s4, s5, u, s.2.2.2.2.2.2.2)) fun _ s6 =>
                  TRes.step (tracked ⟨"tuple.rs", 139⟩ (E7.start s.2.2.2.2.2.2.2 t.2.2.2.2.2.2.2)) (fun u => (s0, s1, s2, s3, s4, s5, s6, u)) fun _ s7 =>
                    (.ok (), (s0, s1, s2, s3, s4, s5, s6, s7))
  requiring s := (((((((((ByteCount.finite 0).addForEncoding (E0.requiring s.1)).addForEncoding (E1.requiring s.2.1)).addForEncoding (E2.requiring s.2.2.1)).addForEncoding (E3.requiring s.2.2.2.1)).addForEncoding (E4.requiring s.2.2.2.2.1)).addForEncoding (E5.requiring s.2.2.2.2.2.1)).addForEncoding (E6.requiring s.2.2.2.2.2.2.1)).addForEncoding (E7.requiring s.2.2.2.2.2.2.2))
  isIdle s := E0.isIdle s.1 && E1.isIdle s.2.1 && E2.isIdle s.2.2.1 && E3.isIdle s.2.2.2.1 && E4.isIdle s.2.2.2.2.1 && E5.isIdle s.2.2.2.2.2.1 && E6.isIdle s.2.2.2.2.2.2.1 && E7.isIdle s.2.2.2.2.2.2.2

end Bytecodec
