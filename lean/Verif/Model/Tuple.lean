import Verif.Model.Core
/-!
# Tuple codecs

Models `src/tuple.rs`: the macro expansions for arities 2 to 8, one definition per arity.
(Generated text; each definition is the literal expansion of the macro body.)
-/
namespace Bytecodec

/-- `src/tuple.rs` 31-60 at arity 2 (line 61): `impl Decode for TupleDecoder`. -/
def tupleDecoder2 {σ0 α0 σ1 α1 : Type}
    (D0 : Decoder σ0 α0) (D1 : Decoder σ1 α1) :
    Decoder (σ0 × σ1) (α0 × α1) where
  decode s buf e :=
    match tryDecode D0 s.1 0 buf e with
    | .ret r s0 => (r, (s0, s.2))
    | .next o0 s0 =>
      match tryDecode D1 s.2 o0 buf e with
      | .ret r s1 => (r, (s0, s1))
      | .next o1 s1 =>
        (.ok o1, (s0, s1))
  finish s :=
    Res.step (D0.finish s.1) (fun t => (t, s.2)) fun x0 s0 =>
      Res.step (D1.finish s.2) (fun t => (s0, t)) fun x1 s1 =>
        (.ok (x0, x1), (s0, s1))
  requiring s := ((ByteCount.finite 0).addForDecoding (D0.requiring s.1)).addForDecoding (D1.requiring s.2)
  isIdle s := D0.isIdle s.1 && D1.isIdle s.2

/-- `src/tuple.rs` 31-60 at arity 3 (line 62): `impl Decode for TupleDecoder`. -/
def tupleDecoder3 {σ0 α0 σ1 α1 σ2 α2 : Type}
    (D0 : Decoder σ0 α0) (D1 : Decoder σ1 α1) (D2 : Decoder σ2 α2) :
    Decoder (σ0 × σ1 × σ2) (α0 × α1 × α2) where
  decode s buf e :=
    match tryDecode D0 s.1 0 buf e with
    | .ret r s0 => (r, (s0, s.2))
    | .next o0 s0 =>
      match tryDecode D1 s.2.1 o0 buf e with
      | .ret r s1 => (r, (s0, s1, s.2.2))
      | .next o1 s1 =>
        match tryDecode D2 s.2.2 o1 buf e with
        | .ret r s2 => (r, (s0, s1, s2))
        | .next o2 s2 =>
          (.ok o2, (s0, s1, s2))
  finish s :=
    Res.step (D0.finish s.1) (fun t => (t, s.2)) fun x0 s0 =>
      Res.step (D1.finish s.2.1) (fun t => (s0, t, s.2.2)) fun x1 s1 =>
        Res.step (D2.finish s.2.2) (fun t => (s0, s1, t)) fun x2 s2 =>
          (.ok (x0, x1, x2), (s0, s1, s2))
  requiring s := (((ByteCount.finite 0).addForDecoding (D0.requiring s.1)).addForDecoding (D1.requiring s.2.1)).addForDecoding (D2.requiring s.2.2)
  isIdle s := D0.isIdle s.1 && D1.isIdle s.2.1 && D2.isIdle s.2.2

/-- `src/tuple.rs` 31-60 at arity 4 (line 63): `impl Decode for TupleDecoder`. -/
def tupleDecoder4 {σ0 α0 σ1 α1 σ2 α2 σ3 α3 : Type}
    (D0 : Decoder σ0 α0) (D1 : Decoder σ1 α1) (D2 : Decoder σ2 α2) (D3 : Decoder σ3 α3) :
    Decoder (σ0 × σ1 × σ2 × σ3) (α0 × α1 × α2 × α3) where
  decode s buf e :=
    match tryDecode D0 s.1 0 buf e with
    | .ret r s0 => (r, (s0, s.2))
    | .next o0 s0 =>
      match tryDecode D1 s.2.1 o0 buf e with
      | .ret r s1 => (r, (s0, s1, s.2.2))
      | .next o1 s1 =>
        match tryDecode D2 s.2.2.1 o1 buf e with
        | .ret r s2 => (r, (s0, s1, s2, s.2.2.2))
        | .next o2 s2 =>
          match tryDecode D3 s.2.2.2 o2 buf e with
          | .ret r s3 => (r, (s0, s1, s2, s3))
          | .next o3 s3 =>
            (.ok o3, (s0, s1, s2, s3))
  finish s :=
    Res.step (D0.finish s.1) (fun t => (t, s.2)) fun x0 s0 =>
      Res.step (D1.finish s.2.1) (fun t => (s0, t, s.2.2)) fun x1 s1 =>
        Res.step (D2.finish s.2.2.1) (fun t => (s0, s1, t, s.2.2.2)) fun x2 s2 =>
          Res.step (D3.finish s.2.2.2) (fun t => (s0, s1, s2, t)) fun x3 s3 =>
            (.ok (x0, x1, x2, x3), (s0, s1, s2, s3))
  requiring s := ((((ByteCount.finite 0).addForDecoding (D0.requiring s.1)).addForDecoding (D1.requiring s.2.1)).addForDecoding (D2.requiring s.2.2.1)).addForDecoding (D3.requiring s.2.2.2)
  isIdle s := D0.isIdle s.1 && D1.isIdle s.2.1 && D2.isIdle s.2.2.1 && D3.isIdle s.2.2.2

/-- `src/tuple.rs` 31-60 at arity 5 (line 64): `impl Decode for TupleDecoder`. -/
def tupleDecoder5 {σ0 α0 σ1 α1 σ2 α2 σ3 α3 σ4 α4 : Type}
    (D0 : Decoder σ0 α0) (D1 : Decoder σ1 α1) (D2 : Decoder σ2 α2) (D3 : Decoder σ3 α3) (D4 : Decoder σ4 α4) :
    Decoder (σ0 × σ1 × σ2 × σ3 × σ4) (α0 × α1 × α2 × α3 × α4) where
  decode s buf e :=
    match tryDecode D0 s.1 0 buf e with
    | .ret r s0 => (r, (s0, s.2))
    | .next o0 s0 =>
      match tryDecode D1 s.2.1 o0 buf e with
      | .ret r s1 => (r, (s0, s1, s.2.2))
      | .next o1 s1 =>
        match tryDecode D2 s.2.2.1 o1 buf e with
        | .ret r s2 => (r, (s0, s1, s2, s.2.2.2))
        | .next o2 s2 =>
          match tryDecode D3 s.2.2.2.1 o2 buf e with
          | .ret r s3 => (r, (s0, s1, s2, s3, s.2.2.2.2))
          | .next o3 s3 =>
            match tryDecode D4 s.2.2.2.2 o3 buf e with
            | .ret r s4 => (r, (s0, s1, s2, s3, s4))
            | .next o4 s4 =>
              (.ok o4, (s0, s1, s2, s3, s4))
  finish s :=
    Res.step (D0.finish s.1) (fun t => (t, s.2)) fun x0 s0 =>
      Res.step (D1.finish s.2.1) (fun t => (s0, t, s.2.2)) fun x1 s1 =>
        Res.step (D2.finish s.2.2.1) (fun t => (s0, s1, t, s.2.2.2)) fun x2 s2 =>
          Res.step (D3.finish s.2.2.2.1) (fun t => (s0, s1, s2, t, s.2.2.2.2)) fun x3 s3 =>
            Res.step (D4.finish s.2.2.2.2) (fun t => (s0, s1, s2, s3, t)) fun x4 s4 =>
              (.ok (x0, x1, x2, x3, x4), (s0, s1, s2, s3, s4))
  requiring s := (((((ByteCount.finite 0).addForDecoding (D0.requiring s.1)).addForDecoding (D1.requiring s.2.1)).addForDecoding (D2.requiring s.2.2.1)).addForDecoding (D3.requiring s.2.2.2.1)).addForDecoding (D4.requiring s.2.2.2.2)
  isIdle s := D0.isIdle s.1 && D1.isIdle s.2.1 && D2.isIdle s.2.2.1 && D3.isIdle s.2.2.2.1 && D4.isIdle s.2.2.2.2

/-- `src/tuple.rs` 31-60 at arity 6 (line 65): `impl Decode for TupleDecoder`. -/
def tupleDecoder6 {σ0 α0 σ1 α1 σ2 α2 σ3 α3 σ4 α4 σ5 α5 : Type}
    (D0 : Decoder σ0 α0) (D1 : Decoder σ1 α1) (D2 : Decoder σ2 α2) (D3 : Decoder σ3 α3) (D4 : Decoder σ4 α4) (D5 : Decoder σ5 α5) :
    Decoder (σ0 × σ1 × σ2 × σ3 × σ4 × σ5) (α0 × α1 × α2 × α3 × α4 × α5) where
  decode s buf e :=
    match tryDecode D0 s.1 0 buf e with
    | .ret r s0 => (r, (s0, s.2))
    | .next o0 s0 =>
      match tryDecode D1 s.2.1 o0 buf e with
      | .ret r s1 => (r, (s0, s1, s.2.2))
      | .next o1 s1 =>
        match tryDecode D2 s.2.2.1 o1 buf e with
        | .ret r s2 => (r, (s0, s1, s2, s.2.2.2))
        | .next o2 s2 =>
          match tryDecode D3 s.2.2.2.1 o2 buf e with
          | .ret r s3 => (r, (s0, s1, s2, s3, s.2.2.2.2))
          | .next o3 s3 =>
            match tryDecode D4 s.2.2.2.2.1 o3 buf e with
            | .ret r s4 => (r, (s0, s1, s2, s3, s4, s.2.2.2.2.2))
            | .next o4 s4 =>
              match tryDecode D5 s.2.2.2.2.2 o4 buf e with
              | .ret r s5 => (r, (s0, s1, s2, s3, s4, s5))
              | .next o5 s5 =>
                (.ok o5, (s0, s1, s2, s3, s4, s5))
  finish s :=
    Res.step (D0.finish s.1) (fun t => (t, s.2)) fun x0 s0 =>
      Res.step (D1.finish s.2.1) (fun t => (s0, t, s.2.2)) fun x1 s1 =>
        Res.step (D2.finish s.2.2.1) (fun t => (s0, s1, t, s.2.2.2)) fun x2 s2 =>
          Res.step (D3.finish s.2.2.2.1) (fun t => (s0, s1, s2, t, s.2.2.2.2)) fun x3 s3 =>
            Res.step (D4.finish s.2.2.2.2.1) (fun t => (s0, s1, s2, s3, t, s.2.2.2.2.2)) fun x4 s4 =>
              Res.step (D5.finish s.2.2.2.2.2) (fun t => (s0, s1, s2, s3, s4, t)) fun x5 s5 =>
                (.ok (x0, x1, x2, x3, x4, x5), (s0, s1, s2, s3, s4, s5))
  requiring s := ((((((ByteCount.finite 0).addForDecoding (D0.requiring s.1)).addForDecoding (D1.requiring s.2.1)).addForDecoding (D2.requiring s.2.2.1)).addForDecoding (D3.requiring s.2.2.2.1)).addForDecoding (D4.requiring s.2.2.2.2.1)).addForDecoding (D5.requiring s.2.2.2.2.2)
  isIdle s := D0.isIdle s.1 && D1.isIdle s.2.1 && D2.isIdle s.2.2.1 && D3.isIdle s.2.2.2.1 && D4.isIdle s.2.2.2.2.1 && D5.isIdle s.2.2.2.2.2

/-- `src/tuple.rs` 31-60 at arity 7 (line 66): `impl Decode for TupleDecoder`. -/
def tupleDecoder7 {σ0 α0 σ1 α1 σ2 α2 σ3 α3 σ4 α4 σ5 α5 σ6 α6 : Type}
    (D0 : Decoder σ0 α0) (D1 : Decoder σ1 α1) (D2 : Decoder σ2 α2) (D3 : Decoder σ3 α3) (D4 : Decoder σ4 α4) (D5 : Decoder σ5 α5) (D6 : Decoder σ6 α6) :
    Decoder (σ0 × σ1 × σ2 × σ3 × σ4 × σ5 × σ6) (α0 × α1 × α2 × α3 × α4 × α5 × α6) where
  decode s buf e :=
    match tryDecode D0 s.1 0 buf e with
    | .ret r s0 => (r, (s0, s.2))
    | .next o0 s0 =>
      match tryDecode D1 s.2.1 o0 buf e with
      | .ret r s1 => (r, (s0, s1, s.2.2))
      | .next o1 s1 =>
        match tryDecode D2 s.2.2.1 o1 buf e with
        | .ret r s2 => (r, (s0, s1, s2, s.2.2.2))
        | .next o2 s2 =>
          match tryDecode D3 s.2.2.2.1 o2 buf e with
          | .ret r s3 => (r, (s0, s1, s2, s3, s.2.2.2.2))
          | .next o3 s3 =>
            match tryDecode D4 s.2.2.2.2.1 o3 buf e with
            | .ret r s4 => (r, (s0, s1, s2, s3, s4, s.2.2.2.2.2))
            | .next o4 s4 =>
              match tryDecode D5 s.2.2.2.2.2.1 o4 buf e with
              | .ret r s5 => (r, (s0, s1, s2, s3, s4, s5, s.2.2.2.2.2.2))
              | .next o5 s5 =>
                match tryDecode D6 s.2.2.2.2.2.2 o5 buf e with
                | .ret r s6 => (r, (s0, s1, s2, s3, s4, s5, s6))
                | .next o6 s6 =>
                  (.ok o6, (s0, s1, s2, s3, s4, s5, s6))
  finish s :=
    Res.step (D0.finish s.1) (fun t => (t, s.2)) fun x0 s0 =>
      Res.step (D1.finish s.2.1) (fun t => (s0, t, s.2.2)) fun x1 s1 =>
        Res.step (D2.finish s.2.2.1) (fun t => (s0, s1, t, s.2.2.2)) fun x2 s2 =>
          Res.step (D3.finish s.2.2.2.1) (fun t => (s0, s1, s2, t, s.2.2.2.2)) fun x3 s3 =>
            Res.step (D4.finish s.2.2.2.2.1) (fun t => (s0, s1, s2, s3, t, s.2.2.2.2.2)) fun x4 s4 =>
              Res.step (D5.finish s.2.2.2.2.2.1) (fun t => (s0, s1, s2, s3, s4, t, s.2.2.2.2.2.2)) fun x5 s5 =>
                Res.step (D6.finish s.2.2.2.2.2.2) (fun t => (s0, s1, s2, s3, s4, s5, t)) fun x6 s6 =>
                  (.ok (x0, x1, x2, x3, x4, x5, x6), (s0, s1, s2, s3, s4, s5, s6))
  requiring s := (((((((ByteCount.finite 0).addForDecoding (D0.requiring s.1)).addForDecoding (D1.requiring s.2.1)).addForDecoding (D2.requiring s.2.2.1)).addForDecoding (D3.requiring s.2.2.2.1)).addForDecoding (D4.requiring s.2.2.2.2.1)).addForDecoding (D5.requiring s.2.2.2.2.2.1)).addForDecoding (D6.requiring s.2.2.2.2.2.2)
  isIdle s := D0.isIdle s.1 && D1.isIdle s.2.1 && D2.isIdle s.2.2.1 && D3.isIdle s.2.2.2.1 && D4.isIdle s.2.2.2.2.1 && D5.isIdle s.2.2.2.2.2.1 && D6.isIdle s.2.2.2.2.2.2

/-- `src/tuple.rs` 31-60 at arity 8 (line 67): `impl Decode for TupleDecoder`. -/
def tupleDecoder8 {σ0 α0 σ1 α1 σ2 α2 σ3 α3 σ4 α4 σ5 α5 σ6 α6 σ7 α7 : Type}
    (D0 : Decoder σ0 α0) (D1 : Decoder σ1 α1) (D2 : Decoder σ2 α2) (D3 : Decoder σ3 α3) (D4 : Decoder σ4 α4) (D5 : Decoder σ5 α5) (D6 : Decoder σ6 α6) (D7 : Decoder σ7 α7) :
    Decoder (σ0 × σ1 × σ2 × σ3 × σ4 × σ5 × σ6 × σ7) (α0 × α1 × α2 × α3 × α4 × α5 × α6 × α7) where
  decode s buf e :=
    match tryDecode D0 s.1 0 buf e with
    | .ret r s0 => (r, (s0, s.2))
    | .next o0 s0 =>
      match tryDecode D1 s.2.1 o0 buf e with
      | .ret r s1 => (r, (s0, s1, s.2.2))
      | .next o1 s1 =>
        match tryDecode D2 s.2.2.1 o1 buf e with
        | .ret r s2 => (r, (s0, s1, s2, s.2.2.2))
        | .next o2 s2 =>
          match tryDecode D3 s.2.2.2.1 o2 buf e with
          | .ret r s3 => (r, (s0, s1, s2, s3, s.2.2.2.2))
          | .next o3 s3 =>
            match tryDecode D4 s.2.2.2.2.1 o3 buf e with
            | .ret r s4 => (r, (s0, s1, s2, s3, s4, s.2.2.2.2.2))
            | .next o4 s4 =>
              match tryDecode D5 s.2.2.2.2.2.1 o4 buf e with
              | .ret r s5 => (r, (s0, s1, s2, s3, s4, s5, s.2.2.2.2.2.2))
              | .next o5 s5 =>
                match tryDecode D6 s.2.2.2.2.2.2.1 o5 buf e with
                | .ret r s6 => (r, (s0, s1, s2, s3, s4, s5, s6, s.2.2.2.2.2.2.2))
                | .next o6 s6 =>
                  match tryDecode D7 s.2.2.2.2.2.2.2 o6 buf e with
                  | .ret r s7 => (r, (s0, s1, s2, s3, s4, s5, s6, s7))
                  | .next o7 s7 =>
                    (.ok o7, (s0, s1, s2, s3, s4, s5, s6, s7))
  finish s :=
    Res.step (D0.finish s.1) (fun t => (t, s.2)) fun x0 s0 =>
      Res.step (D1.finish s.2.1) (fun t => (s0, t, s.2.2)) fun x1 s1 =>
        Res.step (D2.finish s.2.2.1) (fun t => (s0, s1, t, s.2.2.2)) fun x2 s2 =>
          Res.step (D3.finish s.2.2.2.1) (fun t => (s0, s1, s2, t, s.2.2.2.2)) fun x3 s3 =>
            Res.step (D4.finish s.2.2.2.2.1) (fun t => (s0, s1, s2, s3, t, s.2.2.2.2.2)) fun x4 s4 =>
              Res.step (D5.finish s.2.2.2.2.2.1) (fun t => (s0, s1, s2, s3, s4, t, s.2.2.2.2.2.2)) fun x5 s5 =>
                Res.step (D6.finish s.2.2.2.2.2.2.1) (fun t => (s0, s1, s2, s3, s4, s5, t, s.2.2.2.2.2.2.2)) fun x6 s6 =>
                  Res.step (D7.finish s.2.2.2.2.2.2.2) (fun t => (s0, s1, s2, s3, s4, s5, s6, t)) fun x7 s7 =>
                    (.ok (x0, x1, x2, x3, x4, x5, x6, x7), (s0, s1, s2, s3, s4, s5, s6, s7))
  requiring s := ((((((((ByteCount.finite 0).addForDecoding (D0.requiring s.1)).addForDecoding (D1.requiring s.2.1)).addForDecoding (D2.requiring s.2.2.1)).addForDecoding (D3.requiring s.2.2.2.1)).addForDecoding (D4.requiring s.2.2.2.2.1)).addForDecoding (D5.requiring s.2.2.2.2.2.1)).addForDecoding (D6.requiring s.2.2.2.2.2.2.1)).addForDecoding (D7.requiring s.2.2.2.2.2.2.2)
  isIdle s := D0.isIdle s.1 && D1.isIdle s.2.1 && D2.isIdle s.2.2.1 && D3.isIdle s.2.2.2.1 && D4.isIdle s.2.2.2.2.1 && D5.isIdle s.2.2.2.2.2.1 && D6.isIdle s.2.2.2.2.2.2.1 && D7.isIdle s.2.2.2.2.2.2.2

/-- `src/tuple.rs` 96-121 at arity 2 (line 133): `impl Encode for TupleEncoder`. -/
def tupleEncoder2 {σ0 α0 σ1 α1 : Type}
    (E0 : Encoder σ0 α0) (E1 : Encoder σ1 α1) :
    Encoder (σ0 × σ1) (α0 × α1) where
  encode s cap e :=
    match tryEncode E0 s.1 [] cap e with
    | .ret r s0 => (r, (s0, s.2))
    | .next o0 s0 =>
      match tryEncode E1 s.2 o0 cap e with
      | .ret r s1 => (r, (s0, s1))
      | .next o1 s1 =>
        (.ok o1, (s0, s1))
  start s t :=
    Res.step (E0.start s.1 t.1) (fun u => (u, s.2)) fun _ s0 =>
      Res.step (E1.start s.2 t.2) (fun u => (s0, u)) fun _ s1 =>
        (.ok (), (s0, s1))
  requiring s := ((ByteCount.finite 0).addForEncoding (E0.requiring s.1)).addForEncoding (E1.requiring s.2)
  isIdle s := E0.isIdle s.1 && E1.isIdle s.2

/-- `src/tuple.rs` 96-121 at arity 3 (line 134): `impl Encode for TupleEncoder`. -/
def tupleEncoder3 {σ0 α0 σ1 α1 σ2 α2 : Type}
    (E0 : Encoder σ0 α0) (E1 : Encoder σ1 α1) (E2 : Encoder σ2 α2) :
    Encoder (σ0 × σ1 × σ2) (α0 × α1 × α2) where
  encode s cap e :=
    match tryEncode E0 s.1 [] cap e with
    | .ret r s0 => (r, (s0, s.2))
    | .next o0 s0 =>
      match tryEncode E1 s.2.1 o0 cap e with
      | .ret r s1 => (r, (s0, s1, s.2.2))
      | .next o1 s1 =>
        match tryEncode E2 s.2.2 o1 cap e with
        | .ret r s2 => (r, (s0, s1, s2))
        | .next o2 s2 =>
          (.ok o2, (s0, s1, s2))
  start s t :=
    Res.step (E0.start s.1 t.1) (fun u => (u, s.2)) fun _ s0 =>
      Res.step (E1.start s.2.1 t.2.1) (fun u => (s0, u, s.2.2)) fun _ s1 =>
        Res.step (E2.start s.2.2 t.2.2) (fun u => (s0, s1, u)) fun _ s2 =>
          (.ok (), (s0, s1, s2))
  requiring s := (((ByteCount.finite 0).addForEncoding (E0.requiring s.1)).addForEncoding (E1.requiring s.2.1)).addForEncoding (E2.requiring s.2.2)
  isIdle s := E0.isIdle s.1 && E1.isIdle s.2.1 && E2.isIdle s.2.2

/-- `src/tuple.rs` 96-121 at arity 4 (line 135): `impl Encode for TupleEncoder`. -/
def tupleEncoder4 {σ0 α0 σ1 α1 σ2 α2 σ3 α3 : Type}
    (E0 : Encoder σ0 α0) (E1 : Encoder σ1 α1) (E2 : Encoder σ2 α2) (E3 : Encoder σ3 α3) :
    Encoder (σ0 × σ1 × σ2 × σ3) (α0 × α1 × α2 × α3) where
  encode s cap e :=
    match tryEncode E0 s.1 [] cap e with
    | .ret r s0 => (r, (s0, s.2))
    | .next o0 s0 =>
      match tryEncode E1 s.2.1 o0 cap e with
      | .ret r s1 => (r, (s0, s1, s.2.2))
      | .next o1 s1 =>
        match tryEncode E2 s.2.2.1 o1 cap e with
        | .ret r s2 => (r, (s0, s1, s2, s.2.2.2))
        | .next o2 s2 =>
          match tryEncode E3 s.2.2.2 o2 cap e with
          | .ret r s3 => (r, (s0, s1, s2, s3))
          | .next o3 s3 =>
            (.ok o3, (s0, s1, s2, s3))
  start s t :=
    Res.step (E0.start s.1 t.1) (fun u => (u, s.2)) fun _ s0 =>
      Res.step (E1.start s.2.1 t.2.1) (fun u => (s0, u, s.2.2)) fun _ s1 =>
        Res.step (E2.start s.2.2.1 t.2.2.1) (fun u => (s0, s1, u, s.2.2.2)) fun _ s2 =>
          Res.step (E3.start s.2.2.2 t.2.2.2) (fun u => (s0, s1, s2, u)) fun _ s3 =>
            (.ok (), (s0, s1, s2, s3))
  requiring s := ((((ByteCount.finite 0).addForEncoding (E0.requiring s.1)).addForEncoding (E1.requiring s.2.1)).addForEncoding (E2.requiring s.2.2.1)).addForEncoding (E3.requiring s.2.2.2)
  isIdle s := E0.isIdle s.1 && E1.isIdle s.2.1 && E2.isIdle s.2.2.1 && E3.isIdle s.2.2.2

/-- `src/tuple.rs` 96-121 at arity 5 (line 136): `impl Encode for TupleEncoder`. -/
def tupleEncoder5 {σ0 α0 σ1 α1 σ2 α2 σ3 α3 σ4 α4 : Type}
    (E0 : Encoder σ0 α0) (E1 : Encoder σ1 α1) (E2 : Encoder σ2 α2) (E3 : Encoder σ3 α3) (E4 : Encoder σ4 α4) :
    Encoder (σ0 × σ1 × σ2 × σ3 × σ4) (α0 × α1 × α2 × α3 × α4) where
  encode s cap e :=
    match tryEncode E0 s.1 [] cap e with
    | .ret r s0 => (r, (s0, s.2))
    | .next o0 s0 =>
      match tryEncode E1 s.2.1 o0 cap e with
      | .ret r s1 => (r, (s0, s1, s.2.2))
      | .next o1 s1 =>
        match tryEncode E2 s.2.2.1 o1 cap e with
        | .ret r s2 => (r, (s0, s1, s2, s.2.2.2))
        | .next o2 s2 =>
          match tryEncode E3 s.2.2.2.1 o2 cap e with
          | .ret r s3 => (r, (s0, s1, s2, s3, s.2.2.2.2))
          | .next o3 s3 =>
            match tryEncode E4 s.2.2.2.2 o3 cap e with
            | .ret r s4 => (r, (s0, s1, s2, s3, s4))
            | .next o4 s4 =>
              (.ok o4, (s0, s1, s2, s3, s4))
  start s t :=
    Res.step (E0.start s.1 t.1) (fun u => (u, s.2)) fun _ s0 =>
      Res.step (E1.start s.2.1 t.2.1) (fun u => (s0, u, s.2.2)) fun _ s1 =>
        Res.step (E2.start s.2.2.1 t.2.2.1) (fun u => (s0, s1, u, s.2.2.2)) fun _ s2 =>
          Res.step (E3.start s.2.2.2.1 t.2.2.2.1) (fun u => (s0, s1, s2, u, s.2.2.2.2)) fun _ s3 =>
            Res.step (E4.start s.2.2.2.2 t.2.2.2.2) (fun u => (s0, s1, s2, s3, u)) fun _ s4 =>
              (.ok (), (s0, s1, s2, s3, s4))
  requiring s := (((((ByteCount.finite 0).addForEncoding (E0.requiring s.1)).addForEncoding (E1.requiring s.2.1)).addForEncoding (E2.requiring s.2.2.1)).addForEncoding (E3.requiring s.2.2.2.1)).addForEncoding (E4.requiring s.2.2.2.2)
  isIdle s := E0.isIdle s.1 && E1.isIdle s.2.1 && E2.isIdle s.2.2.1 && E3.isIdle s.2.2.2.1 && E4.isIdle s.2.2.2.2

/-- `src/tuple.rs` 96-121 at arity 6 (line 137): `impl Encode for TupleEncoder`. -/
def tupleEncoder6 {σ0 α0 σ1 α1 σ2 α2 σ3 α3 σ4 α4 σ5 α5 : Type}
    (E0 : Encoder σ0 α0) (E1 : Encoder σ1 α1) (E2 : Encoder σ2 α2) (E3 : Encoder σ3 α3) (E4 : Encoder σ4 α4) (E5 : Encoder σ5 α5) :
    Encoder (σ0 × σ1 × σ2 × σ3 × σ4 × σ5) (α0 × α1 × α2 × α3 × α4 × α5) where
  encode s cap e :=
    match tryEncode E0 s.1 [] cap e with
    | .ret r s0 => (r, (s0, s.2))
    | .next o0 s0 =>
      match tryEncode E1 s.2.1 o0 cap e with
      | .ret r s1 => (r, (s0, s1, s.2.2))
      | .next o1 s1 =>
        match tryEncode E2 s.2.2.1 o1 cap e with
        | .ret r s2 => (r, (s0, s1, s2, s.2.2.2))
        | .next o2 s2 =>
          match tryEncode E3 s.2.2.2.1 o2 cap e with
          | .ret r s3 => (r, (s0, s1, s2, s3, s.2.2.2.2))
          | .next o3 s3 =>
            match tryEncode E4 s.2.2.2.2.1 o3 cap e with
            | .ret r s4 => (r, (s0, s1, s2, s3, s4, s.2.2.2.2.2))
            | .next o4 s4 =>
              match tryEncode E5 s.2.2.2.2.2 o4 cap e with
              | .ret r s5 => (r, (s0, s1, s2, s3, s4, s5))
              | .next o5 s5 =>
                (.ok o5, (s0, s1, s2, s3, s4, s5))
  start s t :=
    Res.step (E0.start s.1 t.1) (fun u => (u, s.2)) fun _ s0 =>
      Res.step (E1.start s.2.1 t.2.1) (fun u => (s0, u, s.2.2)) fun _ s1 =>
        Res.step (E2.start s.2.2.1 t.2.2.1) (fun u => (s0, s1, u, s.2.2.2)) fun _ s2 =>
          Res.step (E3.start s.2.2.2.1 t.2.2.2.1) (fun u => (s0, s1, s2, u, s.2.2.2.2)) fun _ s3 =>
            Res.step (E4.start s.2.2.2.2.1 t.2.2.2.2.1) (fun u => (s0, s1, s2, s3, u, s.2.2.2.2.2)) fun _ s4 =>
              Res.step (E5.start s.2.2.2.2.2 t.2.2.2.2.2) (fun u => (s0, s1, s2, s3, s4, u)) fun _ s5 =>
                (.ok (), (s0, s1, s2, s3, s4, s5))
  requiring s := ((((((ByteCount.finite 0).addForEncoding (E0.requiring s.1)).addForEncoding (E1.requiring s.2.1)).addForEncoding (E2.requiring s.2.2.1)).addForEncoding (E3.requiring s.2.2.2.1)).addForEncoding (E4.requiring s.2.2.2.2.1)).addForEncoding (E5.requiring s.2.2.2.2.2)
  isIdle s := E0.isIdle s.1 && E1.isIdle s.2.1 && E2.isIdle s.2.2.1 && E3.isIdle s.2.2.2.1 && E4.isIdle s.2.2.2.2.1 && E5.isIdle s.2.2.2.2.2

/-- `src/tuple.rs` 96-121 at arity 7 (line 138): `impl Encode for TupleEncoder`. -/
def tupleEncoder7 {σ0 α0 σ1 α1 σ2 α2 σ3 α3 σ4 α4 σ5 α5 σ6 α6 : Type}
    (E0 : Encoder σ0 α0) (E1 : Encoder σ1 α1) (E2 : Encoder σ2 α2) (E3 : Encoder σ3 α3) (E4 : Encoder σ4 α4) (E5 : Encoder σ5 α5) (E6 : Encoder σ6 α6) :
    Encoder (σ0 × σ1 × σ2 × σ3 × σ4 × σ5 × σ6) (α0 × α1 × α2 × α3 × α4 × α5 × α6) where
  encode s cap e :=
    match tryEncode E0 s.1 [] cap e with
    | .ret r s0 => (r, (s0, s.2))
    | .next o0 s0 =>
      match tryEncode E1 s.2.1 o0 cap e with
      | .ret r s1 => (r, (s0, s1, s.2.2))
      | .next o1 s1 =>
        match tryEncode E2 s.2.2.1 o1 cap e with
        | .ret r s2 => (r, (s0, s1, s2, s.2.2.2))
        | .next o2 s2 =>
          match tryEncode E3 s.2.2.2.1 o2 cap e with
          | .ret r s3 => (r, (s0, s1, s2, s3, s.2.2.2.2))
          | .next o3 s3 =>
            match tryEncode E4 s.2.2.2.2.1 o3 cap e with
            | .ret r s4 => (r, (s0, s1, s2, s3, s4, s.2.2.2.2.2))
            | .next o4 s4 =>
              match tryEncode E5 s.2.2.2.2.2.1 o4 cap e with
              | .ret r s5 => (r, (s0, s1, s2, s3, s4, s5, s.2.2.2.2.2.2))
              | .next o5 s5 =>
                match tryEncode E6 s.2.2.2.2.2.2 o5 cap e with
                | .ret r s6 => (r, (s0, s1, s2, s3, s4, s5, s6))
                | .next o6 s6 =>
                  (.ok o6, (s0, s1, s2, s3, s4, s5, s6))
  start s t :=
    Res.step (E0.start s.1 t.1) (fun u => (u, s.2)) fun _ s0 =>
      Res.step (E1.start s.2.1 t.2.1) (fun u => (s0, u, s.2.2)) fun _ s1 =>
        Res.step (E2.start s.2.2.1 t.2.2.1) (fun u => (s0, s1, u, s.2.2.2)) fun _ s2 =>
          Res.step (E3.start s.2.2.2.1 t.2.2.2.1) (fun u => (s0, s1, s2, u, s.2.2.2.2)) fun _ s3 =>
            Res.step (E4.start s.2.2.2.2.1 t.2.2.2.2.1) (fun u => (s0, s1, s2, s3, u, s.2.2.2.2.2)) fun _ s4 =>
              Res.step (E5.start s.2.2.2.2.2.1 t.2.2.2.2.2.1) (fun u => (s0, s1, s2, s3, s4, u, s.2.2.2.2.2.2)) fun _ s5 =>
                Res.step (E6.start s.2.2.2.2.2.2 t.2.2.2.2.2.2) (fun u => (s0, s1, s2, s3, s4, s5, u)) fun _ s6 =>
                  (.ok (), (s0, s1, s2, s3, s4, s5, s6))
  requiring s := (((((((ByteCount.finite 0).addForEncoding (E0.requiring s.1)).addForEncoding (E1.requiring s.2.1)).addForEncoding (E2.requiring s.2.2.1)).addForEncoding (E3.requiring s.2.2.2.1)).addForEncoding (E4.requiring s.2.2.2.2.1)).addForEncoding (E5.requiring s.2.2.2.2.2.1)).addForEncoding (E6.requiring s.2.2.2.2.2.2)
  isIdle s := E0.isIdle s.1 && E1.isIdle s.2.1 && E2.isIdle s.2.2.1 && E3.isIdle s.2.2.2.1 && E4.isIdle s.2.2.2.2.1 && E5.isIdle s.2.2.2.2.2.1 && E6.isIdle s.2.2.2.2.2.2

/-- `src/tuple.rs` 96-121 at arity 8 (line 139): `impl Encode for TupleEncoder`. -/
def tupleEncoder8 {σ0 α0 σ1 α1 σ2 α2 σ3 α3 σ4 α4 σ5 α5 σ6 α6 σ7 α7 : Type}
    (E0 : Encoder σ0 α0) (E1 : Encoder σ1 α1) (E2 : Encoder σ2 α2) (E3 : Encoder σ3 α3) (E4 : Encoder σ4 α4) (E5 : Encoder σ5 α5) (E6 : Encoder σ6 α6) (E7 : Encoder σ7 α7) :
    Encoder (σ0 × σ1 × σ2 × σ3 × σ4 × σ5 × σ6 × σ7) (α0 × α1 × α2 × α3 × α4 × α5 × α6 × α7) where
  encode s cap e :=
    match tryEncode E0 s.1 [] cap e with
    | .ret r s0 => (r, (s0, s.2))
    | .next o0 s0 =>
      match tryEncode E1 s.2.1 o0 cap e with
      | .ret r s1 => (r, (s0, s1, s.2.2))
      | .next o1 s1 =>
        match tryEncode E2 s.2.2.1 o1 cap e with
        | .ret r s2 => (r, (s0, s1, s2, s.2.2.2))
        | .next o2 s2 =>
          match tryEncode E3 s.2.2.2.1 o2 cap e with
          | .ret r s3 => (r, (s0, s1, s2, s3, s.2.2.2.2))
          | .next o3 s3 =>
            match tryEncode E4 s.2.2.2.2.1 o3 cap e with
            | .ret r s4 => (r, (s0, s1, s2, s3, s4, s.2.2.2.2.2))
            | .next o4 s4 =>
              match tryEncode E5 s.2.2.2.2.2.1 o4 cap e with
              | .ret r s5 => (r, (s0, s1, s2, s3, s4, s5, s.2.2.2.2.2.2))
              | .next o5 s5 =>
                match tryEncode E6 s.2.2.2.2.2.2.1 o5 cap e with
                | .ret r s6 => (r, (s0, s1, s2, s3, s4, s5, s6, s.2.2.2.2.2.2.2))
                | .next o6 s6 =>
                  match tryEncode E7 s.2.2.2.2.2.2.2 o6 cap e with
                  | .ret r s7 => (r, (s0, s1, s2, s3, s4, s5, s6, s7))
                  | .next o7 s7 =>
                    (.ok o7, (s0, s1, s2, s3, s4, s5, s6, s7))
  start s t :=
    Res.step (E0.start s.1 t.1) (fun u => (u, s.2)) fun _ s0 =>
      Res.step (E1.start s.2.1 t.2.1) (fun u => (s0, u, s.2.2)) fun _ s1 =>
        Res.step (E2.start s.2.2.1 t.2.2.1) (fun u => (s0, s1, u, s.2.2.2)) fun _ s2 =>
          Res.step (E3.start s.2.2.2.1 t.2.2.2.1) (fun u => (s0, s1, s2, u, s.2.2.2.2)) fun _ s3 =>
            Res.step (E4.start s.2.2.2.2.1 t.2.2.2.2.1) (fun u => (s0, s1, s2, s3, u, s.2.2.2.2.2)) fun _ s4 =>
              Res.step (E5.start s.2.2.2.2.2.1 t.2.2.2.2.2.1) (fun u => (s0, s1, s2, s3, s4, u, s.2.2.2.2.2.2)) fun _ s5 =>
                Res.step (E6.start s.2.2.2.2.2.2.1 t.2.2.2.2.2.2.1) (fun u => (s0, s1, s2, s3, s4, s5, u, s.2.2.2.2.2.2.2)) fun _ s6 =>
                  Res.step (E7.start s.2.2.2.2.2.2.2 t.2.2.2.2.2.2.2) (fun u => (s0, s1, s2, s3, s4, s5, s6, u)) fun _ s7 =>
                    (.ok (), (s0, s1, s2, s3, s4, s5, s6, s7))
  requiring s := ((((((((ByteCount.finite 0).addForEncoding (E0.requiring s.1)).addForEncoding (E1.requiring s.2.1)).addForEncoding (E2.requiring s.2.2.1)).addForEncoding (E3.requiring s.2.2.2.1)).addForEncoding (E4.requiring s.2.2.2.2.1)).addForEncoding (E5.requiring s.2.2.2.2.2.1)).addForEncoding (E6.requiring s.2.2.2.2.2.2.1)).addForEncoding (E7.requiring s.2.2.2.2.2.2.2)
  isIdle s := E0.isIdle s.1 && E1.isIdle s.2.1 && E2.isIdle s.2.2.1 && E3.isIdle s.2.2.2.1 && E4.isIdle s.2.2.2.2.1 && E5.isIdle s.2.2.2.2.2.1 && E6.isIdle s.2.2.2.2.2.2.1 && E7.isIdle s.2.2.2.2.2.2.2

/-- `src/tuple.rs` 122-130 at arity 2: `impl SizedEncode for TupleEncoder` (the `u64` sum is unbounded here). -/
def sizedTupleEncoder2 {σ0 α0 σ1 α1 : Type}
    (E0 : SizedEncoder σ0 α0) (E1 : SizedEncoder σ1 α1) :
    SizedEncoder (σ0 × σ1) (α0 × α1) where
  toEncoder := tupleEncoder2 E0.toEncoder E1.toEncoder
  exact s := 0 + E0.exact s.1 + E1.exact s.2

/-- `src/tuple.rs` 122-130 at arity 3: `impl SizedEncode for TupleEncoder` (the `u64` sum is unbounded here). -/
def sizedTupleEncoder3 {σ0 α0 σ1 α1 σ2 α2 : Type}
    (E0 : SizedEncoder σ0 α0) (E1 : SizedEncoder σ1 α1) (E2 : SizedEncoder σ2 α2) :
    SizedEncoder (σ0 × σ1 × σ2) (α0 × α1 × α2) where
  toEncoder := tupleEncoder3 E0.toEncoder E1.toEncoder E2.toEncoder
  exact s := 0 + E0.exact s.1 + E1.exact s.2.1 + E2.exact s.2.2

/-- `src/tuple.rs` 122-130 at arity 4: `impl SizedEncode for TupleEncoder` (the `u64` sum is unbounded here). -/
def sizedTupleEncoder4 {σ0 α0 σ1 α1 σ2 α2 σ3 α3 : Type}
    (E0 : SizedEncoder σ0 α0) (E1 : SizedEncoder σ1 α1) (E2 : SizedEncoder σ2 α2) (E3 : SizedEncoder σ3 α3) :
    SizedEncoder (σ0 × σ1 × σ2 × σ3) (α0 × α1 × α2 × α3) where
  toEncoder := tupleEncoder4 E0.toEncoder E1.toEncoder E2.toEncoder E3.toEncoder
  exact s := 0 + E0.exact s.1 + E1.exact s.2.1 + E2.exact s.2.2.1 + E3.exact s.2.2.2

/-- `src/tuple.rs` 122-130 at arity 5: `impl SizedEncode for TupleEncoder` (the `u64` sum is unbounded here). -/
def sizedTupleEncoder5 {σ0 α0 σ1 α1 σ2 α2 σ3 α3 σ4 α4 : Type}
    (E0 : SizedEncoder σ0 α0) (E1 : SizedEncoder σ1 α1) (E2 : SizedEncoder σ2 α2) (E3 : SizedEncoder σ3 α3) (E4 : SizedEncoder σ4 α4) :
    SizedEncoder (σ0 × σ1 × σ2 × σ3 × σ4) (α0 × α1 × α2 × α3 × α4) where
  toEncoder := tupleEncoder5 E0.toEncoder E1.toEncoder E2.toEncoder E3.toEncoder E4.toEncoder
  exact s := 0 + E0.exact s.1 + E1.exact s.2.1 + E2.exact s.2.2.1 + E3.exact s.2.2.2.1 + E4.exact s.2.2.2.2

/-- `src/tuple.rs` 122-130 at arity 6: `impl SizedEncode for TupleEncoder` (the `u64` sum is unbounded here). -/
def sizedTupleEncoder6 {σ0 α0 σ1 α1 σ2 α2 σ3 α3 σ4 α4 σ5 α5 : Type}
    (E0 : SizedEncoder σ0 α0) (E1 : SizedEncoder σ1 α1) (E2 : SizedEncoder σ2 α2) (E3 : SizedEncoder σ3 α3) (E4 : SizedEncoder σ4 α4) (E5 : SizedEncoder σ5 α5) :
    SizedEncoder (σ0 × σ1 × σ2 × σ3 × σ4 × σ5) (α0 × α1 × α2 × α3 × α4 × α5) where
  toEncoder := tupleEncoder6 E0.toEncoder E1.toEncoder E2.toEncoder E3.toEncoder E4.toEncoder E5.toEncoder
  exact s := 0 + E0.exact s.1 + E1.exact s.2.1 + E2.exact s.2.2.1 + E3.exact s.2.2.2.1 + E4.exact s.2.2.2.2.1 + E5.exact s.2.2.2.2.2

/-- `src/tuple.rs` 122-130 at arity 7: `impl SizedEncode for TupleEncoder` (the `u64` sum is unbounded here). -/
def sizedTupleEncoder7 {σ0 α0 σ1 α1 σ2 α2 σ3 α3 σ4 α4 σ5 α5 σ6 α6 : Type}
    (E0 : SizedEncoder σ0 α0) (E1 : SizedEncoder σ1 α1) (E2 : SizedEncoder σ2 α2) (E3 : SizedEncoder σ3 α3) (E4 : SizedEncoder σ4 α4) (E5 : SizedEncoder σ5 α5) (E6 : SizedEncoder σ6 α6) :
    SizedEncoder (σ0 × σ1 × σ2 × σ3 × σ4 × σ5 × σ6) (α0 × α1 × α2 × α3 × α4 × α5 × α6) where
  toEncoder := tupleEncoder7 E0.toEncoder E1.toEncoder E2.toEncoder E3.toEncoder E4.toEncoder E5.toEncoder E6.toEncoder
  exact s := 0 + E0.exact s.1 + E1.exact s.2.1 + E2.exact s.2.2.1 + E3.exact s.2.2.2.1 + E4.exact s.2.2.2.2.1 + E5.exact s.2.2.2.2.2.1 + E6.exact s.2.2.2.2.2.2

/-- `src/tuple.rs` 122-130 at arity 8: `impl SizedEncode for TupleEncoder` (the `u64` sum is unbounded here). -/
def sizedTupleEncoder8 {σ0 α0 σ1 α1 σ2 α2 σ3 α3 σ4 α4 σ5 α5 σ6 α6 σ7 α7 : Type}
    (E0 : SizedEncoder σ0 α0) (E1 : SizedEncoder σ1 α1) (E2 : SizedEncoder σ2 α2) (E3 : SizedEncoder σ3 α3) (E4 : SizedEncoder σ4 α4) (E5 : SizedEncoder σ5 α5) (E6 : SizedEncoder σ6 α6) (E7 : SizedEncoder σ7 α7) :
    SizedEncoder (σ0 × σ1 × σ2 × σ3 × σ4 × σ5 × σ6 × σ7) (α0 × α1 × α2 × α3 × α4 × α5 × α6 × α7) where
  toEncoder := tupleEncoder8 E0.toEncoder E1.toEncoder E2.toEncoder E3.toEncoder E4.toEncoder E5.toEncoder E6.toEncoder E7.toEncoder
  exact s := 0 + E0.exact s.1 + E1.exact s.2.1 + E2.exact s.2.2.1 + E3.exact s.2.2.2.1 + E4.exact s.2.2.2.2.1 + E5.exact s.2.2.2.2.2.1 + E6.exact s.2.2.2.2.2.2.1 + E7.exact s.2.2.2.2.2.2.2

end Bytecodec
