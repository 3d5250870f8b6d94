import Verif.Model.InPlace
import Verif.Model.Tuple
/-!
# Tuple encoders that write into a buffer

Models the `Encode` half of `src/tuple.rs` for arities 2 to 8. (Generated text.)
-/
namespace Bytecodec

/-- `src/tuple.rs` 96-121 at arity 2 (line 133): `impl Encode for TupleEncoder`. -/
def tupleBufEncoder2 {σ0 α0 σ1 α1 : Type}
    (B0 : BufEncoder σ0 α0) (B1 : BufEncoder σ1 α1) :
    BufEncoder (σ0 × σ1) (α0 × α1) where
  encode s buf e :=
    match tryEncodeBuf B0 s.1 0 buf e with
    | .ret r (s0, b0) => (r, (s0, s.2), b0)
    | .next o0 (s0, b0) =>
      match tryEncodeBuf B1 s.2 o0 b0 e with
      | .ret r (s1, b1) => (r, (s0, s1), b1)
      | .next o1 (s1, b1) =>
        (.ok o1, (s0, s1), b1)
  start s t :=
    Res.step (B0.start s.1 t.1) (fun u => (u, s.2)) fun _ s0 =>
      Res.step (B1.start s.2 t.2) (fun u => (s0, u)) fun _ s1 =>
        (.ok (), (s0, s1))
  requiring s := ((ByteCount.finite 0).addForEncoding (B0.requiring s.1)).addForEncoding (B1.requiring s.2)
  isIdle s := B0.isIdle s.1 && B1.isIdle s.2

/-- `src/tuple.rs` 96-121 at arity 3 (line 134): `impl Encode for TupleEncoder`. -/
def tupleBufEncoder3 {σ0 α0 σ1 α1 σ2 α2 : Type}
    (B0 : BufEncoder σ0 α0) (B1 : BufEncoder σ1 α1) (B2 : BufEncoder σ2 α2) :
    BufEncoder (σ0 × σ1 × σ2) (α0 × α1 × α2) where
  encode s buf e :=
    match tryEncodeBuf B0 s.1 0 buf e with
    | .ret r (s0, b0) => (r, (s0, s.2), b0)
    | .next o0 (s0, b0) =>
      match tryEncodeBuf B1 s.2.1 o0 b0 e with
      | .ret r (s1, b1) => (r, (s0, s1, s.2.2), b1)
      | .next o1 (s1, b1) =>
        match tryEncodeBuf B2 s.2.2 o1 b1 e with
        | .ret r (s2, b2) => (r, (s0, s1, s2), b2)
        | .next o2 (s2, b2) =>
          (.ok o2, (s0, s1, s2), b2)
  start s t :=
    Res.step (B0.start s.1 t.1) (fun u => (u, s.2)) fun _ s0 =>
      Res.step (B1.start s.2.1 t.2.1) (fun u => (s0, u, s.2.2)) fun _ s1 =>
        Res.step (B2.start s.2.2 t.2.2) (fun u => (s0, s1, u)) fun _ s2 =>
          (.ok (), (s0, s1, s2))
  requiring s := (((ByteCount.finite 0).addForEncoding (B0.requiring s.1)).addForEncoding (B1.requiring s.2.1)).addForEncoding (B2.requiring s.2.2)
  isIdle s := B0.isIdle s.1 && B1.isIdle s.2.1 && B2.isIdle s.2.2

/-- `src/tuple.rs` 96-121 at arity 4 (line 135): `impl Encode for TupleEncoder`. -/
def tupleBufEncoder4 {σ0 α0 σ1 α1 σ2 α2 σ3 α3 : Type}
    (B0 : BufEncoder σ0 α0) (B1 : BufEncoder σ1 α1) (B2 : BufEncoder σ2 α2) (B3 : BufEncoder σ3 α3) :
    BufEncoder (σ0 × σ1 × σ2 × σ3) (α0 × α1 × α2 × α3) where
  encode s buf e :=
    match tryEncodeBuf B0 s.1 0 buf e with
    | .ret r (s0, b0) => (r, (s0, s.2), b0)
    | .next o0 (s0, b0) =>
      match tryEncodeBuf B1 s.2.1 o0 b0 e with
      | .ret r (s1, b1) => (r, (s0, s1, s.2.2), b1)
      | .next o1 (s1, b1) =>
        match tryEncodeBuf B2 s.2.2.1 o1 b1 e with
        | .ret r (s2, b2) => (r, (s0, s1, s2, s.2.2.2), b2)
        | .next o2 (s2, b2) =>
          match tryEncodeBuf B3 s.2.2.2 o2 b2 e with
          | .ret r (s3, b3) => (r, (s0, s1, s2, s3), b3)
          | .next o3 (s3, b3) =>
            (.ok o3, (s0, s1, s2, s3), b3)
  start s t :=
    Res.step (B0.start s.1 t.1) (fun u => (u, s.2)) fun _ s0 =>
      Res.step (B1.start s.2.1 t.2.1) (fun u => (s0, u, s.2.2)) fun _ s1 =>
        Res.step (B2.start s.2.2.1 t.2.2.1) (fun u => (s0, s1, u, s.2.2.2)) fun _ s2 =>
          Res.step (B3.start s.2.2.2 t.2.2.2) (fun u => (s0, s1, s2, u)) fun _ s3 =>
            (.ok (), (s0, s1, s2, s3))
  requiring s := ((((ByteCount.finite 0).addForEncoding (B0.requiring s.1)).addForEncoding (B1.requiring s.2.1)).addForEncoding (B2.requiring s.2.2.1)).addForEncoding (B3.requiring s.2.2.2)
  isIdle s := B0.isIdle s.1 && B1.isIdle s.2.1 && B2.isIdle s.2.2.1 && B3.isIdle s.2.2.2

/-- `src/tuple.rs` 96-121 at arity 5 (line 136): `impl Encode for TupleEncoder`. -/
def tupleBufEncoder5 {σ0 α0 σ1 α1 σ2 α2 σ3 α3 σ4 α4 : Type}
    (B0 : BufEncoder σ0 α0) (B1 : BufEncoder σ1 α1) (B2 : BufEncoder σ2 α2) (B3 : BufEncoder σ3 α3) (B4 : BufEncoder σ4 α4) :
    BufEncoder (σ0 × σ1 × σ2 × σ3 × σ4) (α0 × α1 × α2 × α3 × α4) where
  encode s buf e :=
    match tryEncodeBuf B0 s.1 0 buf e with
    | .ret r (s0, b0) => (r, (s0, s.2), b0)
    | .next o0 (s0, b0) =>
      match tryEncodeBuf B1 s.2.1 o0 b0 e with
      | .ret r (s1, b1) => (r, (s0, s1, s.2.2), b1)
      | .next o1 (s1, b1) =>
        match tryEncodeBuf B2 s.2.2.1 o1 b1 e with
        | .ret r (s2, b2) => (r, (s0, s1, s2, s.2.2.2), b2)
        | .next o2 (s2, b2) =>
          match tryEncodeBuf B3 s.2.2.2.1 o2 b2 e with
          | .ret r (s3, b3) => (r, (s0, s1, s2, s3, s.2.2.2.2), b3)
          | .next o3 (s3, b3) =>
            match tryEncodeBuf B4 s.2.2.2.2 o3 b3 e with
            | .ret r (s4, b4) => (r, (s0, s1, s2, s3, s4), b4)
            | .next o4 (s4, b4) =>
              (.ok o4, (s0, s1, s2, s3, s4), b4)
  start s t :=
    Res.step (B0.start s.1 t.1) (fun u => (u, s.2)) fun _ s0 =>
      Res.step (B1.start s.2.1 t.2.1) (fun u => (s0, u, s.2.2)) fun _ s1 =>
        Res.step (B2.start s.2.2.1 t.2.2.1) (fun u => (s0, s1, u, s.2.2.2)) fun _ s2 =>
          Res.step (B3.start s.2.2.2.1 t.2.2.2.1) (fun u => (s0, s1, s2, u, s.2.2.2.2)) fun _ s3 =>
            Res.step (B4.start s.2.2.2.2 t.2.2.2.2) (fun u => (s0, s1, s2, s3, u)) fun _ s4 =>
              (.ok (), (s0, s1, s2, s3, s4))
  requiring s := (((((ByteCount.finite 0).addForEncoding (B0.requiring s.1)).addForEncoding (B1.requiring s.2.1)).addForEncoding (B2.requiring s.2.2.1)).addForEncoding (B3.requiring s.2.2.2.1)).addForEncoding (B4.requiring s.2.2.2.2)
  isIdle s := B0.isIdle s.1 && B1.isIdle s.2.1 && B2.isIdle s.2.2.1 && B3.isIdle s.2.2.2.1 && B4.isIdle s.2.2.2.2

/-- `src/tuple.rs` 96-121 at arity 6 (line 137): `impl Encode for TupleEncoder`. -/
def tupleBufEncoder6 {σ0 α0 σ1 α1 σ2 α2 σ3 α3 σ4 α4 σ5 α5 : Type}
    (B0 : BufEncoder σ0 α0) (B1 : BufEncoder σ1 α1) (B2 : BufEncoder σ2 α2) (B3 : BufEncoder σ3 α3) (B4 : BufEncoder σ4 α4) (B5 : BufEncoder σ5 α5) :
    BufEncoder (σ0 × σ1 × σ2 × σ3 × σ4 × σ5) (α0 × α1 × α2 × α3 × α4 × α5) where
  encode s buf e :=
    match tryEncodeBuf B0 s.1 0 buf e with
    | .ret r (s0, b0) => (r, (s0, s.2), b0)
    | .next o0 (s0, b0) =>
      match tryEncodeBuf B1 s.2.1 o0 b0 e with
      | .ret r (s1, b1) => (r, (s0, s1, s.2.2), b1)
      | .next o1 (s1, b1) =>
        match tryEncodeBuf B2 s.2.2.1 o1 b1 e with
        | .ret r (s2, b2) => (r, (s0, s1, s2, s.2.2.2), b2)
        | .next o2 (s2, b2) =>
          match tryEncodeBuf B3 s.2.2.2.1 o2 b2 e with
          | .ret r (s3, b3) => (r, (s0, s1, s2, s3, s.2.2.2.2), b3)
          | .next o3 (s3, b3) =>
            match tryEncodeBuf B4 s.2.2.2.2.1 o3 b3 e with
            | .ret r (s4, b4) => (r, (s0, s1, s2, s3, s4, s.2.2.2.2.2), b4)
            | .next o4 (s4, b4) =>
              match tryEncodeBuf B5 s.2.2.2.2.2 o4 b4 e with
              | .ret r (s5, b5) => (r, (s0, s1, s2, s3, s4, s5), b5)
              | .next o5 (s5, b5) =>
                (.ok o5, (s0, s1, s2, s3, s4, s5), b5)
  start s t :=
    Res.step (B0.start s.1 t.1) (fun u => (u, s.2)) fun _ s0 =>
      Res.step (B1.start s.2.1 t.2.1) (fun u => (s0, u, s.2.2)) fun _ s1 =>
        Res.step (B2.start s.2.2.1 t.2.2.1) (fun u => (s0, s1, u, s.2.2.2)) fun _ s2 =>
          Res.step (B3.start s.2.2.2.1 t.2.2.2.1) (fun u => (s0, s1, s2, u, s.2.2.2.2)) fun _ s3 =>
            Res.step (B4.start s.2.2.2.2.1 t.2.2.2.2.1) (fun u => (s0, s1, s2, s3, u, s.2.2.2.2.2)) fun _ s4 =>
              Res.step (B5.start s.2.2.2.2.2 t.2.2.2.2.2) (fun u => (s0, s1, s2, s3, s4, u)) fun _ s5 =>
                (.ok (), (s0, s1, s2, s3, s4, s5))
  requiring s := ((((((ByteCount.finite 0).addForEncoding (B0.requiring s.1)).addForEncoding (B1.requiring s.2.1)).addForEncoding (B2.requiring s.2.2.1)).addForEncoding (B3.requiring s.2.2.2.1)).addForEncoding (B4.requiring s.2.2.2.2.1)).addForEncoding (B5.requiring s.2.2.2.2.2)
  isIdle s := B0.isIdle s.1 && B1.isIdle s.2.1 && B2.isIdle s.2.2.1 && B3.isIdle s.2.2.2.1 && B4.isIdle s.2.2.2.2.1 && B5.isIdle s.2.2.2.2.2

/-- `src/tuple.rs` 96-121 at arity 7 (line 138): `impl Encode for TupleEncoder`. -/
def tupleBufEncoder7 {σ0 α0 σ1 α1 σ2 α2 σ3 α3 σ4 α4 σ5 α5 σ6 α6 : Type}
    (B0 : BufEncoder σ0 α0) (B1 : BufEncoder σ1 α1) (B2 : BufEncoder σ2 α2) (B3 : BufEncoder σ3 α3) (B4 : BufEncoder σ4 α4) (B5 : BufEncoder σ5 α5) (B6 : BufEncoder σ6 α6) :
    BufEncoder (σ0 × σ1 × σ2 × σ3 × σ4 × σ5 × σ6) (α0 × α1 × α2 × α3 × α4 × α5 × α6) where
  encode s buf e :=
    match tryEncodeBuf B0 s.1 0 buf e with
    | .ret r (s0, b0) => (r, (s0, s.2), b0)
    | .next o0 (s0, b0) =>
      match tryEncodeBuf B1 s.2.1 o0 b0 e with
      | .ret r (s1, b1) => (r, (s0, s1, s.2.2), b1)
      | .next o1 (s1, b1) =>
        match tryEncodeBuf B2 s.2.2.1 o1 b1 e with
        | .ret r (s2, b2) => (r, (s0, s1, s2, s.2.2.2), b2)
        | .next o2 (s2, b2) =>
          match tryEncodeBuf B3 s.2.2.2.1 o2 b2 e with
          | .ret r (s3, b3) => (r, (s0, s1, s2, s3, s.2.2.2.2), b3)
          | .next o3 (s3, b3) =>
            match tryEncodeBuf B4 s.2.2.2.2.1 o3 b3 e with
            | .ret r (s4, b4) => (r, (s0, s1, s2, s3, s4, s.2.2.2.2.2), b4)
            | .next o4 (s4, b4) =>
              match tryEncodeBuf B5 s.2.2.2.2.2.1 o4 b4 e with
              | .ret r (s5, b5) => (r, (s0, s1, s2, s3, s4, s5, s.2.2.2.2.2.2), b5)
              | .next o5 (s5, b5) =>
                match tryEncodeBuf B6 s.2.2.2.2.2.2 o5 b5 e with
                | .ret r (s6, b6) => (r, (s0, s1, s2, s3, s4, s5, s6), b6)
                | .next o6 (s6, b6) =>
                  (.ok o6, (s0, s1, s2, s3, s4, s5, s6), b6)
  start s t :=
    Res.step (B0.start s.1 t.1) (fun u => (u, s.2)) fun _ s0 =>
      Res.step (B1.start s.2.1 t.2.1) (fun u => (s0, u, s.2.2)) fun _ s1 =>
        Res.step (B2.start s.2.2.1 t.2.2.1) (fun u => (s0, s1, u, s.2.2.2)) fun _ s2 =>
          Res.step (B3.start s.2.2.2.1 t.2.2.2.1) (fun u => (s0, s1, s2, u, s.2.2.2.2)) fun _ s3 =>
            Res.step (B4.start s.2.2.2.2.1 t.2.2.2.2.1) (fun u => (s0, s1, s2, s3, u, s.2.2.2.2.2)) fun _ s4 =>
              Res.step (B5.start s.2.2.2.2.2.1 t.2.2.2.2.2.1) (fun u => (s0, s1, s2, s3, s4, u, s.2.2.2.2.2.2)) fun _ s5 =>
                Res.step (B6.start s.2.2.2.2.2.2 t.2.2.2.2.2.2) (fun u => (s0, s1, s2, s3, s4, s5, u)) fun _ s6 =>
                  (.ok (), (s0, s1, s2, s3, s4, s5, s6))
  requiring s := (((((((ByteCount.finite 0).addForEncoding (B0.requiring s.1)).addForEncoding (B1.requiring s.2.1)).addForEncoding (B2.requiring s.2.2.1)).addForEncoding (B3.requiring s.2.2.2.1)).addForEncoding (B4.requiring s.2.2.2.2.1)).addForEncoding (B5.requiring s.2.2.2.2.2.1)).addForEncoding (B6.requiring s.2.2.2.2.2.2)
  isIdle s := B0.isIdle s.1 && B1.isIdle s.2.1 && B2.isIdle s.2.2.1 && B3.isIdle s.2.2.2.1 && B4.isIdle s.2.2.2.2.1 && B5.isIdle s.2.2.2.2.2.1 && B6.isIdle s.2.2.2.2.2.2

/-- `src/tuple.rs` 96-121 at arity 8 (line 139): `impl Encode for TupleEncoder`. -/
def tupleBufEncoder8 {σ0 α0 σ1 α1 σ2 α2 σ3 α3 σ4 α4 σ5 α5 σ6 α6 σ7 α7 : Type}
    (B0 : BufEncoder σ0 α0) (B1 : BufEncoder σ1 α1) (B2 : BufEncoder σ2 α2) (B3 : BufEncoder σ3 α3) (B4 : BufEncoder σ4 α4) (B5 : BufEncoder σ5 α5) (B6 : BufEncoder σ6 α6) (B7 : BufEncoder σ7 α7) :
    BufEncoder (σ0 × σ1 × σ2 × σ3 × σ4 × σ5 × σ6 × σ7) (α0 × α1 × α2 × α3 × α4 × α5 × α6 × α7) where
  encode s buf e :=
    match tryEncodeBuf B0 s.1 0 buf e with
    | .ret r (s0, b0) => (r, (s0, s.2), b0)
    | .next o0 (s0, b0) =>
      match tryEncodeBuf B1 s.2.1 o0 b0 e with
      | .ret r (s1, b1) => (r, (s0, s1, s.2.2), b1)
      | .next o1 (s1, b1) =>
        match tryEncodeBuf B2 s.2.2.1 o1 b1 e with
        | .ret r (s2, b2) => (r, (s0, s1, s2, s.2.2.2), b2)
        | .next o2 (s2, b2) =>
          match tryEncodeBuf B3 s.2.2.2.1 o2 b2 e with
          | .ret r (s3, b3) => (r, (s0, s1, s2, s3, s.2.2.2.2), b3)
          | .next o3 (s3, b3) =>
            match tryEncodeBuf B4 s.2.2.2.2.1 o3 b3 e with
            | .ret r (s4, b4) => (r, (s0, s1, s2, s3, s4, s.2.2.2.2.2), b4)
            | .next o4 (s4, b4) =>
              match tryEncodeBuf B5 s.2.2.2.2.2.1 o4 b4 e with
              | .ret r (s5, b5) => (r, (s0, s1, s2, s3, s4, s5, s.2.2.2.2.2.2), b5)
              | .next o5 (s5, b5) =>
                match tryEncodeBuf B6 s.2.2.2.2.2.2.1 o5 b5 e with
                | .ret r (s6, b6) => (r, (s0, s1, s2, s3, s4, s5, s6, s.2.2.2.2.2.2.2), b6)
                | .next o6 (s6, b6) =>
                  match tryEncodeBuf B7 s.2.2.2.2.2.2.2 o6 b6 e with
                  | .ret r (s7, b7) => (r, (s0, s1, s2, s3, s4, s5, s6, s7), b7)
                  | .next o7 (s7, b7) =>
                    (.ok o7, (s0, s1, s2, s3, s4, s5, s6, s7), b7)
  start s t :=
    Res.step (B0.start s.1 t.1) (fun u => (u, s.2)) fun _ s0 =>
      Res.step (B1.start s.2.1 t.2.1) (fun u => (s0, u, s.2.2)) fun _ s1 =>
        Res.step (B2.start s.2.2.1 t.2.2.1) (fun u => (s0, s1, u, s.2.2.2)) fun _ s2 =>
          Res.step (B3.start s.2.2.2.1 t.2.2.2.1) (fun u => (s0, s1, s2, u, s.2.2.2.2)) fun _ s3 =>
            Res.step (B4.start s.2.2.2.2.1 t.2.2.2.2.1) (fun u => (s0, s1, s2, s3, u, s.2.2.2.2.2)) fun _ s4 =>
              Res.step (B5.start s.2.2.2.2.2.1 t.2.2.2.2.2.1) (fun u => (s0, s1, s2, s3, s4, u, s.2.2.2.2.2.2)) fun _ s5 =>
                Res.step (B6.start s.2.2.2.2.2.2.1 t.2.2.2.2.2.2.1) (fun u => (s0, s1, s2, s3, s4, s5, u, s.2.2.2.2.2.2.2)) fun _ s6 =>
                  Res.step (B7.start s.2.2.2.2.2.2.2 t.2.2.2.2.2.2.2) (fun u => (s0, s1, s2, s3, s4, s5, s6, u)) fun _ s7 =>
                    (.ok (), (s0, s1, s2, s3, s4, s5, s6, s7))
  requiring s := ((((((((ByteCount.finite 0).addForEncoding (B0.requiring s.1)).addForEncoding (B1.requiring s.2.1)).addForEncoding (B2.requiring s.2.2.1)).addForEncoding (B3.requiring s.2.2.2.1)).addForEncoding (B4.requiring s.2.2.2.2.1)).addForEncoding (B5.requiring s.2.2.2.2.2.1)).addForEncoding (B6.requiring s.2.2.2.2.2.2.1)).addForEncoding (B7.requiring s.2.2.2.2.2.2.2)
  isIdle s := B0.isIdle s.1 && B1.isIdle s.2.1 && B2.isIdle s.2.2.1 && B3.isIdle s.2.2.2.1 && B4.isIdle s.2.2.2.2.1 && B5.isIdle s.2.2.2.2.2.1 && B6.isIdle s.2.2.2.2.2.2.1 && B7.isIdle s.2.2.2.2.2.2.2

end Bytecodec
