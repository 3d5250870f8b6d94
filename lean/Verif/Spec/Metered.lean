import Verif.Spec.Decode
import Verif.Spec.Trace
import Verif.Model.Tuple
import Verif.Model.Captured
import Verif.Model.Bytes
/-!
# Specification: how often the innermost decoders are called for an item

A decoder is composed again, with the same combinators, from innermost decoders that count their calls and hand out
the count with the item. The combinators are those of the library; where they put items together, a `map` adds up the
counts.
-/
namespace Bytecodec.Spec

/-- The same decoder, which hands out with each item how often it was called (`decode` and `finish_decoding`, also calls that
failed) since the item before. -/
def meteredLeaf {σ α : Type} (D : Decoder σ α) : Decoder (σ × Nat) (α × Nat) where
  decode s b e := ((D.decode s.1 b e).1, (D.decode s.1 b e).2, s.2 + 1)
  finish s := Res.step (D.finish s.1) (fun s' => (s', s.2 + 1)) fun x s' => (.ok (x, s.2 + 1), (s', 0))
  requiring s := D.requiring s.1
  isIdle s := D.isIdle s.1

/-- The sum of the counts. -/
def countSum {α : Type} (l : List (α × Nat)) : Nat := (l.map Prod.snd).sum

/-- `Metered a b D s M t`: the decoder `M` (in state `t`) is `D` (in state `s`) composed from counting decoders. Where the
recursion ends, i.e. what is regarded as an innermost decoder, is open: decoders of the user's, for instance.

`a` and `b` are the price list: at most `a` calls of innermost decoders for each call of `decode` or `finish_decoding`, and
`b` more for each byte. (`a` is the number of innermost decoders, unless a `collectn` of any items is part of the decoder.) -/
inductive Metered : {σ τ α : Type} → Nat → Nat → Decoder σ α → σ → Decoder τ (α × Nat) → τ → Prop
  /-- an innermost decoder -/
  | leaf {σ α : Type} (D : Decoder σ α) (s : σ) : Metered 1 0 D s (meteredLeaf D) (s, 0)
  | weaken {σ τ α : Type} {D : Decoder σ α} {s : σ} {M : Decoder τ (α × Nat)} {t : τ} {a b a' b' : Nat} : a ≤ a' → b ≤ b' →
      Metered a b D s M t → Metered a' b' D s M t
  | map {σ τ α β : Type} {D : Decoder σ α} {s : σ} {M : Decoder τ (α × Nat)} {t : τ} {a b : Nat} (f : α → β) :
      Metered a b D s M t → Metered a b (mapDecoder D f) s (mapDecoder M fun p => (f p.1, p.2)) t
  | tryMap {σ τ α β : Type} {D : Decoder σ α} {s : σ} {M : Decoder τ (α × Nat)} {t : τ} {a b : Nat}
      (f : α → Except ErrorKind β) : Metered a b D s M t →
      Metered a b (tryMapDecoder D f) s (tryMapDecoder M fun p => (f p.1).map fun y => (y, p.2)) t
  | utf8 {σ τ : Type} {D : Decoder σ Bytes} {s : σ} {M : Decoder τ (Bytes × Nat)} {t : τ} {a b : Nat} :
      Metered a b D s M t → Metered a b (utf8Decoder D) s
        (tryMapDecoder M fun p => match fromUtf8 p.1 with
          | some x => .ok (x, p.2)
          | none => .error .invalidInput) t
  | mapErr {σ τ α : Type} {D : Decoder σ α} {s : σ} {M : Decoder τ (α × Nat)} {t : τ} {a b : Nat}
      (f : ErrorKind → ErrorKind) : Metered a b D s M t → Metered a b (mapErrDecoder D f) s (mapErrDecoder M f) t
  | omittable {σ τ α : Type} {D : Decoder σ α} {s : σ} {M : Decoder τ (α × Nat)} {t : τ} {a b : Nat} (skip : Bool) :
      Metered a b D s M t → Metered a b (omittableDecoder D) ⟨s, skip⟩
        (mapDecoder (omittableDecoder M) fun o => (o.map Prod.fst, (o.map Prod.snd).getD 0)) ⟨t, skip⟩
  | length {σ τ α : Type} {D : Decoder σ α} {s : σ} {M : Decoder τ (α × Nat)} {t : τ} {a b : Nat} (n : Nat) : n < 2 ^ 64 →
      Metered a b D s M t → Metered a b (lengthDecoder D) (.new s n) (lengthDecoder M) (.new t n)
  | maxBytes {σ τ α : Type} {D : Decoder σ α} {s : σ} {M : Decoder τ (α × Nat)} {t : τ} {a b : Nat} (n : Nat) :
      Metered a b D s M t → Metered a b (maxBytesDecoder D) (.new s n) (maxBytesDecoder M) (.new t n)
  | slice {σ τ α : Type} {D : Decoder σ α} {s : σ} {M : Decoder τ (α × Nat)} {t : τ} {a b : Nat} (n : Nat) :
      Metered a b D s M t → Metered a b (sliceDecoder D) ⟨s, n⟩ (sliceDecoder M) ⟨t, n⟩
  | peekable {σ τ α : Type} {D : Decoder σ α} {s : σ} {M : Decoder τ (α × Nat)} {t : τ} {a b : Nat} :
      Metered a b D s M t → Metered a b (peekableDecoder D) ⟨s, none⟩ (peekableDecoder M) ⟨t, none⟩
  | maybeEos {σ τ α : Type} {D : Decoder σ α} {s : σ} {M : Decoder τ (α × Nat)} {t : τ} {a b : Nat} :
      Metered a b D s M t → Metered a b (maybeEosDecoder D) (.new s) (maybeEosDecoder M) (.new t)
  /-- a pair costs what its parts cost (tuples are nested pairs: C66) -/
  | pair {σ0 τ0 α0 σ1 τ1 α1 : Type} {D0 : Decoder σ0 α0} {s0 : σ0} {M0 : Decoder τ0 (α0 × Nat)} {t0 : τ0}
      {D1 : Decoder σ1 α1} {s1 : σ1} {M1 : Decoder τ1 (α1 × Nat)} {t1 : τ1} {a0 a1 b : Nat} :
      Metered a0 b D0 s0 M0 t0 → Metered a1 b D1 s1 M1 t1 →
      Metered (a0 + a1) b (tupleDecoder2 D0 D1) (s0, s1)
        (mapDecoder (tupleDecoder2 M0 M1) fun p => ((p.1.1, p.2.1), p.1.2 + p.2.2)) (t0, t1)
  /-- the closure takes the count along -/
  | andThen {σ0 τ0 α0 σ1 τ1 α1 : Type} {D0 : Decoder σ0 α0} {s0 : σ0} {M0 : Decoder τ0 (α0 × Nat)} {t0 : τ0}
      {D1 : Decoder σ1 α1} {M1 : Decoder τ1 (α1 × Nat)} {a0 a1 b : Nat} (f : α0 → σ1) (g : α0 → τ1) :
      Metered a0 b D0 s0 M0 t0 → (∀ x, Metered a1 b D1 (f x) M1 (g x)) →
      Metered (a0 + a1) b (andThenDecoder D0 D1 f) (s0, none)
        (andThenDecoder M0 (capturedDecoder fun c => mapDecoder M1 fun p => (p.1, c + p.2)) fun p => (p.2, g p.1))
        (t0, none)
  | captured {ε σ τ α : Type} {a b : Nat} (F : ε → Decoder σ α) (G : ε → Decoder τ (α × Nat)) (x : ε) {s : σ} {t : τ} :
      Metered a b (F x) s (G x) t → Metered a b (capturedDecoder F) (x, s) (capturedDecoder G) (x, t)
  /-- items of at least one byte each: the price per byte goes up by that of two calls -/
  | collect {σ τ α : Type} {D : Decoder σ α} {s : σ} {M : Decoder τ (α × Nat)} {t : τ} {a b : Nat} : Productive D s →
      Metered a b D s M t → Metered a (2 * a + b) (collectDecoder D) ⟨s, [], false⟩
        (mapDecoder (collectDecoder M) fun l => (l.map Prod.fst, countSum l)) ⟨t, [], false⟩
  | collectN {σ τ α : Type} {D : Decoder σ α} {s : σ} {M : Decoder τ (α × Nat)} {t : τ} {a b : Nat} (n : Nat) :
      Productive D s → Metered a b D s M t → Metered a (2 * a + b) (collectNDecoder D) (.new s n)
        (mapDecoder (collectNDecoder M) fun l => (l.map Prod.fst, countSum l)) (.new t n)
  /-- any items: the price per call goes up with their number -/
  | collectNAny {σ τ α : Type} {D : Decoder σ α} {s : σ} {M : Decoder τ (α × Nat)} {t : τ} {a b : Nat} (n : Nat) :
      Metered a b D s M t → Metered (a + 2 * a * n) b (collectNDecoder D) (.new s n)
        (mapDecoder (collectNDecoder M) fun l => (l.map Prod.fst, countSum l)) (.new t n)

/-- The distances to the end of the stream that the caller announces fit in a `u64`. -/
def Call.sane : Call → Prop
  | .decode b e => EosSane e b.length
  | .finish => True

/-- The bytes that were consumed, and the calls of innermost decoders that were handed out with the items. -/
def bytesSeen {α : Type} : List (Seen α) → Nat
  | [] => 0
  | ⟨.decode (.ok n), _, _⟩ :: l => n + bytesSeen l
  | _ :: l => bytesSeen l

/-- The calls of innermost decoders that were handed out with the items. -/
def countSeen {α : Type} : List (Seen (α × Nat)) → Nat
  | [] => 0
  | ⟨.finish (.ok x), _, _⟩ :: l => x.2 + countSeen l
  | _ :: l => countSeen l

end Bytecodec.Spec
