import Verif.Spec.Interchange
import Verif.Spec.Exact
/-!
# Specification: decoders that refuse some of their items

`Vetted D s D' s' v`: the decoder `D` is `D'` with checks (`try_map`, UTF-8) built in at places where they look at an
item that has been read completely, and `v` says what the checks together make of an item of `D'`: the item of `D`, or
the error with which it is refused. The places are those where `finish_decoding` is handed on: inside `map`, `try_map`,
`map_err`, `omit`, `length`, `max_bytes`, `slice`, `maybe_eos`, the body of `and_then` and the last component of a tuple.
The other places (the header of `and_then`, the other components of a tuple, inside `collect`, `collectn`, `peekable`)
are not covered; see `C94_tuple_mixes_fails` and `C94_stuck_fails`.
-/
namespace Bytecodec.Spec

/-- What the text check makes of a byte string. -/
def textVerdict (b : Bytes) : Except ErrorKind String :=
  match fromUtf8 b with
  | some str => .ok str
  | none => .error .invalidInput

/-- `D` is `D'` with checks, and `v` is what they say to an item of `D'`. -/
inductive Vetted : {σ τ α β : Type} → Decoder σ β → σ → Decoder τ α → τ → (α → Except ErrorKind β) → Prop
  | unchecked {σ α : Type} (D : Decoder σ α) (s : σ) : Vetted D s D s .ok
  | tryMap {σ τ α β γ : Type} {D : Decoder σ β} {s : σ} {D' : Decoder τ α} {s' : τ} {v : α → Except ErrorKind β}
      (f : β → Except ErrorKind γ) : Vetted D s D' s' v → Vetted (tryMapDecoder D f) s D' s' (fun x => v x >>= f)
  | utf8 {σ τ α : Type} {D : Decoder σ Bytes} {s : σ} {D' : Decoder τ α} {s' : τ} {v : α → Except ErrorKind Bytes} :
      Vetted D s D' s' v → Vetted (utf8Decoder D) s D' s' (fun x => v x >>= textVerdict)
  | map {σ τ α β γ : Type} {D : Decoder σ β} {s : σ} {D' : Decoder τ α} {s' : τ} {v : α → Except ErrorKind β}
      (f : β → γ) : Vetted D s D' s' v → Vetted (mapDecoder D f) s D' s' (fun x => (v x).map f)
  | mapErr {σ τ α β : Type} {D : Decoder σ β} {s : σ} {D' : Decoder τ α} {s' : τ} {v : α → Except ErrorKind β}
      (g : ErrorKind → ErrorKind) : Vetted D s D' s' v →
      Vetted (mapErrDecoder D g) s (mapErrDecoder D' g) s' (fun x => (v x).mapError g)
  | omittable {σ τ α β : Type} {D : Decoder σ β} {s : σ} {D' : Decoder τ α} {s' : τ} {v : α → Except ErrorKind β}
      (doOmit : Bool) : Vetted D s D' s' v →
      Vetted (omittableDecoder D) ⟨s, doOmit⟩ (omittableDecoder D') ⟨s', doOmit⟩
        (fun x => match x with
          | none => .ok none
          | some x => (v x).map some)
  | length {σ τ α β : Type} {D : Decoder σ β} {s : σ} {D' : Decoder τ α} {s' : τ} {v : α → Except ErrorKind β}
      (n : Nat) : Vetted D s D' s' v → Vetted (lengthDecoder D) (.new s n) (lengthDecoder D') (.new s' n) v
  | maxBytes {σ τ α β : Type} {D : Decoder σ β} {s : σ} {D' : Decoder τ α} {s' : τ} {v : α → Except ErrorKind β}
      (n : Nat) : Vetted D s D' s' v → Vetted (maxBytesDecoder D) (.new s n) (maxBytesDecoder D') (.new s' n) v
  | slice {σ τ α β : Type} {D : Decoder σ β} {s : σ} {D' : Decoder τ α} {s' : τ} {v : α → Except ErrorKind β}
      (n : Nat) : Vetted D s D' s' v → Vetted (sliceDecoder D) ⟨s, n⟩ (sliceDecoder D') ⟨s', n⟩ v
  | maybeEos {σ τ α β : Type} {D : Decoder σ β} {s : σ} {D' : Decoder τ α} {s' : τ} {v : α → Except ErrorKind β} :
      Vetted D s D' s' v → Vetted (maybeEosDecoder D) (.new s) (maybeEosDecoder D') (.new s') v
  | pair {σ0 α0 σ1 τ1 α1 β1 : Type} (D0 : Decoder σ0 α0) (s0 : σ0) {D1 : Decoder σ1 β1} {s1 : σ1}
      {D1' : Decoder τ1 α1} {s1' : τ1} {v : α1 → Except ErrorKind β1} : Vetted D1 s1 D1' s1' v →
      Vetted (tupleDecoder2 D0 D1) (s0, s1) (tupleDecoder2 D0 D1') (s0, s1')
        (fun p => (v p.2).map fun y => (p.1, y))
  | andThen {σ0 α0 σ1 τ1 α1 β1 : Type} (D0 : Decoder σ0 α0) (s0 : σ0) {D1 : Decoder σ1 β1} {D1' : Decoder τ1 α1}
      {v : α1 → Except ErrorKind β1} (f : α0 → σ1) (f' : α0 → τ1) : (∀ x, Vetted D1 (f x) D1' (f' x) v) →
      Vetted (andThenDecoder D0 D1 f) (s0, none) (andThenDecoder D0 D1' f') (s0, none) v

/-- `k` calls of `decode_exact`, one after the other: what each of them returned (an item or an error), and the decoder
and the reader afterwards. -/
def readVerdicts {σ α ρ : Type} (D : Decoder σ α) (R : Reader ρ) : Nat → σ → ρ →
    Option (List (Except ErrorKind α) × σ × ρ)
  | 0, s, r => some ([], s, r)
  | k + 1, s, r =>
    match decodeExact D R s r with
    | some (.ok x, s', r') => (readVerdicts D R k s' r').map fun y => (.ok x :: y.1, y.2)
    | some (.err e, s', r') => (readVerdicts D R k s' r').map fun y => (.error e :: y.1, y.2)
    | _ => none

end Bytecodec.Spec
