import Verif.Spec.Decode
/-!
# Specification: decoders of the user's own that work byte by byte

`Bytewise p D I` is a contract for an implementation of `Decode` that is not part of the library, in
terms of its calls only: the decoder reads one byte after another and stops as soon as the item is
complete. `I` are the states it can be in between two calls. `p = true`: the end of an item is
recognised from the bytes alone.
-/
namespace Bytecodec.Spec

variable {σ α : Type}

/-- A call, and unless it failed or completed the item a second call with the bytes behind. -/
def thenDecode (D : Decoder σ α) (b : Bytes) (e : Eos) : Res Nat × σ → Res Nat × σ
  | (.ok n, s) =>
    if D.isIdle s then (.ok n, s)
    else match D.decode s b e with
      | (.ok m, t) => (.ok (n + m), t)
      | (.err k, t) => (.err k, t)
      | (.panic, t) => (.panic, t)
      | (.capacity, t) => (.capacity, t)
      | (.diverge, t) => (.diverge, t)
  | (.err k, s) => (.err k, s)
  | (.panic, s) => (.panic, s)
  | (.capacity, s) => (.capacity, s)
  | (.diverge, s) => (.diverge, s)

/-- The contract. -/
structure Bytewise (p : Bool) (D : Decoder σ α) (I : σ → Prop) : Prop where
  /-- a completed item is left alone -/
  idle : ∀ {s b e}, I s → D.isIdle s = true → D.decode s b e = (.ok 0, s)
  /-- a call without bytes does nothing before the end of the stream -/
  more : ∀ {s e}, I s → D.isIdle s = false → e.isReached = false → D.decode s [] e = (.ok 0, s)
  /-- the end of the stream is an error, or completes the item -/
  last : ∀ {s e}, I s → D.isIdle s = false → e.isReached = true →
    (∃ k t, D.decode s [] e = (.err k, t)) ∨
    (p = false ∧ ∃ t, D.decode s [] e = (.ok 0, t) ∧ D.isIdle t = true)
  /-- a byte is consumed or rejected -/
  byte : ∀ {s c}, I s → D.isIdle s = false →
    (∃ t, D.decode s [c] (Eos.new false) = (.ok 1, t)) ∨
    ∃ k t, D.decode s [c] (Eos.new false) = (.err k, t)
  /-- several bytes are read one by one -/
  cons : ∀ {s c b e}, I s → D.isIdle s = false →
    D.decode s (c :: b) e = thenDecode D b e (D.decode s [c] (Eos.new false))
  /-- an item is taken from an idle decoder, or there is an error -/
  finish : ∀ {s}, I s → (∃ x t, D.finish s = (.ok x, t) ∧ D.isIdle s = true) ∨ ∃ k t, D.finish s = (.err k, t)
  /-- `I` is not left -/
  staysNil : ∀ {s e}, I s → D.isIdle s = false → I (D.decode s [] e).2
  staysByte : ∀ {s c}, I s → D.isIdle s = false → I (D.decode s [c] (Eos.new false)).2
  staysFinish : ∀ {s}, I s → I (D.finish s).2

/-- What such a decoder has to say about the bytes it needs: at least one while it is busy, and never
more than the item still takes. `w = true`: a decoder that has just been made or whose item has just
been taken is busy. -/
structure Asks (w : Bool) (D : Decoder σ α) (I : σ → Prop) : Prop where
  done : ∀ {s}, I s → D.isIdle s = true → D.requiring s = .finite 0
  busy : ∀ {s}, I s → D.isIdle s = false → ∃ k, D.requiring s = .finite (k + 1) ∧
    ∀ c t, D.decode s [c] (Eos.new false) = (.ok 1, t) →
      (D.isIdle t = true → k = 0) ∧ (D.isIdle t = false → ∃ k', D.requiring t = .finite k' ∧ k ≤ k')
  again : w = true → ∀ {s x t}, I s → D.finish s = (.ok x, t) → D.isIdle t = false

/-- A state machine: the typical decoder of this kind. `step` reads one byte, `done` says whether the
item is complete, `value` gives it, `init` is the state for the next item and `need` what the decoder
says about the bytes it needs. -/
def machine (init : σ) (step : σ → UInt8 → Except ErrorKind σ) (done : σ → Bool)
    (value : σ → Except ErrorKind α) (need : σ → ByteCount) : Decoder σ α where
  decode s b e :=
    let rec go (s : σ) (n : Nat) : Bytes → Res Nat × σ
      | [] => if !done s && e.isReached then (.err .unexpectedEos, s) else (.ok n, s)
      | c :: b =>
        if done s then (.ok n, s)
        else match step s c with
          | .ok s' => go s' (n + 1) b
          | .error k => (.err k, s)
    go s 0 b
  finish s := if done s then
      match value s with
      | .ok x => (.ok x, init)
      | .error k => (.err k, init)
    else (.err .incompleteDecoding, s)
  requiring s := if done s then .finite 0 else need s
  isIdle s := done s

/-- Example: a line. The bytes up to the first line feed. -/
def lineDecoder : Decoder (Bytes × Bool) Bytes :=
  machine ([], false) (fun s c => .ok (if c = 10 then (s.1, true) else (s.1 ++ [c], false))) (·.2)
    (fun s => .ok s.1) (fun _ => .unknown)

/-- Example: an unsigned number in LEB128, of at most ten bytes: the state is the value so far, the
number of bytes read and whether the last byte was seen. -/
def varintDecoder : Decoder (Nat × Nat × Bool) Nat :=
  machine (0, 0, false)
    (fun s c => if s.2.1 = 10 then .error .invalidInput
      else .ok (s.1 + (c.toNat % 128) * 2 ^ (7 * s.2.1), s.2.1 + 1, decide (c.toNat < 128)))
    (·.2.2) (fun s => .ok s.1) (fun _ => .finite 1)

/-- Example of an encoder of the user's own: the bytes of the item are computed by `start_encoding`, and
the state is what is left of them. -/
def queueEncoder (enc : α → Except ErrorKind Bytes) : SizedEncoder Bytes α where
  encode s cap e := if s.length ≤ cap then (.ok s, [])
    else if e.isReached then (.err .unexpectedEos, s) else (.ok (s.take cap), s.drop cap)
  start s x := if s.isEmpty then
      match enc x with
      | .ok b => (.ok (), b)
      | .error k => (.err k, s)
    else (.err .encoderFull, s)
  requiring s := .finite s.length
  isIdle s := s.isEmpty
  exact s := s.length

end Bytecodec.Spec
