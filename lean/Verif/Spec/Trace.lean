import Verif.Spec.Decode
import Verif.Model.DecCombinator
/-!
# Specification: what a caller observes

Two codecs are interchangeable for a caller if every sequence of calls gets the same answers.
-/
namespace Bytecodec.Spec

variable {σ α β : Type}

/-! ## Decoders -/

/-- A call of a decoder method. -/
inductive Call where
  | decode (b : Bytes) (e : Eos)
  | finish

/-- What the call returned. -/
inductive Answer (α : Type) where
  | decode (r : Res Nat)
  | finish (r : Res α)

/-- What a caller sees: the answer, and what `is_idle` and `requiring_bytes` say afterwards. -/
structure Seen (α : Type) where
  answer : Answer α
  idle : Bool
  requiring : ByteCount

/-- Another way to present the answers: `f` for `decode`, `g` for `finish_decoding`. -/
def Seen.map (f : Res Nat → Res Nat) (g : Res α → Res β) (x : Seen α) : Seen β :=
  ⟨match x.answer with
    | .decode r => .decode (f r)
    | .finish r => .finish (g r), x.idle, x.requiring⟩

/-- The state after one call. -/
def callState (D : Decoder σ α) (s : σ) : Call → σ
  | .decode b e => (D.decode s b e).2
  | .finish => (D.finish s).2

/-- The answer to one call. -/
def callAnswer (D : Decoder σ α) (s : σ) : Call → Answer α
  | .decode b e => .decode (D.decode s b e).1
  | .finish => .finish (D.finish s).1

/-- What a caller sees who makes these calls, also after errors. -/
def observe (D : Decoder σ α) (s : σ) : List Call → List (Seen α)
  | [] => []
  | c :: cs =>
    ⟨callAnswer D s c, D.isIdle (callState D s c), D.requiring (callState D s c)⟩ ::
      observe D (callState D s c) cs

/-- The caller does not call `decode` while the decoder is idle. -/
def Polite (D : Decoder σ α) (s : σ) : List Call → Prop
  | [] => True
  | .decode b e :: cs => D.isIdle s = false ∧ Polite D (callState D s (.decode b e)) cs
  | .finish :: cs => Polite D (callState D s .finish) cs

/-- The image of an item. -/
def mapItem (f : α → β) : Res α → Res β
  | .ok x => .ok (f x)
  | .err k => .err k
  | .panic => .panic
  | .capacity => .capacity
  | .diverge => .diverge

/-- The image of an item under a conversion that can fail. -/
def tryItem (f : α → Except ErrorKind β) : Res α → Res β
  | .ok x => match f x with
    | .ok y => .ok y
    | .error k => .err k
  | .err k => .err k
  | .panic => .panic
  | .capacity => .capacity
  | .diverge => .diverge

/-- The same result with another error kind. -/
def onErr (f : ErrorKind → ErrorKind) : Res α → Res α
  | .err k => .err (f k)
  | r => r

/-- Any history of calls, counting bytes. `set` are the setters the caller may use in between.
`Tally … s c f`: the decoder is now in state `s`; since the last item was taken, `c` bytes have been
reported as consumed and `f` calls of `finish_decoding` have failed. -/
inductive Tally (D : Decoder σ α) (set : σ → σ → Prop) (s₀ : σ) : σ → Nat → Nat → Prop
  | new : Tally D set s₀ s₀ 0 0
  | decoded {s s' : σ} {c f n : Nat} {b : Bytes} {e : Eos} : Tally D set s₀ s c f → EosSane e b.length →
      D.decode s b e = (.ok n, s') → Tally D set s₀ s' (c + n) f
  | failed {s s' : σ} {c f : Nat} {b : Bytes} {e : Eos} {r : Res Nat} : Tally D set s₀ s c f →
      EosSane e b.length → D.decode s b e = (r, s') → (∀ n, r ≠ .ok n) → Tally D set s₀ s' c f
  | item {s s' : σ} {c f : Nat} {x : α} : Tally D set s₀ s c f → D.finish s = (.ok x, s') →
      Tally D set s₀ s' 0 0
  | refused {s s' : σ} {c f : Nat} {r : Res α} : Tally D set s₀ s c f → D.finish s = (r, s') →
      (∀ x, r ≠ .ok x) → Tally D set s₀ s' c (f + 1)
  | set {s s' : σ} {c f : Nat} : Tally D set s₀ s c f → set s s' → Tally D set s₀ s' c f

/-- No setters. -/
def noSet (_ _ : σ) : Prop := False

/-- A successful `set_max_bytes`. -/
def maxSet (s s' : MaxBytesState σ) : Prop := ∃ m, s.setMaxBytes m = (.ok (), s')

/-! ## Encoders -/

/-- A call of an encoder method. -/
inductive ECall (α : Type) where
  | start (x : α)
  | encode (cap : Nat) (e : Eos)

/-- What the call returned. -/
inductive EAnswer where
  | start (r : Res Unit)
  | encode (r : Res Bytes)

/-- What a caller sees. -/
structure ESeen where
  answer : EAnswer
  idle : Bool
  requiring : ByteCount

def ESeen.map (f : Res Unit → Res Unit) (g : Res Bytes → Res Bytes) (x : ESeen) : ESeen :=
  ⟨match x.answer with
    | .start r => .start (f r)
    | .encode r => .encode (g r), x.idle, x.requiring⟩

/-- The calls with other items. -/
def ECall.map (f : α → β) : ECall α → ECall β
  | .start x => .start (f x)
  | .encode cap e => .encode cap e

def ecallState (E : Encoder σ α) (s : σ) : ECall α → σ
  | .start x => (E.start s x).2
  | .encode cap e => (E.encode s cap e).2

def ecallAnswer (E : Encoder σ α) (s : σ) : ECall α → EAnswer
  | .start x => .start (E.start s x).1
  | .encode cap e => .encode (E.encode s cap e).1

/-- What a caller sees who makes these calls, also after errors. -/
def observeE (E : Encoder σ α) (s : σ) : List (ECall α) → List ESeen
  | [] => []
  | c :: cs =>
    ⟨ecallAnswer E s c, E.isIdle (ecallState E s c), E.requiring (ecallState E s c)⟩ ::
      observeE E (ecallState E s c) cs

/-- The caller does not call `encode` while the encoder is idle. -/
def PoliteE (E : Encoder σ α) (s : σ) : List (ECall α) → Prop
  | [] => True
  | .encode cap e :: cs => E.isIdle s = false ∧ PoliteE E (ecallState E s (.encode cap e)) cs
  | .start x :: cs => PoliteE E (ecallState E s (.start x)) cs

end Bytecodec.Spec
