import Verif.Spec.Stream
import Verif.Spec.Encode
import Verif.Model.DecCombinator
/-!
# Specification: sliced codecs in use
-/
namespace Bytecodec.Spec

variable {σ σ0 σ1 α α0 α1 : Type}

/-! ## The allowance -/

/-- What happened since the last `set_consumable_bytes(n)`: any calls of `decode` and `finish_decoding`.
`SpentDec … s c`: the decoder is now in state `s`, and `c` bytes were reported consumed since. -/
inductive SpentDec (D : Decoder σ α) (n : Nat) : SliceState σ → Nat → Prop
  | set (s : SliceState σ) : SpentDec D n (s.setConsumableBytes n) 0
  | decoded {s s' : SliceState σ} {c m : Nat} {b : Bytes} {e : Eos} : SpentDec D n s c →
      (sliceDecoder D).decode s b e = (.ok m, s') → SpentDec D n s' (c + m)
  | failed {s s' : SliceState σ} {c : Nat} {b : Bytes} {e : Eos} {r : Res Nat} : SpentDec D n s c →
      (sliceDecoder D).decode s b e = (r, s') → (∀ m, r ≠ .ok m) → SpentDec D n s' c
  | finish {s : SliceState σ} {c : Nat} : SpentDec D n s c →
      SpentDec D n ((sliceDecoder D).finish s).2 c

/-- The same for encoders: `c` bytes were produced since. -/
inductive SpentEnc (E : Encoder σ α) (n : Nat) : SliceState σ → Nat → Prop
  | set (s : SliceState σ) : SpentEnc E n (s.setConsumableBytes n) 0
  | encoded {s s' : SliceState σ} {c cap : Nat} {e : Eos} {out : Bytes} : SpentEnc E n s c →
      (sliceEncoder E).encode s cap e = (.ok out, s') → SpentEnc E n s' (c + out.length)
  | failed {s s' : SliceState σ} {c cap : Nat} {e : Eos} {r : Res Bytes} : SpentEnc E n s c →
      (sliceEncoder E).encode s cap e = (r, s') → (∀ m, r ≠ .ok m) → SpentEnc E n s' c
  | start {s : SliceState σ} {c : Nat} (x : α) : SpentEnc E n s c →
      SpentEnc E n ((sliceEncoder E).start s x).2 c

/-! ## Runs with changing allowances -/

/-- Like `DecRun`, for a sliced decoder: the allowance may be set to anything at any time. -/
inductive SliceRun (D : Decoder σ α) (stream : Bytes) (e : Eos) (s₀ : σ) :
    SliceState σ → Nat → List α → Prop
  | new : SliceRun D stream e s₀ (.new s₀) 0 []
  | allow {s : SliceState σ} {pos : Nat} {items : List α} (n : Nat) : SliceRun D stream e s₀ s pos items →
      SliceRun D stream e s₀ (s.setConsumableBytes n) pos items
  | decode {s s' : SliceState σ} {pos n : Nat} {items : List α} {c : Bytes} {ec : Eos} :
      SliceRun D stream e s₀ s pos items → (sliceDecoder D).isIdle s = false → Offer stream e pos c ec →
      (sliceDecoder D).decode s c ec = (.ok n, s') → SliceRun D stream e s₀ s' (pos + n) items
  | finish {s s' : SliceState σ} {pos : Nat} {items : List α} {x : α} :
      SliceRun D stream e s₀ s pos items → (sliceDecoder D).isIdle s = true →
      (sliceDecoder D).finish s = (.ok x, s') → SliceRun D stream e s₀ s' pos (items ++ [x])

/-- Like `EncRun`, for a sliced encoder. -/
inductive SliceEncRun (E : Encoder σ α) (dom : α → Prop) (enc : α → Except ErrorKind Bytes) (s₀ : σ) :
    SliceState σ → Bytes → Bytes → Prop
  | new : SliceEncRun E dom enc s₀ (.new s₀) [] []
  | allow {s : SliceState σ} {accepted emitted : Bytes} (n : Nat) :
      SliceEncRun E dom enc s₀ s accepted emitted →
      SliceEncRun E dom enc s₀ (s.setConsumableBytes n) accepted emitted
  | start {s s' : SliceState σ} {accepted emitted b : Bytes} {x : α} :
      SliceEncRun E dom enc s₀ s accepted emitted →
      (sliceEncoder E).isIdle s = true → dom x → enc x = .ok b → (sliceEncoder E).start s x = (.ok (), s') →
      SliceEncRun E dom enc s₀ s' (accepted ++ b) emitted
  | encode {s s' : SliceState σ} {accepted emitted out : Bytes} {cap : Nat} {e : Eos} :
      SliceEncRun E dom enc s₀ s accepted emitted →
      (e.isReached = true → accepted.length - emitted.length ≤ cap) →
      (sliceEncoder E).encode s cap e = (.ok out, s') →
      SliceEncRun E dom enc s₀ s' accepted (emitted ++ out)

/-! ## Demultiplexing -/

/-- The bytes of channel `t` in a sequence of tagged segments. -/
def channel (t : Bool) (segs : List (Bool × Bytes)) : Bytes :=
  (segs.filter fun s => s.1 == t).flatMap Prod.snd

/-- The bytes of all segments. -/
def wire (segs : List (Bool × Bytes)) : Bytes := segs.flatMap Prod.snd

/-- Two sliced decoders share one stream that consists of segments for channel `false` and channel `true`.
At the start of a segment the decoder in charge gets the allowance for exactly that segment. Then it is
offered pieces of the stream, of any sizes, possibly reaching into the following segments. Items are taken
whenever a decoder is idle. The next segment starts when this one is used up.
`Demux … t0 t1 tag cur later items0 items1`: `cur` is the rest of the current segment, which belongs to
channel `tag`, `later` are the segments after it. -/
inductive Demux (D0 : Decoder σ0 α0) (D1 : Decoder σ1 α1) (s0 : σ0) (s1 : σ1) (segs : List (Bool × Bytes)) :
    SliceState σ0 → SliceState σ1 → Bool → Bytes → List (Bool × Bytes) → List α0 → List α1 → Prop
  | new : Demux D0 D1 s0 s1 segs (.new s0) (.new s1) false [] segs [] []
  | next0 {t0 t1 tag b later items0 items1} :
      Demux D0 D1 s0 s1 segs t0 t1 tag [] ((false, b) :: later) items0 items1 →
      Demux D0 D1 s0 s1 segs (t0.setConsumableBytes b.length) t1 false b later items0 items1
  | next1 {t0 t1 tag b later items0 items1} :
      Demux D0 D1 s0 s1 segs t0 t1 tag [] ((true, b) :: later) items0 items1 →
      Demux D0 D1 s0 s1 segs t0 (t1.setConsumableBytes b.length) true b later items0 items1
  | decode0 {t0 t0' t1 cur later items0 items1 n} {c : Bytes} :
      Demux D0 D1 s0 s1 segs t0 t1 false cur later items0 items1 → (sliceDecoder D0).isIdle t0 = false →
      c <+: cur ++ wire later → (sliceDecoder D0).decode t0 c (Eos.new false) = (.ok n, t0') →
      Demux D0 D1 s0 s1 segs t0' t1 false (cur.drop n) later items0 items1
  | decode1 {t0 t1 t1' cur later items0 items1 n} {c : Bytes} :
      Demux D0 D1 s0 s1 segs t0 t1 true cur later items0 items1 → (sliceDecoder D1).isIdle t1 = false →
      c <+: cur ++ wire later → (sliceDecoder D1).decode t1 c (Eos.new false) = (.ok n, t1') →
      Demux D0 D1 s0 s1 segs t0 t1' true (cur.drop n) later items0 items1
  | finish0 {t0 t0' t1 tag cur later items0 items1 x} :
      Demux D0 D1 s0 s1 segs t0 t1 tag cur later items0 items1 → (sliceDecoder D0).isIdle t0 = true →
      (sliceDecoder D0).finish t0 = (.ok x, t0') →
      Demux D0 D1 s0 s1 segs t0' t1 tag cur later (items0 ++ [x]) items1
  | finish1 {t0 t1 t1' tag cur later items0 items1 x} :
      Demux D0 D1 s0 s1 segs t0 t1 tag cur later items0 items1 → (sliceDecoder D1).isIdle t1 = true →
      (sliceDecoder D1).finish t1 = (.ok x, t1') →
      Demux D0 D1 s0 s1 segs t0 t1' tag cur later items0 (items1 ++ [x])

end Bytecodec.Spec
