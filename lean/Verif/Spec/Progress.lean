import Verif.Model.Access
/-!
# Specification: histories with a record of the progress made

Each relation describes any history of calls of one type, with the number of bytes or items a caller who
keeps count would have at the end.
-/
namespace Bytecodec.Spec

variable {σ α : Type}

/-- `LengthRun D s n c`: `n` is the length last set (by the constructor or `set_expected_bytes`) and `c` bytes
of the current frame were reported as consumed. The frame is over when `finish_decoding` is called after all
its bytes were consumed. -/
inductive LengthRun (D : Decoder σ α) : LengthState σ → Nat → Nat → Prop
  | new (i : σ) (n : Nat) : LengthRun D (.new i n) n 0
  | set {s s' : LengthState σ} {n c m : Nat} : LengthRun D s n c → s.setExpectedBytes m = (.ok (), s') →
      LengthRun D s' m c
  | decoded {s s' : LengthState σ} {n c k : Nat} (b : Bytes) (e : Eos) : LengthRun D s n c →
      (lengthDecoder D).decode s b e = (.ok k, s') → LengthRun D s' n (c + k)
  | failed {s s' : LengthState σ} {n c : Nat} {r : Res Nat} (b : Bytes) (e : Eos) : LengthRun D s n c →
      (lengthDecoder D).decode s b e = (r, s') → (∀ k, r ≠ .ok k) → LengthRun D s' n c
  | finish {s : LengthState σ} {n c : Nat} : LengthRun D s n c →
      LengthRun D ((lengthDecoder D).finish s).2 n (if c = n then 0 else c)

/-- The same for encoders; `c` bytes were emitted since the length was set. All `encode` calls succeeded. -/
inductive LengthEncRun (E : Encoder σ α) : LengthState σ → Nat → Nat → Prop
  | new (i : σ) (n : Nat) : LengthEncRun E (.new i n) n 0
  | set {s s' : LengthState σ} {n c m : Nat} : LengthEncRun E s n c → s.setExpectedBytes m = (.ok (), s') →
      LengthEncRun E s' m c
  | start {s : LengthState σ} {n c : Nat} (x : α) : LengthEncRun E s n c →
      LengthEncRun E ((lengthEncoder E).start s x).2 n c
  | encoded {s s' : LengthState σ} {n c cap : Nat} {e : Eos} {out : Bytes} : LengthEncRun E s n c →
      (lengthEncoder E).encode s cap e = (.ok out, s') → LengthEncRun E s' n (c + out.length)

/-- `MaxRun D s n c`: `n` is the maximum last set and `c` bytes were reported as consumed since the last call
of `finish_decoding`. -/
inductive MaxRun (D : Decoder σ α) : MaxBytesState σ → Nat → Nat → Prop
  | new (i : σ) (n : Nat) : MaxRun D (.new i n) n 0
  | set {s s' : MaxBytesState σ} {n c m : Nat} : MaxRun D s n c → s.setMaxBytes m = (.ok (), s') →
      MaxRun D s' m c
  | decoded {s s' : MaxBytesState σ} {n c k : Nat} (b : Bytes) (e : Eos) : MaxRun D s n c →
      (maxBytesDecoder D).decode s b e = (.ok k, s') → MaxRun D s' n (c + k)
  | failed {s s' : MaxBytesState σ} {n c : Nat} {r : Res Nat} (b : Bytes) (e : Eos) : MaxRun D s n c →
      (maxBytesDecoder D).decode s b e = (r, s') → (∀ k, r ≠ .ok k) → MaxRun D s' n c
  | finish {s : MaxBytesState σ} {n c : Nat} : MaxRun D s n c → MaxRun D ((maxBytesDecoder D).finish s).2 n 0

/-- The same for encoders: `c` bytes of the current item were emitted; the item is over when the encoder is
idle after an `encode` call. All `encode` calls succeeded. -/
inductive MaxEncRun (E : Encoder σ α) : MaxBytesState σ → Nat → Nat → Prop
  | new (i : σ) (n : Nat) : MaxEncRun E (.new i n) n 0
  | set {s s' : MaxBytesState σ} {n c m : Nat} : MaxEncRun E s n c → s.setMaxBytes m = (.ok (), s') →
      MaxEncRun E s' m c
  | start {s : MaxBytesState σ} {n c : Nat} (x : α) : MaxEncRun E s n c →
      MaxEncRun E ((maxBytesEncoder E).start s x).2 n c
  | encoded {s s' : MaxBytesState σ} {n c cap : Nat} {e : Eos} {out : Bytes} : MaxEncRun E s n c →
      (maxBytesEncoder E).encode s cap e = (.ok out, s') →
      MaxEncRun E s' n (if (maxBytesEncoder E).isIdle s' then 0 else c + out.length)

/-- The decoder `D`, with a record of all the items it has delivered. -/
def noting (D : Decoder σ α) : Decoder (σ × List α) α where
  decode s b e := ((D.decode s.1 b e).1, (D.decode s.1 b e).2, s.2)
  finish s :=
    match (D.finish s.1).1 with
    | .ok x => (.ok x, (D.finish s.1).2, s.2 ++ [x])
    | r => (r, (D.finish s.1).2, s.2)
  requiring s := D.requiring s.1
  isIdle s := D.isIdle s.1

/-- `CollectRun D s j`: any history of `collect` over a decoder whose items are recorded; `j` items had been
recorded when the caller last took the collected items. -/
inductive CollectRun (D : Decoder σ α) : CollectState (σ × List α) α → Nat → Prop
  | new (i : σ) : CollectRun D ⟨(i, []), [], false⟩ 0
  | decode {s : CollectState (σ × List α) α} {j : Nat} (b : Bytes) (e : Eos) : CollectRun D s j →
      CollectRun D ((collectDecoder (noting D)).decode s b e).2 j
  | taken {s s' : CollectState (σ × List α) α} {j : Nat} {xs : List α} : CollectRun D s j →
      (collectDecoder (noting D)).finish s = (.ok xs, s') → CollectRun D s' s'.inner.2.length
  | refused {s s' : CollectState (σ × List α) α} {j : Nat} {r : Res (List α)} : CollectRun D s j →
      (collectDecoder (noting D)).finish s = (r, s') → (∀ xs, r ≠ .ok xs) → CollectRun D s' j

/-- `CollectNRun D s n i j`: any history of `collectn`; `n` is the number of items last asked for (by the
constructor or `set_remaining_items`), `i` items had been recorded then, and `j` when the caller last took
the collected items. -/
inductive CollectNRun (D : Decoder σ α) : CollectNState (σ × List α) α → Nat → Nat → Nat → Prop
  | new (i : σ) (n : Nat) : CollectNRun D (.new (i, []) n) n 0 0
  | set {s : CollectNState (σ × List α) α} {n i j : Nat} (m : Nat) : CollectNRun D s n i j →
      CollectNRun D (s.setRemainingItems m) m s.inner.2.length j
  | decode {s : CollectNState (σ × List α) α} {n i j : Nat} (b : Bytes) (e : Eos) : CollectNRun D s n i j →
      CollectNRun D ((collectNDecoder (noting D)).decode s b e).2 n i j
  | taken {s s' : CollectNState (σ × List α) α} {n i j : Nat} {xs : List α} : CollectNRun D s n i j →
      (collectNDecoder (noting D)).finish s = (.ok xs, s') → CollectNRun D s' n i s'.inner.2.length
  | refused {s s' : CollectNState (σ × List α) α} {n i j : Nat} {r : Res (List α)} : CollectNRun D s n i j →
      (collectNDecoder (noting D)).finish s = (r, s') → (∀ xs, r ≠ .ok xs) → CollectNRun D s' n i j

end Bytecodec.Spec
