import Verif.Spec.Trace
/-! # Lemmas: observations -/
namespace Bytecodec

open Spec

variable {σ τ α β : Type}

/-- A simulation between decoders. -/
theorem observe_sim {D : Decoder σ α} {D' : Decoder τ β} {w : σ → τ} {f : Res Nat → Res Nat}
    {g : Res α → Res β}
    (hd : ∀ s b e, D'.decode (w s) b e = (f (D.decode s b e).1, w (D.decode s b e).2))
    (hf : ∀ s, D'.finish (w s) = (g (D.finish s).1, w (D.finish s).2))
    (hi : ∀ s, D'.isIdle (w s) = D.isIdle s) (hr : ∀ s, D'.requiring (w s) = D.requiring s)
    (s : σ) (calls : List Call) :
    observe D' (w s) calls = (observe D s calls).map (Seen.map f g) := by
  induction calls generalizing s with
  | nil => rfl
  | cons c cs ih =>
    have h1 : callState D' (w s) c = w (callState D s c) := by
      cases c with
      | decode b e => simp only [callState, hd]
      | finish => simp only [callState, hf]
    simp only [observe, List.map_cons, h1, ih, hi, hr]
    congr 1
    cases c with
    | decode b e => simp only [callAnswer, Seen.map, hd]
    | finish => simp only [callAnswer, Seen.map, hf]

/-- The same for callers who do not call `decode` while the decoder is idle. -/
theorem observe_sim_polite {D : Decoder σ α} {D' : Decoder τ β} {w : σ → τ} {f : Res Nat → Res Nat}
    {g : Res α → Res β}
    (hd : ∀ s b e, D.isIdle s = false → D'.decode (w s) b e = (f (D.decode s b e).1, w (D.decode s b e).2))
    (hf : ∀ s, D'.finish (w s) = (g (D.finish s).1, w (D.finish s).2))
    (hi : ∀ s, D'.isIdle (w s) = D.isIdle s) (hr : ∀ s, D'.requiring (w s) = D.requiring s)
    {s : σ} {calls : List Call} (hp : Polite D s calls) :
    observe D' (w s) calls = (observe D s calls).map (Seen.map f g) := by
  induction calls generalizing s with
  | nil => rfl
  | cons c cs ih =>
    have h1 : callState D' (w s) c = w (callState D s c) := by
      cases c with
      | decode b e => simp only [callState, hd _ _ _ hp.1]
      | finish => simp only [callState, hf]
    have h2 : Polite D (callState D s c) cs := by
      cases c with
      | decode b e => exact hp.2
      | finish => exact hp
    simp only [observe, List.map_cons, h1, ih h2, hi, hr]
    congr 1
    cases c with
    | decode b e => simp only [callAnswer, Seen.map, hd _ _ _ hp.1]
    | finish => simp only [callAnswer, Seen.map, hf]

/-- A simulation between encoders. -/
theorem observeE_sim {E : Encoder σ α} {E' : Encoder τ β} {w : σ → τ} {k : α → β} {f : Res Unit → Res Unit}
    {g : Res Bytes → Res Bytes}
    (he : ∀ s cap e, E'.encode (w s) cap e = (g (E.encode s cap e).1, w (E.encode s cap e).2))
    (hs : ∀ s x, E'.start (w s) (k x) = (f (E.start s x).1, w (E.start s x).2))
    (hi : ∀ s, E'.isIdle (w s) = E.isIdle s) (hr : ∀ s, E'.requiring (w s) = E.requiring s)
    (s : σ) (calls : List (ECall α)) :
    observeE E' (w s) (calls.map (ECall.map k)) = (observeE E s calls).map (ESeen.map f g) := by
  induction calls generalizing s with
  | nil => rfl
  | cons c cs ih =>
    have h1 : ecallState E' (w s) (c.map k) = w (ecallState E s c) := by
      cases c with
      | start x => simp only [ecallState, ECall.map, hs]
      | encode cap e => simp only [ecallState, ECall.map, he]
    simp only [observeE, List.map_cons, h1, ih, hi, hr]
    congr 1
    cases c with
    | start x => simp only [ecallAnswer, ECall.map, ESeen.map, hs]
    | encode cap e => simp only [ecallAnswer, ECall.map, ESeen.map, he]

/-- The same for callers who do not call `encode` while the encoder is idle. -/
theorem observeE_sim_polite {E : Encoder σ α} {E' : Encoder τ β} {w : σ → τ} {k : α → β} {f : Res Unit → Res Unit}
    {g : Res Bytes → Res Bytes}
    (he : ∀ s cap e, E.isIdle s = false →
      E'.encode (w s) cap e = (g (E.encode s cap e).1, w (E.encode s cap e).2))
    (hs : ∀ s x, E'.start (w s) (k x) = (f (E.start s x).1, w (E.start s x).2))
    (hi : ∀ s, E'.isIdle (w s) = E.isIdle s) (hr : ∀ s, E'.requiring (w s) = E.requiring s)
    {s : σ} {calls : List (ECall α)} (hp : PoliteE E s calls) :
    observeE E' (w s) (calls.map (ECall.map k)) = (observeE E s calls).map (ESeen.map f g) := by
  induction calls generalizing s with
  | nil => rfl
  | cons c cs ih =>
    have h1 : ecallState E' (w s) (c.map k) = w (ecallState E s c) := by
      cases c with
      | start x => simp only [ecallState, ECall.map, hs]
      | encode cap e => simp only [ecallState, ECall.map, he _ _ _ hp.1]
    have h2 : PoliteE E (ecallState E s c) cs := by
      cases c with
      | encode cap e => exact hp.2
      | start x => exact hp
    simp only [observeE, List.map_cons, h1, ih h2, hi, hr]
    congr 1
    cases c with
    | start x => simp only [ecallAnswer, ECall.map, ESeen.map, hs]
    | encode cap e => simp only [ecallAnswer, ECall.map, ESeen.map, he _ _ _ hp.1]

theorem Spec.Seen.map_id (x : Seen α) : Seen.map id id x = x := by
  rcases x with ⟨_ | _, _, _⟩ <;> rfl

theorem Spec.ESeen.map_id (x : ESeen) : ESeen.map id id x = x := by
  rcases x with ⟨_ | _, _, _⟩ <;> rfl

theorem Spec.ECall.map_id (x : ECall α) : ECall.map id x = x := by
  cases x <;> rfl

theorem map_seen_id (l : List (Seen α)) : l.map (Seen.map id id) = l := by
  rw [List.map_congr_left (fun x _ => Seen.map_id x), List.map_id']

theorem map_eseen_id (l : List ESeen) : l.map (ESeen.map id id) = l := by
  rw [List.map_congr_left (fun x _ => ESeen.map_id x), List.map_id']

theorem map_ecall_id (l : List (ECall α)) : l.map (ECall.map id) = l := by
  rw [List.map_congr_left (fun x _ => ECall.map_id x), List.map_id']

theorem add_zero_left (x : ByteCount) : (ByteCount.finite 0).addForDecoding x = x := by
  cases x <;> simp [ByteCount.addForDecoding]

theorem add_zero_right (x : ByteCount) : x.addForDecoding (.finite 0) = x := by
  cases x <;> simp [ByteCount.addForDecoding]

theorem eadd_zero_left (x : ByteCount) : (ByteCount.finite 0).addForEncoding x = x := by
  cases x <;> simp [ByteCount.addForEncoding]

theorem eadd_zero_right (x : ByteCount) : x.addForEncoding (.finite 0) = x := by
  cases x <;> simp [ByteCount.addForEncoding]

end Bytecodec
