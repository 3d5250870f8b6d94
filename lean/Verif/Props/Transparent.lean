import Verif.Lemmas.Trace
import Verif.Lemmas.Writes
import Verif.Props.Encoding
/-!
# C21, C29, C37: combinators that leave the codec as it is

`observe` / `observeE` (Spec/Trace) is everything a caller sees who makes any sequence of calls.
-/
namespace Bytecodec.Props

open Bytecodec Bytecodec.Spec

variable {σ α β : Type}

/-! ## C21: `map`, `try_map`, `map_err`, `map_from`, `try_map_from` -/

/-- C21: under any sequence of calls `map` shows what the inner decoder shows, with the image of the
item. -/
theorem C21_map (D : Decoder σ α) (f : α → β) (s : σ) (calls : List Call) :
    observe (mapDecoder D f) s calls = (observe D s calls).map (Seen.map id (mapItem f)) := by
  refine observe_sim (D := D) (D' := mapDecoder D f) (w := id) (fun _ _ _ => rfl) (fun s => ?_) (fun _ => rfl)
    (fun _ => rfl) s calls
  simp only [mapDecoder, id]
  rcases D.finish s with ⟨r, s'⟩
  cases r <;> rfl

/-- C21: the same for `try_map`, with the image or the conversion error. -/
theorem C21_tryMap (D : Decoder σ α) (f : α → Except ErrorKind β) (s : σ) (calls : List Call) :
    observe (tryMapDecoder D f) s calls = (observe D s calls).map (Seen.map id (tryItem f)) := by
  refine observe_sim (D := D) (D' := tryMapDecoder D f) (w := id) (fun _ _ _ => rfl) (fun s => ?_) (fun _ => rfl)
    (fun _ => rfl) s calls
  simp only [tryMapDecoder, id]
  rcases D.finish s with ⟨r, s'⟩
  cases r with
  | ok x => simp only [Res.step, tryItem]; cases f x <;> rfl
  | _ => rfl

/-- C21: `map_err` changes error kinds and nothing else. -/
theorem C21_mapErr (D : Decoder σ α) (f : ErrorKind → ErrorKind) (s : σ) (calls : List Call) :
    observe (mapErrDecoder D f) s calls = (observe D s calls).map (Seen.map (onErr f) (onErr f)) := by
  refine observe_sim (D := D) (D' := mapErrDecoder D f) (w := id) (fun s b e => ?_) (fun s => ?_) (fun _ => rfl)
    (fun _ => rfl) s calls
  · simp only [mapErrDecoder, id]
    cases (D.decode s b e).1 <;> rfl
  · simp only [mapErrDecoder, id]
    cases (D.finish s).1 <;> rfl

/-- C21: `map_err` never turns an error into a success or vice versa. -/
theorem C21_onErr (f : ErrorKind → ErrorKind) (r : Res α) :
    (∀ x, onErr f r = .ok x ↔ r = .ok x) ∧ ((∃ k, onErr f r = .err k) ↔ ∃ k, r = .err k) := by
  cases r <;> simp [onErr]

/-- C21: `map_err` on an encoder. -/
theorem C21_mapErr_encoder (E : Encoder σ α) (f : ErrorKind → ErrorKind) (s : σ) (calls : List (ECall α)) :
    observeE (mapErrEncoder E f) s calls = (observeE E s calls).map (ESeen.map (onErr f) (onErr f)) := by
  have := observeE_sim (E := E) (E' := mapErrEncoder E f) (w := id) (k := id) (f := onErr f) (g := onErr f)
    (fun s cap e => ?_) (fun s x => ?_) (fun _ => rfl) (fun _ => rfl) s calls
  · rwa [map_ecall_id] at this
  · simp only [mapErrEncoder, id]
    cases (E.encode s cap e).1 <;> rfl
  · simp only [mapErrEncoder, id]
    cases (E.start s x).1 <;> rfl

/-- C21: handing `x` to a `map_from` encoder is handing `f x` to the inner one. -/
theorem C21_mapFrom (E : Encoder σ α) (f : β → α) (s : σ) (calls : List (ECall β)) :
    observeE (mapFromEncoder E f) s calls = observeE E s (calls.map (ECall.map f)) := by
  induction calls generalizing s with
  | nil => rfl
  | cons c cs ih => cases c <;> simp only [observeE, List.map_cons] <;> rw [← ih] <;> rfl

/-- C21: handing over items whose conversion succeeds. -/
theorem C21_tryMapFrom (E : Encoder σ α) (f : β → Except ErrorKind α) (g : β → α) (s : σ)
    (calls : List (ECall β)) (h : ∀ x, ECall.start x ∈ calls → f x = .ok (g x)) :
    observeE (tryMapFromEncoder E f) s calls = observeE E s (calls.map (ECall.map g)) := by
  induction calls generalizing s with
  | nil => rfl
  | cons c cs ih =>
    have ih := fun s => ih s fun x hx => h x (List.mem_cons_of_mem _ hx)
    cases c with
    | start x =>
      have hx := h x List.mem_cons_self
      have h1 : (tryMapFromEncoder E f).start s x = E.start s (g x) := by
        simp only [tryMapFromEncoder, hx]
      simp only [observeE, List.map_cons, ECall.map, ecallState, ecallAnswer, h1, ih]
      rfl
    | encode cap e =>
      simp only [observeE, List.map_cons, ECall.map, ecallState, ecallAnswer, ← ih]
      rfl

/-- C21: a failed conversion is reported and leaves the encoder unchanged. -/
theorem C21_tryMapFrom_rejected (E : Encoder σ α) (f : β → Except ErrorKind α) (s : σ) (x : β) (k : ErrorKind)
    (h : f x = .error k) : (tryMapFromEncoder E f).start s x = (.err k, s) := by
  simp only [tryMapFromEncoder, h]

/-- C21: so these encoders write the encoding of the image. -/
theorem C21_emits {strict : Bool} {E : Encoder σ α} {s₀ : σ} {dom enc} (h : Emits strict E s₀ dom enc)
    (f : β → α) (f' : β → Except ErrorKind α) :
    Emits strict (mapFromEncoder E f) s₀ (fun y => dom (f y)) (fun y => enc (f y)) ∧
    Emits strict (tryMapFromEncoder E f') s₀ (fun y => ∀ x, f' y = .ok x → dom x) (fun y => (f' y).bind enc) := by
  have hf := emits_fresh h
  exact ⟨fresh_emits ⟨codes_mapFrom f hf.1, hf.2.1, hf.2.2⟩,
    fresh_emits ⟨codes_tryMapFrom f' hf.1, hf.2.1, hf.2.2⟩⟩

/-- C21: the size query of the `SizedEncode` variants is that of the inner encoder. -/
theorem C21_sizes (E : SizedEncoder σ α) (f : β → α) (f' : β → Except ErrorKind α) (g : ErrorKind → ErrorKind)
    (s : σ) : (sizedMapFromEncoder E f).exact s = E.exact s ∧ (sizedTryMapFromEncoder E f').exact s = E.exact s ∧
    (sizedMapErrEncoder E g).exact s = E.exact s := ⟨rfl, rfl, rfl⟩

example : observe (tryMapDecoder u8Decoder fun x => if x = 0 then .error .invalidInput else .ok (x + 1)) (fixInit 1)
      [.decode [7] (Eos.new false), .finish, .decode [0] (Eos.new false), .finish] =
    [⟨.decode (.ok 1), true, .finite 0⟩, ⟨.finish (.ok 8), false, .finite 1⟩,
      ⟨.decode (.ok 1), true, .finite 0⟩, ⟨.finish (.err .invalidInput), false, .finite 1⟩] := by
  rfl

/-! ## C29: `omit` and `optional` -/

/-- C29: `omit(false)` behaves as the inner decoder, with `Some` items. -/
theorem C29_present (D : Decoder σ α) (s : σ) (calls : List Call) :
    observe (omittableDecoder D) ⟨s, false⟩ calls = (observe D s calls).map (Seen.map id (mapItem some)) := by
  refine observe_sim (D := D) (D' := omittableDecoder D) (w := fun s => ⟨s, false⟩) (fun s b e => ?_) (fun s => ?_)
    (fun s => ?_) (fun s => rfl) s calls
  · simp only [omittableDecoder, id]
    rcases D.decode s b e with ⟨r, s'⟩
    cases r <;> rfl
  · simp only [omittableDecoder]
    rcases D.finish s with ⟨r, s'⟩
    cases r <;> rfl
  · simp [omittableDecoder]

/-- C29: `omit(true)` consumes nothing and yields `None`, whatever is called, and does not touch the
inner decoder: it is found unchanged when `do_omit(false)` is called. -/
theorem C29_omitted (D : Decoder σ α) (s : σ) (calls : List Call) :
    observe (omittableDecoder D) ⟨s, true⟩ calls = calls.map (fun c => ⟨match c with
      | .decode _ _ => .decode (.ok 0)
      | .finish => .finish (.ok none), true, .finite 0⟩) ∧
    calls.foldl (callState (omittableDecoder D)) ⟨s, true⟩ = ⟨s, true⟩ ∧
    (⟨s, true⟩ : OmitState σ).setDoOmit false = ⟨s, false⟩ := by
  have h : ∀ c, callState (omittableDecoder D) ⟨s, true⟩ c = ⟨s, true⟩ := by
    intro c; cases c <;> rfl
  refine ⟨?_, ?_, rfl⟩
  · induction calls with
    | nil => rfl
    | cons c cs ih =>
      simp only [observe, List.map_cons, h, ih]
      cases c <;> rfl
  · induction calls with
    | nil => rfl
    | cons c cs ih => rw [List.foldl_cons, h, ih]

/-- C29: `optional` passes `Some(x)` on as `x`. -/
theorem C29_some (E : Encoder σ α) (s : σ) (calls : List (ECall α)) :
    observeE (optionalEncoder E) s (calls.map (ECall.map some)) = observeE E s calls := by
  have := observeE_sim (E := E) (E' := optionalEncoder E) (w := id) (k := some) (f := id) (g := id)
    (fun _ _ _ => rfl) (fun _ _ => rfl) (fun _ => rfl) (fun _ => rfl) s calls
  rwa [map_eseen_id] at this

/-- C29: `None` is accepted at any time and leaves the encoder untouched. -/
theorem C29_none (E : Encoder σ α) (s : σ) : (optionalEncoder E).start s none = (.ok (), s) := rfl

/-- C29: so `Some(x)` is written as `x` and `None` as nothing, under every buffer schedule. -/
theorem C29_emits {strict : Bool} {E : Encoder σ α} {s₀ : σ} {dom enc} (h : Emits strict E s₀ dom enc) :
    Emits strict (optionalEncoder E) s₀ (fun o => ∀ x, o = some x → dom x)
      (fun o => match o with | some x => enc x | none => .ok []) :=
  fresh_emits ⟨codes_optional (emits_fresh h).1, (emits_fresh h).2.1, (emits_fresh h).2.2⟩

example : observe (omittableDecoder u8Decoder) ⟨fixInit 1, true⟩ [.decode [7] (Eos.new false), .finish] =
      [⟨.decode (.ok 0), true, .finite 0⟩, ⟨.finish (.ok none), true, .finite 0⟩] ∧
    observe (omittableDecoder u8Decoder) ⟨fixInit 1, false⟩ [.decode [7] (Eos.new false), .finish] =
      [⟨.decode (.ok 1), true, .finite 0⟩, ⟨.finish (.ok (some 7)), false, .finite 1⟩] :=
  ⟨rfl, rfl⟩

/-! ## C37: null codecs -/

/-- C37: the null decoder is always idle, consumes nothing and yields `()`, whatever is called. -/
theorem C37_decoder (calls : List Call) :
    observe nullDecoder () calls = calls.map (fun c => ⟨match c with
      | .decode _ _ => .decode (.ok 0)
      | .finish => .finish (.ok ()), true, .finite 0⟩) := by
  induction calls with
  | nil => rfl
  | cons c cs ih =>
    simp only [observe, List.map_cons]
    cases c <;> (simp only [callState, callAnswer]; rw [← ih]; rfl)

/-- C37: the null encoder is always idle and writes nothing, whatever is called. -/
theorem C37_encoder (calls : List (ECall Unit)) :
    observeE nullEncoder.toEncoder () calls = calls.map (fun c => ⟨match c with
      | .start _ => .start (.ok ())
      | .encode _ _ => .encode (.ok []), true, .finite 0⟩) ∧ nullEncoder.exact () = 0 := by
  refine ⟨?_, rfl⟩
  induction calls with
  | nil => rfl
  | cons c cs ih =>
    simp only [observeE, List.map_cons]
    cases c <;> (simp only [ecallState, ecallAnswer]; rw [← ih]; rfl)

/-- C37: pairing with a null decoder, on either side, changes nothing, for a caller who does not call
`decode` while the decoder is idle. -/
theorem C37_unit_decoder (D : Decoder σ α) (s : σ) (calls : List Call) (hp : Polite D s calls) :
    observe (tupleDecoder2 nullDecoder D) ((), s) calls =
      (observe D s calls).map (Seen.map id (mapItem fun x => ((), x))) ∧
    observe (tupleDecoder2 D nullDecoder) (s, ()) calls =
      (observe D s calls).map (Seen.map id (mapItem fun x => (x, ()))) := by
  constructor
  · refine observe_sim_polite (w := fun s => ((), s)) (fun s b e hi => ?_) (fun s => ?_) (fun s => ?_)
      (fun s => ?_) hp
    · simp only [tupleDecoder2, tryDecode, nullDecoder, if_true, id]
      rw [if_neg (by simp [hi]), if_neg (by omega), List.drop_zero]
      rcases D.decode s b e with ⟨r, s'⟩
      cases r with
      | ok n => simp only [Nat.zero_add]; cases D.isIdle s' <;> rfl
      | _ => rfl
    · simp only [tupleDecoder2, nullDecoder, Res.step]
      rcases D.finish s with ⟨r, s'⟩
      cases r <;> rfl
    · simp [tupleDecoder2, nullDecoder]
    · simp only [tupleDecoder2, nullDecoder, add_zero_left]
  · refine observe_sim_polite (w := fun s => (s, ())) (fun s b e hi => ?_) (fun s => ?_) (fun s => ?_)
      (fun s => ?_) hp
    · simp only [tupleDecoder2, tryDecode, nullDecoder, if_true, id]
      rw [if_neg (by simp [hi]), if_neg (by omega), List.drop_zero]
      rcases D.decode s b e with ⟨r, s'⟩
      cases r with
      | ok n => simp only [Nat.zero_add]; cases D.isIdle s' <;> rfl
      | _ => rfl
    · simp only [tupleDecoder2, nullDecoder]
      rcases D.finish s with ⟨r, s'⟩
      cases r <;> rfl
    · simp [tupleDecoder2, nullDecoder]
    · simp only [tupleDecoder2, nullDecoder, add_zero_left, add_zero_right]

/-- C37: the same for encoders. -/
theorem C37_unit_encoder (E : Encoder σ α) (s : σ) (calls : List (ECall α)) (hp : PoliteE E s calls) :
    observeE (tupleEncoder2 nullEncoder.toEncoder E) ((), s) (calls.map (ECall.map fun x => ((), x))) =
      observeE E s calls ∧
    observeE (tupleEncoder2 E nullEncoder.toEncoder) (s, ()) (calls.map (ECall.map fun x => (x, ()))) =
      observeE E s calls := by
  constructor
  · rw [← map_eseen_id (observeE E s calls)]
    refine observeE_sim_polite (E' := tupleEncoder2 nullEncoder.toEncoder E) (w := fun s => ((), s))
      (k := fun x => ((), x)) (fun s cap e hi => ?_) (fun s x => ?_) (fun s => ?_) (fun s => ?_) hp
    · simp only [tupleEncoder2, tryEncode, nullEncoder, if_true, id]
      rw [if_neg (by simp [hi]), if_neg (by simp), List.length_nil, Nat.sub_zero]
      rcases E.encode s cap e with ⟨r, s'⟩
      cases r with
      | ok n => simp only [List.nil_append]; cases E.isIdle s' <;> rfl
      | _ => rfl
    · simp only [tupleEncoder2, nullEncoder, Res.step, id]
      rcases E.start s x with ⟨r, s'⟩
      cases r <;> rfl
    · simp [tupleEncoder2, nullEncoder]
    · simp only [tupleEncoder2, nullEncoder, eadd_zero_left]
  · rw [← map_eseen_id (observeE E s calls)]
    refine observeE_sim_polite (E' := tupleEncoder2 E nullEncoder.toEncoder) (w := fun s => (s, ()))
      (k := fun x => (x, ())) (fun s cap e hi => ?_) (fun s x => ?_) (fun s => ?_) (fun s => ?_) hp
    · simp only [tupleEncoder2, tryEncode, nullEncoder, if_true, id]
      rw [if_neg (by simp [hi]), if_neg (by simp), List.length_nil, Nat.sub_zero]
      rcases E.encode s cap e with ⟨r, s'⟩
      cases r with
      | ok n => simp only [List.nil_append]; cases E.isIdle s' <;> rfl
      | _ => rfl
    · simp only [tupleEncoder2, nullEncoder, id]
      rcases E.start s x with ⟨r, s'⟩
      cases r <;> rfl
    · simp [tupleEncoder2, nullEncoder]
    · simp only [tupleEncoder2, nullEncoder, eadd_zero_left, eadd_zero_right]

example : Polite u16beDecoder (fixInit 2) [.decode [1] (Eos.new false), .finish, .decode [2, 3] (Eos.new true), .finish] ∧
    PoliteE u8Encoder.toEncoder .new [.start 7, .encode 0 (Eos.new false), .encode 9 (Eos.new true), .start 1] :=
  ⟨⟨rfl, rfl, trivial⟩, ⟨rfl, rfl, trivial⟩⟩

end Bytecodec.Props
