import Verif.Spec.Vetted
import Verif.Props.Interchange
import Verif.Lemmas.LawsEnc
import Verif.Lemmas.DecodeExact
/-!
# Lemmas: checks of complete items can be moved to the outside
-/
namespace Bytecodec

open Spec

variable {σ τ α β γ ρ : Type}

theorem Except_map_map {ε : Type} (x : Except ε α) (f : α → β) (g : β → γ) :
    Except.map g (Except.map f x) = Except.map (fun y => g (f y)) x := by
  cases x <;> rfl

theorem length_tryMap_eq (D : Decoder σ α) (v : α → Except ErrorKind β) :
    lengthDecoder (tryMapDecoder D v) = tryMapDecoder (lengthDecoder D) v := by
  refine Decoder.ext' (fun _ _ _ => rfl) (fun s => ?_) (fun _ => rfl) fun _ => rfl
  simp only [lengthDecoder, tryMapDecoder]
  split
  · generalize D.finish s.inner = p
    obtain ⟨r, t⟩ := p
    cases r with
    | ok x => simp only [Res.step]; cases v x <;> rfl
    | _ => rfl
  · rfl

theorem maxBytes_tryMap_eq (D : Decoder σ α) (v : α → Except ErrorKind β) :
    maxBytesDecoder (tryMapDecoder D v) = tryMapDecoder (maxBytesDecoder D) v := by
  refine Decoder.ext' (fun _ _ _ => rfl) (fun s => ?_) (fun _ => rfl) fun _ => rfl
  simp only [maxBytesDecoder, tryMapDecoder]
  generalize D.finish s.inner = p
  obtain ⟨r, t⟩ := p
  cases r with
  | ok x => simp only [Res.step]; cases v x <;> rfl
  | _ => rfl

theorem slice_tryMap_eq (D : Decoder σ α) (v : α → Except ErrorKind β) :
    sliceDecoder (tryMapDecoder D v) = tryMapDecoder (sliceDecoder D) v := by
  refine Decoder.ext' (fun _ _ _ => rfl) (fun s => ?_) (fun _ => rfl) fun _ => rfl
  simp only [sliceDecoder, tryMapDecoder]
  generalize D.finish s.inner = p
  obtain ⟨r, t⟩ := p
  cases r with
  | ok x => simp only [Res.step]; cases v x <;> rfl
  | _ => rfl

theorem maybeEos_tryMap_eq (D : Decoder σ α) (v : α → Except ErrorKind β) :
    maybeEosDecoder (tryMapDecoder D v) = tryMapDecoder (maybeEosDecoder D) v := by
  refine Decoder.ext' (fun _ _ _ => rfl) (fun s => ?_) (fun _ => rfl) fun _ => rfl
  simp only [maybeEosDecoder, tryMapDecoder]
  generalize D.finish s.inner = p
  obtain ⟨r, t⟩ := p
  cases r with
  | ok x => simp only [Res.step]; cases v x <;> rfl
  | _ => rfl

theorem omittable_tryMap_eq (D : Decoder σ α) (v : α → Except ErrorKind β) :
    omittableDecoder (tryMapDecoder D v) = tryMapDecoder (omittableDecoder D)
      (fun x => match x with
        | none => .ok none
        | some x => (v x).map some) := by
  refine Decoder.ext' (fun _ _ _ => rfl) (fun s => ?_) (fun _ => rfl) fun _ => rfl
  simp only [omittableDecoder, tryMapDecoder]
  split
  · rfl
  · generalize D.finish s.inner = p
    obtain ⟨r, t⟩ := p
    cases r with
    | ok x => simp only [Res.step]; cases v x <;> rfl
    | _ => rfl

theorem pair_tryMap_eq {σ0 α0 : Type} (D0 : Decoder σ0 α0) (D : Decoder σ α) (v : α → Except ErrorKind β) :
    tupleDecoder2 D0 (tryMapDecoder D v) = tryMapDecoder (tupleDecoder2 D0 D)
      (fun p => (v p.2).map fun y => (p.1, y)) := by
  refine Decoder.ext' (fun _ _ _ => rfl) (fun s => ?_) (fun _ => rfl) fun _ => rfl
  simp only [tupleDecoder2, tryMapDecoder]
  generalize D0.finish s.1 = p0
  obtain ⟨r0, t0⟩ := p0
  cases r0 with
  | ok x0 =>
    simp only [Res.step]
    generalize D.finish s.2 = p
    obtain ⟨r, t⟩ := p
    cases r with
    | ok x => simp only; cases v x <;> rfl
    | _ => rfl
  | _ => rfl

theorem andThen_tryMap_eq {σ0 α0 : Type} (D0 : Decoder σ0 α0) (D : Decoder σ α) (f : α0 → σ)
    (v : α → Except ErrorKind β) :
    andThenDecoder D0 (tryMapDecoder D v) f = tryMapDecoder (andThenDecoder D0 D f) v := by
  refine Decoder.ext' (fun _ _ _ => rfl) (fun s => ?_) (fun _ => rfl) fun _ => rfl
  obtain ⟨s0, s1⟩ := s
  cases s1 with
  | none => rfl
  | some s1 =>
    simp only [andThenDecoder, tryMapDecoder]
    generalize D.finish s1 = p
    obtain ⟨r, s'⟩ := p
    cases r with
    | ok x => simp only [Res.step]; cases v x <;> rfl
    | _ => rfl

theorem tryMap_id_eq (D : Decoder σ α) : tryMapDecoder D .ok = D := by
  refine Decoder.ext' (fun _ _ _ => rfl) (fun s => ?_) (fun _ => rfl) fun _ => rfl
  simp only [tryMapDecoder]
  generalize D.finish s = p
  obtain ⟨r, s'⟩ := p
  cases r <;> rfl

theorem map_tryMap_eq (D : Decoder σ α) (v : α → Except ErrorKind β) (f : β → γ) :
    mapDecoder (tryMapDecoder D v) f = tryMapDecoder D (fun x => (v x).map f) := by
  refine Decoder.ext' (fun _ _ _ => rfl) (fun s => ?_) (fun _ => rfl) fun _ => rfl
  simp only [mapDecoder, tryMapDecoder]
  generalize D.finish s = p
  obtain ⟨r, s'⟩ := p
  cases r with
  | ok x => simp only [Res.step]; cases v x <;> rfl
  | _ => rfl

theorem vetted_alike {D : Decoder σ β} {s : σ} {D' : Decoder τ α} {s' : τ} {v : α → Except ErrorKind β}
    (h : Vetted D s D' s' v) : Alike D s (tryMapDecoder D' v) s' := by
  induction h with
  | unchecked D s => rw [tryMap_id_eq]; exact .refl D s
  | tryMap f _ ih =>
    have := Props.C65_substitution (.tryMap f (.part ih))
    rwa [tryMap_tryMap_eq] at this
  | utf8 _ ih =>
    have := Props.C65_substitution (.utf8 (.part ih))
    rwa [utf8_eq, utf8_eq, tryMap_tryMap_eq, ← utf8_eq] at this
  | map f _ ih =>
    have := Props.C65_substitution (.map f (.part ih))
    rwa [map_tryMap_eq] at this
  | mapErr g _ ih =>
    have := Props.C65_substitution (.mapErr g (.part ih))
    rwa [mapErr_tryMap_eq] at this
  | omittable doOmit _ ih =>
    have := Props.C65_substitution (.omittable doOmit (.part ih))
    rwa [omittable_tryMap_eq] at this
  | length n _ ih =>
    have := Props.C65_substitution (.length n (.part ih))
    rwa [length_tryMap_eq] at this
  | maxBytes n _ ih =>
    have := Props.C65_substitution (.maxBytes n (.part ih))
    rwa [maxBytes_tryMap_eq] at this
  | slice n _ ih =>
    have := Props.C65_substitution (.slice n (.part ih))
    rwa [slice_tryMap_eq] at this
  | maybeEos _ ih =>
    have := Props.C65_substitution (.maybeEos (.part ih))
    rwa [maybeEos_tryMap_eq] at this
  | pair D0 s0 _ ih =>
    have := Props.C65_substitution (.pair (.part (.refl D0 s0)) (.part ih))
    rwa [pair_tryMap_eq] at this
  | andThen D0 s0 f f' _ ih =>
    have := Props.C65_substitution (.andThen f f' (.part (.refl D0 s0)) (fun x => .part (ih x)))
    rwa [andThen_tryMap_eq] at this

theorem observe_tryMap (D : Decoder τ α) (v : α → Except ErrorKind β) (s : τ) (calls : List Call) :
    observe (tryMapDecoder D v) s calls = (observe D s calls).map (Seen.map id (tryItem v)) := by
  induction calls generalizing s with
  | nil => rfl
  | cons c cs ih =>
    have key : callState (tryMapDecoder D v) s c = callState D s c ∧
        Seen.map id (tryItem v) ⟨callAnswer D s c, D.isIdle (callState D s c), D.requiring (callState D s c)⟩ =
          ⟨callAnswer (tryMapDecoder D v) s c, D.isIdle (callState D s c), D.requiring (callState D s c)⟩ := by
      cases c with
      | decode b e => exact ⟨rfl, rfl⟩
      | finish =>
        simp only [callState, callAnswer, tryMapDecoder, Seen.map]
        generalize D.finish s = p
        obtain ⟨r, s'⟩ := p
        cases r with
        | ok x => simp only [Res.step, tryItem]; cases v x <;> exact ⟨rfl, rfl⟩
        | _ => exact ⟨rfl, rfl⟩
    simp only [observe, List.map_cons]
    rw [key.2, key.1, ih]
    rfl

/-- The answer of `decode_exact` with a check. -/
theorem decodeExact_tryMap (D : Decoder τ α) (v : α → Except ErrorKind β) (R : Reader ρ) :
    ∀ (s : τ) (r : ρ) (y : Res α × τ × ρ), decodeExact D R s r = some y →
      decodeExact (tryMapDecoder D v) R s r = some (tryItem v y.1, y.2.1, y.2.2) := by
  apply decodeExact.partial_correctness D R
    (motive := fun s r y => decodeExact (tryMapDecoder D v) R s r = some (tryItem v y.1, y.2.1, y.2.2))
  intro loop ih s r x heq
  have hreq : (tryMapDecoder D v).requiring s = D.requiring s := rfl
  rw [decodeExact, hreq]
  generalize D.requiring s = q at heq ⊢
  cases q
  all_goals simp only at heq ⊢
  case' finite n => generalize (if min n 1024 ≠ 0 then R.read r (min n 1024) else (.data [], r)) = p at heq ⊢
  case' infinite => generalize (if 1024 ≠ 0 then R.read r 1024 else (.data [], r)) = p at heq ⊢
  case' unknown => generalize (if 1 ≠ 0 then R.read r 1 else (.data [], r)) = p at heq ⊢
  all_goals
    obtain ⟨a, r'⟩ := p
    cases a with
    | error k => cases heq; rfl
    | data bs =>
      simp only at heq ⊢
      split at heq
      · next hlt => rw [if_pos hlt]; cases heq; rfl
      · next hlt =>
        rw [if_neg hlt]
        have hd : ∀ e, (tryMapDecoder D v).decode s bs e = D.decode s bs e := fun _ => rfl
        rw [hd]
        split at heq
        · next n s' hdec =>
          (try rw [hdec])
          (try simp only)
          split at heq
          · next hc => rw [if_pos hc]; cases heq; rfl
          · next hc =>
            rw [if_neg hc]
            have hi' : (tryMapDecoder D v).isIdle s' = D.isIdle s' := rfl
            rw [hi']
            split at heq
            · next hi =>
              rw [if_pos hi]
              cases heq
              simp only [tryMapDecoder]
              generalize D.finish s' = p
              obtain ⟨z, t⟩ := p
              cases z with
              | ok x => simp only [Res.step, tryItem]; cases v x <;> rfl
              | _ => rfl
            · next hi => rw [if_neg hi]; exact ih _ _ _ heq
        all_goals (next hdec => (try rw [hdec]); cases heq; rfl)

theorem readVerdicts_vetted {D : Decoder σ β} {D' : Decoder τ α} {v : α → Except ErrorKind β} (R : Reader ρ) (k : Nat)
    {s : σ} {s' t : τ} {r r' : ρ} {xs : List α} (h : Alike D s (tryMapDecoder D' v) s')
    (hk : readItems D' R k s' r = some (xs, t, r')) :
    ∃ u, readVerdicts D R k s r = some (xs.map v, u, r') ∧ Alike D u (tryMapDecoder D' v) t := by
  induction k generalizing s s' r xs with
  | zero =>
    simp only [readItems, Option.some.injEq, Prod.mk.injEq] at hk
    obtain ⟨rfl, rfl, rfl⟩ := hk
    exact ⟨s, rfl, h⟩
  | succ k ih =>
    simp only [readItems] at hk
    split at hk
    · next x s1 r1 hd =>
      rcases hq : readItems D' R k s1 r1 with _ | y
      · rw [hq] at hk; cases hk
      · rw [hq] at hk
        simp only [Option.map_some, Option.some.injEq, Prod.mk.injEq] at hk
        obtain ⟨rfl, h2⟩ := hk
        obtain ⟨ys, y2⟩ := y
        simp only at h2
        subst h2
        have h3 := decodeExact_tryMap D' v R _ _ _ hd
        rcases Props.C65_decode_exact h R r with ⟨_, h4⟩ | ⟨a, u, u', r2, h4, h5, h6⟩
        · rw [h3] at h4; cases h4
        · rw [h3] at h5
          simp only [Option.some.injEq, Prod.mk.injEq] at h5
          obtain ⟨rfl, rfl, rfl⟩ := h5
          obtain ⟨w, h7, h8⟩ := ih h6 hq
          refine ⟨w, ?_, h8⟩
          simp only [readVerdicts, h4, tryItem]
          cases hv : v x <;> simp [h7, hv]
    · cases hk

end Bytecodec
