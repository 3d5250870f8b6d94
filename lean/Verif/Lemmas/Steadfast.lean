import Verif.Spec.Steadfast
import Verif.Spec.Pipeline
import Verif.Lemmas.CodesIo
import Verif.Lemmas.Writes
/-!
# Lemmas: encoders that are not affected by a message they refuse
-/
namespace Bytecodec

open Spec

variable {σ α ω : Type}

theorem accepts_pair {σ0 α0 σ1 α1 : Type} {E0 : Encoder σ0 α0} {E1 : Encoder σ1 α1}
    (h0 : ∀ s x, E0.isIdle s = true → (E0.start s x).1 = .ok ())
    (h1 : ∀ s x, E1.isIdle s = true → (E1.start s x).1 = .ok ()) :
    ∀ s x, (tupleEncoder2 E0 E1).isIdle s = true → ((tupleEncoder2 E0 E1).start s x).1 = .ok () := by
  intro s x hi
  simp only [tupleEncoder2, Bool.and_eq_true] at hi
  have a := h0 s.1 x.1 hi.1
  have b := h1 s.2 x.2 hi.2
  simp only [tupleEncoder2]
  rcases hq : E0.start s.1 x.1 with ⟨r, t⟩
  rw [hq] at a
  simp only at a
  subst a
  rcases hq' : E1.start s.2 x.2 with ⟨r', t'⟩
  rw [hq'] at b
  simp only at b
  subst b
  simp [Res.step]

theorem steadfast_refuses {always : Bool} {E : Encoder σ α} (h : Steadfast always E) :
    ∀ {s x k s'}, E.start s x = (.err k, s') → always = true ∨ E.isIdle s = true → s' = s := by
  induction h with
  | own h => intro s x k s'; exact h s x k s'
  | bytes f =>
    intro s x k s' hs _
    simp only [bytesEncoder] at hs
    split at hs <;> cases hs
    rfl
  | utf8 =>
    intro s x k s' hs _
    simp only [utf8Encoder, bytesEncoder] at hs
    split at hs <;> cases hs
    rfl
  | number f =>
    intro s x k s' hs _
    simp only [fixEncoder, bytesEncoder] at hs
    split at hs
    · split at hs <;> cases hs
      rfl
    · cases hs; rfl
  | null => intro s x k s' hs _; cases hs
  | padding =>
    intro s x k s' hs _
    simp only [paddingEncoder] at hs
    split at hs <;> cases hs
    rfl
  | monolithic f =>
    intro s x k s' hs _
    simp only [monolithicEncoder] at hs
    split at hs <;> cases hs
    rfl
  | @mapErr _ _ _ E g _ ih =>
    intro s x k s' hs hi
    simp only [mapErrEncoder] at hs
    rcases hq : E.start s x with ⟨r, t⟩
    rw [hq] at hs
    cases r <;> cases hs
    exact ih hq hi
  | mapFrom f _ ih => intro s x k s' hs hi; exact ih hs hi
  | tryMapFrom f _ ih =>
    intro s x k s' hs hi
    simp only [tryMapFromEncoder] at hs
    split at hs
    · exact ih hs hi
    · cases hs; rfl
  | «repeat» E =>
    intro s x k s' hs _
    simp only [repeatEncoder] at hs
    split at hs <;> cases hs
    rfl
  | optional _ ih =>
    intro s x k s' hs hi
    cases x with
    | none => cases hs
    | some x => exact ih hs hi
  | @length _ _ _ E _ ih =>
    intro s x k s' hs _
    simp only [lengthEncoder] at hs
    split at hs
    · next he =>
      rcases hq : E.start s.inner x with ⟨r, t⟩
      rw [hq] at hs
      cases r <;> cases hs
      have := ih hq (.inl rfl)
      subst this
      obtain ⟨i, a, b⟩ := s
      simp only at he
      subst he
      rfl
    · cases hs; rfl
  | @maxBytes _ _ _ E _ ih =>
    intro s x k s' hs hi
    simp only [maxBytesEncoder] at hs hi
    rcases hq : E.start s.inner x with ⟨r, t⟩
    rw [hq] at hs
    cases r <;> cases hs
    have := ih hq hi
    subst this
    rfl
  | @slice _ _ _ E _ ih =>
    intro s x k s' hs hi
    simp only [sliceEncoder] at hs hi
    rcases hq : E.start s.inner x with ⟨r, t⟩
    rw [hq] at hs
    cases r <;> cases hs
    have := ih hq hi
    subst this
    rfl
  | last E => intro s x; exact x.elim
  | @pair _ _ _ _ _ E0 E1 _ h1 ih =>
    intro s x k s' hs hi
    simp only [tupleEncoder2, Bool.and_eq_true] at hs hi
    rcases hi with hi | hi
    · cases hi
    · rcases hq : E0.start s.1 x.1 with ⟨r, t⟩
      rw [hq] at hs
      cases r with
      | ok u =>
        have h2 := h1 s.2 x.2 hi.2
        rcases hq2 : E1.start s.2 x.2 with ⟨r2, t2⟩
        rw [hq2] at h2
        simp only at h2
        subst h2
        simp only [Res.step] at hs
        rw [hq2] at hs
        cases hs
      | err k' =>
        cases hs
        have := ih hq (.inr hi.1)
        subst this
        rfl
      | _ => cases hs

theorem observeE_withoutRefused {E : Encoder σ α} (h : Steadfast true E) (s : σ) (calls : List (ECall α)) :
    observeE E s (withoutRefused E s calls) = (observeE E s calls).filter (fun x => !x.refused) := by
  induction calls generalizing s with
  | nil => rfl
  | cons c cs ih =>
    cases c with
    | start x =>
      rcases hq : E.start s x with ⟨r, s'⟩
      cases r with
      | err k =>
        have := steadfast_refuses h hq (.inl rfl)
        subst this
        simp [withoutRefused, hq, observeE, ecallAnswer, ecallState, ESeen.refused, ih]
      | _ => simp [withoutRefused, hq, observeE, ecallAnswer, ecallState, ESeen.refused, ih]
    | encode cap e => simp [withoutRefused, observeE, ecallAnswer, ecallState, ESeen.refused, ih]

theorem sendEach_spec_of {strict : Bool} {E : Encoder σ α} {P dom enc} (h : Codes strict E P dom enc)
    (hA : ∀ {s x k s'}, P s [] → E.isIdle s = true → dom x → enc x = .error k → E.start s x = (.err k, s') → s' = s)
    (msgs : List α) (hm : ∀ x ∈ msgs, dom x) {s : σ} (hp : P s []) (hi : E.isIdle s = true)
    (w : Bytes) :
    ∃ s', sendEach E vecWriter msgs s w =
      some (msgs.map (fun x => (enc x).map fun _ => ()), s', w ++ bytesOfAll enc msgs) ∧
        E.isIdle s' = true ∧ P s' [] := by
  induction msgs generalizing s w with
  | nil => exact ⟨s, by simp [sendEach, bytesOfAll], hi, hp⟩
  | cons x xs ih =>
    have hx := hm x (by simp)
    have hm' : ∀ y ∈ xs, dom y := fun y hy => hm y (by simp [hy])
    cases he : enc x with
    | error k =>
      have h1 := h.startErr hp hi hx he
      rcases hq : E.start s x with ⟨r, s'⟩
      rw [hq] at h1
      simp only at h1
      subst h1
      have := hA hp hi hx he hq
      subst this
      obtain ⟨t, k1, k2, k3⟩ := ih hm' hp hi w
      refine ⟨t, ?_, k2, k3⟩
      simp [sendEach, hq, k1, he, bytesOfAll, bytesOf, Except.map]
    | ok b =>
      obtain ⟨s1, h1, h2⟩ := h.startOk hp hi hx he
      obtain ⟨res, s2, w2, q1, q2⟩ := encodeAll_spec h sink_vec b.length s1 b w (Nat.le_refl _) h2
      rcases q2 with ⟨rfl, q3, q4, q5⟩ | ⟨k, pre, hr, q3, q4, hf⟩
      · obtain ⟨t, k1, k2, k3⟩ := ih hm' q4 q3 w2
        refine ⟨t, ?_, k2, k3⟩
        simp only [id] at q5
        subst q5
        simp [sendEach, h1, q1, k1, he, bytesOfAll, bytesOf, Except.map]
      · exact absurd hf vec_never_fails

theorem sendEach_spec {strict always : Bool} {E : Encoder σ α} {P dom enc} (h : Codes strict E P dom enc)
    (hA : Steadfast always E) (msgs : List α) (hm : ∀ x ∈ msgs, dom x) {s : σ} (hp : P s []) (hi : E.isIdle s = true)
    (w : Bytes) :
    ∃ s', sendEach E vecWriter msgs s w =
      some (msgs.map (fun x => (enc x).map fun _ => ()), s', w ++ bytesOfAll enc msgs) ∧
        E.isIdle s' = true ∧ P s' [] :=
  sendEach_spec_of h (fun _ hi _ _ hq => steadfast_refuses hA hq (.inr hi)) msgs hm hp hi w

theorem preEncode_refuses {always : Bool} {E : Encoder σ α} (hA : Steadfast always E) {s s' : PreEncodeState σ} {x : α}
    {k k' : ErrorKind} {i : σ} (hi : E.isIdle s.inner = true) (hr : E.start s.inner x = (.err k, i))
    (hq : (preEncodeEncoder E).toEncoder.start s x = (.err k', s')) : k' = k ∧ s' = s := by
  have := steadfast_refuses hA hr (.inr hi)
  subst this
  simp only [preEncodeEncoder, encodeIntoBytes, hr, Res.step] at hq
  cases hq
  exact ⟨rfl, rfl⟩

theorem sendEach_preEncode {strict always : Bool} {E : Encoder σ α} {P dom enc} (h : Codes strict E P dom enc)
    (hA : Steadfast always E) (msgs : List α) (hm : ∀ x ∈ msgs, dom x ∧ (bytesOf (enc x)).length < 2 ^ 63) {s : σ}
    (hp : P s []) (hi : E.isIdle s = true) (w : Bytes) :
    ∃ s', sendEach (preEncodeEncoder E).toEncoder vecWriter msgs (.new s) w =
      some (msgs.map (fun x => (enc x).map fun _ => ()), s', w ++ bytesOfAll enc msgs) ∧
        (preEncodeEncoder E).toEncoder.isIdle s' = true := by
  obtain ⟨s', h1, h2, _⟩ := sendEach_spec_of (codes_preEncode h) (by
    rintro ⟨j, p⟩ x k s' ⟨_, hp, hi⟩ _ ⟨hd, _⟩ hx hq
    have h1 := h.startErr hp hi hd hx
    rcases hr : E.start j x with ⟨r, i⟩
    simp only at h1
    rw [hr] at h1
    simp only at h1
    subst h1
    exact (preEncode_refuses hA hi hr hq).2) msgs hm (s := .new s) ⟨bytesLeft_new id, hp, hi⟩ rfl w
  exact ⟨s', h1, h2⟩

end Bytecodec
