import Verif.Model.Bytes
import Verif.Model.NullPadding
import Verif.Model.Tuple
import Verif.Model.DecCombinator
import Verif.Model.Fixnum
import Verif.Model.Monolithic
import Verif.Spec.Decode
/-!
# Reachable states of the combinators, in terms of their inner decoders
-/
set_option linter.unusedSimpArgs false

namespace Bytecodec

open Spec

variable {σ α β : Type}

theorem Spec.EosSane.mono {e : Eos} {m n : Nat} (h : EosSane e n) (hm : m ≤ n) : EosSane e m := by
  intro k hk; have := h k hk; omega

theorem Spec.EosSane.new (b : Bool) {n : Nat} (h : n < 2 ^ 64) : EosSane (Eos.new b) n := by
  intro k hk; cases b <;> simp [Eos.new] at hk; omega

theorem Spec.EosSane.newFalse {n : Nat} : EosSane (Eos.new false) n := by
  intro k hk; simp [Eos.new] at hk

theorem Spec.EosSane.drop {e : Eos} {b : Bytes} {k : Nat} (h : EosSane e b.length) :
    EosSane e (b.drop k).length := h.mono (by simp)

theorem Spec.Reach.inv {D : Decoder σ α} {s₀ : σ} {Inv : σ → Prop} (h0 : Inv s₀)
    (hd : ∀ s b e, Inv s → EosSane e b.length → Inv (D.decode s b e).2)
    (hf : ∀ s, Inv s → Inv (D.finish s).2) : ∀ {s}, Reach D s₀ s → Inv s := by
  intro s h
  induction h with
  | refl => exact h0
  | decode b e _ he ih => exact hd _ b e ih he
  | finish _ ih => exact hf _ ih

theorem Spec.Reach.trans {D : Decoder σ α} {s₀ s₁ s₂ : σ} (h1 : Reach D s₀ s₁) (h2 : Reach D s₁ s₂) :
    Reach D s₀ s₂ :=
  Reach.inv h1 (fun _ b e h he => h.decode b e he) (fun _ h => h.finish) h2

/-- The state after `tryDecode` is either unchanged or the state after one `decode`. -/
theorem tryDecode_reach {D : Decoder σ α} {s₀ s : σ} {off : Nat} {buf : Bytes} {e : Eos}
    (h : Reach D s₀ s) (he : EosSane e buf.length) :
    (∀ o s', tryDecode D s off buf e = .next o s' → Reach D s₀ s') ∧
    (∀ r s', tryDecode D s off buf e = .ret r s' → Reach D s₀ s') := by
  have hd : Reach D s₀ (D.decode s (buf.drop off) e).2 := h.decode _ _ he.drop
  unfold tryDecode
  constructor <;> intro a s' heq <;> (repeat' split at heq) <;> simp_all

/-! ## Projections -/

theorem reach_map {D : Decoder σ α} {f : α → β} {s₀ s : σ}
    (h : Reach (mapDecoder D f) s₀ s) : Reach D s₀ s := by
  refine Reach.inv (D := mapDecoder D f) (Inv := Reach D s₀) .refl (fun s b e h he => h.decode b e he) (fun s h => ?_) h
  have := h.finish
  simp only [mapDecoder]
  rcases hf : D.finish s with ⟨r, s'⟩
  rw [hf] at this
  cases r <;> exact this

theorem reach_tryMap {D : Decoder σ α} {f : α → Except ErrorKind β} {s₀ s : σ}
    (h : Reach (tryMapDecoder D f) s₀ s) : Reach D s₀ s := by
  refine Reach.inv (D := tryMapDecoder D f) (Inv := Reach D s₀) .refl (fun s b e h he => h.decode b e he) (fun s h => ?_) h
  have := h.finish
  simp only [tryMapDecoder]
  rcases hf : D.finish s with ⟨r, s'⟩
  rw [hf] at this
  cases r with
  | ok x => simp only [Res.step]; split <;> exact this
  | _ => exact this

theorem reach_utf8 {D : Decoder σ Bytes} {s₀ s : σ}
    (h : Reach (utf8Decoder D) s₀ s) : Reach D s₀ s := by
  refine Reach.inv (D := utf8Decoder D) (Inv := Reach D s₀) .refl (fun s b e h he => h.decode b e he) (fun s h => ?_) h
  have := h.finish
  simp only [utf8Decoder]
  rcases hf : D.finish s with ⟨r, s'⟩
  rw [hf] at this
  cases r with
  | ok x => simp only [Res.step]; split <;> exact this
  | _ => exact this

theorem reach_mapErr {D : Decoder σ α} {f : ErrorKind → ErrorKind} {s₀ s : σ}
    (h : Reach (mapErrDecoder D f) s₀ s) : Reach D s₀ s :=
  Reach.inv (D := mapErrDecoder D f) (Inv := Reach D s₀) .refl (fun _ b e h he => h.decode b e he) (fun _ h => h.finish) h

theorem reach_fix {f : Bytes → α} {s₀ s : CopyableState}
    (h : Reach (fixDecoder f) s₀ s) : Reach copyableBytesDecoder s₀ s := by
  refine Reach.inv (D := fixDecoder f) (Inv := Reach copyableBytesDecoder s₀) .refl (fun s b e h he => h.decode b e he) (fun s h => ?_) h
  have := h.finish
  simp only [fixDecoder]
  rcases hf : copyableBytesDecoder.finish s with ⟨r, s'⟩
  rw [hf] at this
  cases r <;> exact this

theorem reach_omit {D : Decoder σ α} {s₀ : OmitState σ} {s : OmitState σ}
    (h : Reach (omittableDecoder D) s₀ s) : Reach D s₀.inner s.inner ∧ s.doOmit = s₀.doOmit := by
  refine Reach.inv (Inv := fun s => Reach D s₀.inner s.inner ∧ s.doOmit = s₀.doOmit) ⟨.refl, rfl⟩ ?_ ?_ h
  · intro s b e ⟨h, ho⟩ he
    have := h.decode b e he
    simp only [omittableDecoder]
    split
    · exact ⟨h, ho⟩
    · rcases hf : D.decode s.inner b e with ⟨r, s'⟩
      rw [hf] at this
      cases r <;> exact ⟨this, ho⟩
  · intro s ⟨h, ho⟩
    have := h.finish
    simp only [omittableDecoder]
    split
    · exact ⟨h, ho⟩
    · rcases hf : D.finish s.inner with ⟨r, s'⟩
      rw [hf] at this
      cases r <;> exact ⟨this, ho⟩

theorem reach_pair {σ0 α0 σ1 α1 : Type} {D0 : Decoder σ0 α0} {D1 : Decoder σ1 α1} {s₀ s : σ0 × σ1}
    (h : Reach (tupleDecoder2 D0 D1) s₀ s) : Reach D0 s₀.1 s.1 ∧ Reach D1 s₀.2 s.2 := by
  refine Reach.inv (Inv := fun s => Reach D0 s₀.1 s.1 ∧ Reach D1 s₀.2 s.2) ⟨.refl, .refl⟩ ?_ ?_ h
  · intro s b e ⟨h0, h1⟩ he
    have t0 := tryDecode_reach (off := 0) h0 he
    simp only [tupleDecoder2]
    split
    · next r t hr => exact ⟨t0.2 _ _ hr, h1⟩
    · next o t hr =>
      have t1 := tryDecode_reach (off := o) h1 he
      split
      · next r u hu => exact ⟨t0.1 _ _ hr, t1.2 _ _ hu⟩
      · next r u hu => exact ⟨t0.1 _ _ hr, t1.1 _ _ hu⟩
  · intro s ⟨h0, h1⟩
    have f0 := h0.finish
    have f1 := h1.finish
    simp only [tupleDecoder2]
    rcases hf : D0.finish s.1 with ⟨r, s'⟩
    rw [hf] at f0
    cases r with
    | ok x =>
      simp only [Res.step]
      rcases hf : D1.finish s.2 with ⟨r, s'⟩
      rw [hf] at f1
      cases r <;> exact ⟨f0, f1⟩
    | _ => exact ⟨f0, h1⟩

theorem reach_andThen {σ0 α0 σ1 α1 : Type} {D0 : Decoder σ0 α0} {D1 : Decoder σ1 α1} {f : α0 → σ1}
    {s₀ : σ0} {s : σ0 × Option σ1} (h : Reach (andThenDecoder D0 D1 f) (s₀, none) s) :
    Reach D0 s₀ s.1 ∧ ∀ t, s.2 = some t → ∃ x, Reach D1 (f x) t := by
  refine Reach.inv (Inv := fun s => Reach D0 s₀ s.1 ∧ ∀ t, s.2 = some t → ∃ x, Reach D1 (f x) t)
    ⟨.refl, by simp⟩ ?_ ?_ h
  · intro s b e ⟨h0, h1⟩ he
    simp only [andThenDecoder]
    split
    · next t ht =>
      obtain ⟨x, hx⟩ := h1 t ht
      have t1 := tryDecode_reach (off := 0) hx he
      split
      · next r u hu => exact ⟨h0, by rintro _ ⟨⟩; exact ⟨x, t1.2 _ _ hu⟩⟩
      · next r u hu => exact ⟨h0, by rintro _ ⟨⟩; exact ⟨x, t1.1 _ _ hu⟩⟩
    · have t0 := tryDecode_reach (off := 0) h0 he
      split
      · next r u hu => exact ⟨t0.2 _ _ hu, by simp⟩
      · next o u hu =>
        have f0 := (t0.1 _ _ hu).finish
        rcases hf : D0.finish u with ⟨r, s'⟩
        rw [hf] at f0
        cases r with
        | ok x =>
          simp only [Res.step]
          have t1 := tryDecode_reach (off := o) (Reach.refl (D := D1) (s₀ := f x)) he
          split
          · next r u hu => exact ⟨f0, by rintro _ ⟨⟩; exact ⟨x, t1.2 _ _ hu⟩⟩
          · next r u hu => exact ⟨f0, by rintro _ ⟨⟩; exact ⟨x, t1.1 _ _ hu⟩⟩
        | _ => exact ⟨f0, by simp [Res.step]⟩
  · intro s ⟨h0, h1⟩
    simp only [andThenDecoder]
    split
    · exact ⟨h0, h1⟩
    · exact ⟨h0, by simp⟩

theorem reach_length {D : Decoder σ α} {s₀ s : LengthState σ} (hr : s₀.remaining < 2 ^ 64)
    (hx : s₀.expected < 2 ^ 64) (h : Reach (lengthDecoder D) s₀ s) :
    Reach D s₀.inner s.inner ∧ s.remaining < 2 ^ 64 ∧ s.expected = s₀.expected := by
  refine Reach.inv (Inv := fun s => Reach D s₀.inner s.inner ∧ s.remaining < 2 ^ 64 ∧
    s.expected = s₀.expected) ⟨.refl, hr, rfl⟩ ?_ ?_ h
  · intro s b e ⟨h, hr, hx⟩ he
    have hd := h.decode (b.take (min b.length s.remaining))
      (Eos.withRemainingBytes (.finite (s.remaining - min b.length s.remaining))) (by
        intro n hn; simp [Eos.withRemainingBytes] at hn; simp; omega)
    simp only [lengthDecoder]
    rcases hf : D.decode s.inner (b.take (min b.length s.remaining))
      (Eos.withRemainingBytes (.finite (s.remaining - min b.length s.remaining))) with ⟨r, s'⟩
    rw [hf] at hd
    cases r <;> simp only [Res.step] <;> (repeat' split) <;>
      first | exact ⟨h, hr, hx⟩ | exact ⟨hd, hr, hx⟩ | exact ⟨hd, by simp only; omega, hx⟩
  · intro s ⟨h, hr, hx'⟩
    have := h.finish
    simp only [lengthDecoder]
    split
    · rcases hf : D.finish s.inner with ⟨r, s'⟩
      rw [hf] at this
      cases r <;> exact ⟨this, by simp only [Res.step, hx', hx], hx'⟩
    · exact ⟨h, hr, hx'⟩

theorem reach_maxBytes {D : Decoder σ α} {s₀ s : MaxBytesState σ}
    (h : Reach (maxBytesDecoder D) s₀ s) : Reach D s₀.inner s.inner ∧ s.max = s₀.max := by
  refine Reach.inv (Inv := fun s => Reach D s₀.inner s.inner ∧ s.max = s₀.max) ⟨.refl, rfl⟩ ?_ ?_ h
  · intro s b e ⟨h, hm⟩ he
    have hd := h.decode b e he
    simp only [maxBytesDecoder]
    rcases hf : D.decode s.inner b e with ⟨r, s'⟩
    rw [hf] at hd
    cases r <;> simp only [Res.step] <;> (repeat' split) <;> exact ⟨by assumption, hm⟩
  · intro s ⟨h, hm⟩
    have := h.finish
    simp only [maxBytesDecoder]
    rcases hf : D.finish s.inner with ⟨r, s'⟩
    rw [hf] at this
    cases r <;> exact ⟨this, hm⟩

theorem back_sane {e e' : Eos} {n k : Nat} (h : e.back k = .ok e') (he : EosSane e (n + k)) :
    EosSane e' n := by
  obtain ⟨r⟩ := e
  cases r with
  | finite m =>
    have := he m rfl
    simp only [Eos.back] at h
    split at h
    · cases h; intro k hk; simp at hk; omega
    · cases h
  | infinite => simp only [Eos.back] at h; cases h; intro k hk; simp at hk
  | unknown => simp only [Eos.back] at h; cases h; intro k hk; simp at hk

theorem reach_slice {D : Decoder σ α} {s₀ s : SliceState σ}
    (h : Reach (sliceDecoder D) s₀ s) : Reach D s₀.inner s.inner := by
  refine Reach.inv (Inv := fun s => Reach D s₀.inner s.inner) .refl ?_ ?_ h
  · intro s b e h he
    simp only [sliceDecoder]
    split
    · next e' hb =>
      have hd := h.decode (b.take (min b.length s.consumable)) e' (by
        refine back_sane (k := b.length - min b.length s.consumable) hb (he.mono ?_)
        simp; omega)
      rcases hf : D.decode s.inner (b.take (min b.length s.consumable)) e' with ⟨r, s'⟩
      rw [hf] at hd
      cases r <;> simp only [Res.step] <;> (repeat' split) <;> exact hd
    · exact h
  · intro s h
    have := h.finish
    simp only [sliceDecoder]
    rcases hf : D.finish s.inner with ⟨r, s'⟩
    rw [hf] at this
    cases r <;> exact this

theorem reach_peekable {D : Decoder σ α} {s₀ s : PeekState σ α}
    (h : Reach (peekableDecoder D) s₀ s) : Reach D s₀.inner s.inner := by
  refine Reach.inv (Inv := fun s => Reach D s₀.inner s.inner) .refl ?_ ?_ h
  · intro s b e h he
    have hd := h.decode b e he
    simp only [peekableDecoder]
    split
    · rcases hf : D.decode s.inner b e with ⟨r, s'⟩
      rw [hf] at hd
      cases r with
      | ok n =>
        simp only [Res.step]
        split
        · have hd' := hd.finish
          rcases hf : D.finish s' with ⟨r, s''⟩
          rw [hf] at hd'
          cases r <;> exact hd'
        · exact hd
      | _ => exact hd
    · exact h
  · intro s h
    simp only [peekableDecoder]
    split <;> exact h

theorem reach_maybeEos {D : Decoder σ α} {s₀ s : MaybeEosState σ}
    (h : Reach (maybeEosDecoder D) s₀ s) : Reach D s₀.inner s.inner := by
  refine Reach.inv (Inv := fun s => Reach D s₀.inner s.inner) .refl ?_ ?_ h
  · intro s b e h he
    have hd := h.decode b (if !s.started && b.isEmpty && e.isReached then Eos.new false else e) (by
      split
      · exact EosSane.newFalse
      · exact he)
    simp only [maybeEosDecoder]
    rcases hf : D.decode s.inner b (if !s.started && b.isEmpty && e.isReached then Eos.new false else e)
      with ⟨r, s'⟩
    rw [hf] at hd
    cases r <;> exact hd
  · intro s h
    have := h.finish
    simp only [maybeEosDecoder]
    rcases hf : D.finish s.inner with ⟨r, s'⟩
    rw [hf] at this
    cases r <;> exact this

theorem Spec.ReachItem.reach {D : Decoder σ α} {s₀ s : σ} (h : ReachItem D s₀ s) : Reach D s₀ s := by
  induction h with
  | refl => exact .refl
  | decode b e _ he _ _ ih => exact ih.decode b e he
  | item b e _ he _ _ ih => exact (ih.decode b e he).finish
  | finish _ _ ih => exact ih.finish

/-- One round of the loops of `collect` and `collectn`. -/
theorem tryDecode_reachItem {D : Decoder σ α} {s₀ s : σ} {off : Nat} {buf : Bytes} {e : Eos}
    (h : ReachItem D s₀ s) (he : EosSane e buf.length) :
    (∀ o s', tryDecode D s off buf e = .next o s' → ReachItem D s₀ (D.finish s').2) ∧
    (∀ r s', tryDecode D s off buf e = .ret r s' → ReachItem D s₀ s') := by
  unfold tryDecode
  by_cases hi : D.isIdle s = true
  · simp only [hi, if_true]
    refine ⟨?_, by simp⟩
    rintro o s' ⟨⟩
    exact h.finish hi
  · have hi' : D.isIdle s = false := by simpa using hi
    by_cases hl : buf.length < off
    · simp only [hi', hl, if_true]
      refine ⟨by simp, ?_⟩
      rintro o s' ⟨⟩
      exact h
    · have hi2 := h.item (buf.drop off) e he.drop hi'
      have hd := h.decode (buf.drop off) e he.drop hi'
      rw [if_neg hi, if_neg hl]
      rcases hf : D.decode s (buf.drop off) e with ⟨r, s'⟩
      rw [hf] at hd hi2
      constructor
      · intro o t heq
        cases r with
        | ok n =>
          simp only at heq
          split at heq
          · next h2 => simp at heq; obtain ⟨_, rfl⟩ := heq; exact hi2 (by simp [Res.isOk, h2])
          · simp at heq
        | _ => simp at heq
      · intro r' t heq
        cases r with
        | ok n =>
          simp only at heq
          split at heq
          · simp at heq
          · next h2 => simp at heq; obtain ⟨_, rfl⟩ := heq; exact hd (by simp [Res.isOk, h2])
        | _ => simp at heq; obtain ⟨_, rfl⟩ := heq; exact hd (by simp [Res.isOk])

/-- The inner state at the exit of `collect`'s loop. -/
def LoopExit.st : LoopExit σ α → σ
  | .done _ s _ => s
  | .ret _ s _ => s

theorem collectLoop_reachItem {D : Decoder σ α} {s₀ : σ} {buf : Bytes} {e : Eos}
    (he : EosSane e buf.length) : ∀ off s items x, collectLoop D buf e off s items = some x →
      ReachItem D s₀ s → ReachItem D s₀ x.st := by
  apply collectLoop.partial_correctness D buf e
    (motive := fun _ s _ x => ReachItem D s₀ s → ReachItem D s₀ x.st)
  intro loop ih off s items x heq h
  have ht := tryDecode_reachItem (off := off) h he
  split at heq
  · split at heq
    · next hr => cases heq; exact ht.2 _ _ hr
    · next o s' hr =>
      have hf := ht.1 _ _ hr
      split at heq <;> rename_i hfin <;> rw [hfin] at hf
      · exact ih _ _ _ _ heq hf
      all_goals (cases heq; exact hf)
  · cases heq; exact h

theorem reach_collect {D : Decoder σ α} {s₀ s : CollectState σ α}
    (h : Reach (collectDecoder D) s₀ s) : ReachItem D s₀.inner s.inner := by
  refine Reach.inv (Inv := fun s => ReachItem D s₀.inner s.inner) .refl ?_ ?_ h
  · intro s b e h he
    simp only [collectDecoder]
    split
    · exact h
    · split
      · exact h
      · next hl => exact collectLoop_reachItem he _ _ _ _ hl h
      · next hl => exact collectLoop_reachItem he _ _ _ _ hl h
  · intro s h
    simp only [collectDecoder]
    split <;> exact h

/-- The inner state at the exit of `collectn`'s loop. -/
def LoopExitN.st : LoopExitN σ α → σ
  | .done _ s _ _ => s
  | .ret _ s _ _ => s

theorem collectNLoop_reachItem {D : Decoder σ α} {s₀ : σ} {buf : Bytes} {e : Eos}
    (he : EosSane e buf.length) : ∀ n off s items, ReachItem D s₀ s →
      ReachItem D s₀ (collectNLoop D buf e n off s items).st := by
  intro n
  induction n with
  | zero => intro off s items h; exact h
  | succ n ih =>
    intro off s items h
    have ht := tryDecode_reachItem (off := off) h he
    simp only [collectNLoop]
    split
    · split
      · next hr => exact ht.2 _ _ hr
      · next o s' hr =>
        have hf := ht.1 _ _ hr
        split <;> rename_i hfin <;> rw [hfin] at hf
        · exact ih _ _ _ hf
        all_goals exact hf
    · exact h

theorem reach_collectN {D : Decoder σ α} {s₀ s : CollectNState σ α}
    (h : Reach (collectNDecoder D) s₀ s) : ReachItem D s₀.inner s.inner := by
  refine Reach.inv (Inv := fun s => ReachItem D s₀.inner s.inner) .refl ?_ ?_ h
  · intro s b e h he
    have := collectNLoop_reachItem he s.remaining 0 s.inner s.items h
    simp only [collectNDecoder]
    split
    · next hl => rw [hl] at this; exact this
    · next hl => rw [hl] at this; split <;> exact this
  · intro s h
    simp only [collectNDecoder]
    split <;> exact h

end Bytecodec
