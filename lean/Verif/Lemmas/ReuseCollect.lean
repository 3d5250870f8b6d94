import Verif.Lemmas.ReuseMany
import Verif.Lemmas.Safe
import Verif.Lemmas.Idle
/-!
# Lemmas for C55: `collect` after its items
-/
namespace Bytecodec

open Spec

variable {σ α β : Type}

theorem Spec.FedWith.fed {P : Bytes → Eos → Prop} {D : Decoder σ α} {s₀ s : σ} (h : FedWith P D s₀ s) : Fed D s₀ s := by
  induction h with
  | new => exact .new
  | decode _ _ hi hd ih => exact ih.decode hi hd

theorem Spec.FedWith.reach {D : Decoder σ α} {s₀ s : σ} (h : FedWith (fun b e => EosSane e b.length) D s₀ s) :
    Reach D s₀ s := by
  induction h with
  | new => exact .refl
  | @decode s s' b e n _ he _ hd ih =>
    have := ih.decode b e he
    rw [hd] at this
    exact this

theorem same_symm {D : Decoder σ α} {s t : σ} (h : Same D s t) : Same D t s :=
  ⟨h.1.symm, h.2.1.symm, fun c => (h.2.2 c).symm⟩

/-- Two exits of the loop of `collect` that agree. -/
inductive AgreeL (R : σ → σ → Prop) : LoopExit σ α → LoopExit σ α → Prop
  | done (o : Nat) {s t : σ} (items : List α) : R s t → AgreeL R (.done o s items) (.done o t items)
  | ret (r : Res Nat) {s t : σ} (items : List α) : R s t → AgreeL R (.ret r s items) (.ret r t items)

theorem collectLoop_same {D : Decoder σ α} (b : Bytes) (e : Eos) : ∀ o s items x,
    collectLoop D b e o s items = some x → ∀ t, Same D s t →
      ∃ y, collectLoop D b e o t items = some y ∧ AgreeL (Same D) x y := by
  apply collectLoop.partial_correctness D b e
    (motive := fun o s items x => ∀ t, Same D s t →
      ∃ y, collectLoop D b e o t items = some y ∧ AgreeL (Same D) x y)
  intro loop ih o s items x heq t hst
  rw [collectLoop]
  have a := (bisim_same D).tryDecode hst o b e
  split at heq
  · rw [if_pos ‹_›]
    cases hq : tryDecode D s o b e with
    | ret r s' =>
      rw [hq] at a heq
      cases hq' : tryDecode D t o b e with
      | next o'' u => rw [hq'] at a; cases a
      | ret r' u =>
        rw [hq'] at a
        cases a with
        | ret _ hr => cases heq; exact ⟨_, rfl, .ret _ _ hr⟩
    | next o' s' =>
      rw [hq] at a heq
      cases hq' : tryDecode D t o b e with
      | ret r' u => rw [hq'] at a; cases a
      | next o'' u =>
        rw [hq'] at a
        cases a with
        | next _ hr =>
          obtain ⟨h1, h2⟩ := (bisim_same D).finish hr
          simp only at heq ⊢
          generalize D.finish s' = p at h1 h2 heq
          generalize D.finish u = q at h1 h2
          obtain ⟨r, s''⟩ := p
          obtain ⟨r', u''⟩ := q
          simp only at h1 h2
          subst h1
          cases r with
          | ok x' => exact ih _ _ _ _ heq _ h2
          | err k => cases heq; exact ⟨_, rfl, .ret _ _ h2⟩
          | panic => cases heq; exact ⟨_, rfl, .ret _ _ h2⟩
          | capacity => cases heq; exact ⟨_, rfl, .ret _ _ h2⟩
          | diverge => cases heq; exact ⟨_, rfl, .ret _ _ h2⟩
  · rw [if_neg ‹_›]
    cases heq
    exact ⟨_, rfl, .done _ _ hst⟩

/-- States of `collect` that differ in nothing one can see. -/
def SameCollect (D : Decoder σ α) (s t : CollectState σ α) : Prop :=
  Same D s.inner t.inner ∧ s.items = t.items ∧ s.eos = t.eos

theorem bisim_collect (D : Decoder σ α) : Bisim (collectDecoder D) (SameCollect D) := by
  constructor
  · rintro ⟨s, si, se⟩ ⟨t, ti, te⟩ ⟨h1, h2, h3⟩; exact h3
  · rintro ⟨s, si, se⟩ ⟨t, ti, te⟩ ⟨h1, h2, h3⟩
    simp only at h1 h3
    simp only [collectDecoder, h3, h1.2.1]
  · rintro ⟨s, si, se⟩ ⟨t, ti, te⟩ ⟨h1, h2, h3⟩ b e
    simp only at h1 h2 h3
    subst h2 h3
    simp only [collectDecoder]
    refine Agree.ite _ ⟨rfl, h1, rfl, rfl⟩ ?_
    cases hl : collectLoop D b e 0 s si with
    | some x =>
      obtain ⟨y, hy, a⟩ := collectLoop_same b e _ _ _ _ hl _ h1
      rw [hy]
      cases a with
      | done o items hr => exact ⟨rfl, hr, rfl, rfl⟩
      | ret r items hr => exact ⟨rfl, hr, rfl, rfl⟩
    | none =>
      cases hl' : collectLoop D b e 0 t si with
      | none => exact ⟨rfl, h1, rfl, rfl⟩
      | some y =>
        obtain ⟨x, hx, _⟩ := collectLoop_same b e _ _ _ _ hl' _ (same_symm h1)
        rw [hl] at hx
        cases hx
  · rintro ⟨s, si, se⟩ ⟨t, ti, te⟩ ⟨h1, h2, h3⟩
    simp only at h1 h2 h3
    subst h2 h3
    simp only [collectDecoder]
    exact Agree.ite _ ⟨rfl, h1, rfl, rfl⟩ ⟨rfl, h1, rfl, rfl⟩

/-- Once its loop has gone through a chunk, `collect` is between two items. -/
theorem collectLoop_fed {D : Decoder σ α} {s₀ : σ} (hD : Renews D s₀) (b : Bytes) (e : Eos) : ∀ o s items x,
    collectLoop D b e o s items = some x → LikeFed D s₀ s →
      (∀ o' s' items', x = .done o' s' items' → LikeFed D s₀ s' ∧ (Same D s s₀ ∨ o < b.length → Same D s' s₀)) ∧
      (∀ k s' items', x = .ret (.ok k) s' items' → LikeFed D s₀ s') := by
  apply collectLoop.partial_correctness D b e
    (motive := fun o s items x => LikeFed D s₀ s →
      (∀ o' s' items', x = .done o' s' items' → LikeFed D s₀ s' ∧ (Same D s s₀ ∨ o < b.length → Same D s' s₀)) ∧
      (∀ k s' items', x = .ret (.ok k) s' items' → LikeFed D s₀ s'))
  intro loop ih o s items x heq hs
  split at heq
  · cases ht : tryDecode D s o b e with
    | ret r s' =>
      rw [ht] at heq
      cases heq
      exact ⟨fun _ _ _ h => (by cases h), fun _ _ _ h => (by cases h; exact (likeFed_tryDecode hs).2 _ ht)⟩
    | next o' s' =>
      have hs' := (likeFed_tryDecode hs).1 _ ht
      rw [ht] at heq
      simp only at heq
      split at heq
      · have hsame := likeFed_finish hD hs' ‹_›
        obtain ⟨h1, h2⟩ := ih _ _ _ _ heq ⟨s₀, .new, hsame⟩
        exact ⟨fun _ _ _ h => ⟨(h1 _ _ _ h).1, fun _ => (h1 _ _ _ h).2 (.inl hsame)⟩, h2⟩
      all_goals (cases heq; exact ⟨fun _ _ _ h => (by cases h), fun _ _ _ h => (by cases h)⟩)
  · cases heq
    refine ⟨fun _ _ _ h => ?_, fun _ _ _ h => (by cases h)⟩
    cases h
    exact ⟨hs, fun h => h.elim id fun h => absurd h ‹_›⟩

theorem collect_fed {D : Decoder σ α} {s₀ : σ} (hD : Renews D s₀) {s : CollectState σ α}
    (h : FedWith EndsWithBytes (collectDecoder D) ⟨s₀, [], false⟩ s) :
    LikeFed D s₀ s.inner ∧ (s.eos = true → Same D s.inner s₀) := by
  induction h with
  | new => exact ⟨⟨s₀, .new, same_refl _ _⟩, fun h => by cases h⟩
  | @decode s s' b e m _ hp _ hd ih =>
    simp only [collectDecoder] at hd
    split at hd
    · cases hd; exact ih
    · cases hq : collectLoop D b e 0 s.inner s.items with
      | none => rw [hq] at hd; cases congrArg Prod.fst hd
      | some x =>
        obtain ⟨h1, h2⟩ := collectLoop_fed hD b e _ _ _ _ hq ih.1
        rw [hq] at hd
        cases x with
        | ret r i items => cases hd; exact ⟨h2 _ _ _ rfl, fun h => absurd h ‹_›⟩
        | done o i items =>
          cases hd
          refine ⟨(h1 _ _ _ rfl).1, fun h => (h1 _ _ _ rfl).2 (.inr ?_)⟩
          simp only at h
          split at h
          · exact List.length_pos_iff.mpr (hp ‹_›)
          · exact absurd h ‹_›

theorem collect_renews {D : Decoder σ α} {s₀ : σ} (hD : Renews D s₀) {s s' : CollectState σ α} {xs : List α}
    (h : FedWith EndsWithBytes (collectDecoder D) ⟨s₀, [], false⟩ s)
    (hf : (collectDecoder D).finish s = (.ok xs, s')) : Same (collectDecoder D) s' ⟨s₀, [], false⟩ := by
  obtain ⟨_, h2⟩ := collect_fed hD h
  simp only [collectDecoder] at hf
  split at hf
  · cases hf; exact (bisim_collect D).same ⟨h2 ‹_›, rfl, rfl⟩
  · cases congrArg Prod.fst hf

theorem bisim_length {D : Decoder σ α} {R : σ → σ → Prop} (hb : Bisim D R) : Bisim (lengthDecoder D)
    (fun s t => R s.inner t.inner ∧ s.expected = t.expected ∧ s.remaining = t.remaining) := by
  constructor
  · rintro ⟨s, sx, sr⟩ ⟨t, tx, tr⟩ ⟨h1, h2, h3⟩; exact hb.idle h1
  · rintro ⟨s, sx, sr⟩ ⟨t, tx, tr⟩ ⟨h1, h2, h3⟩
    simp only at h3
    simp only [lengthDecoder, h3]
  · rintro ⟨s, sx, sr⟩ ⟨t, tx, tr⟩ ⟨h1, h2, h3⟩ b e
    simp only at h1 h2 h3
    subst h2 h3
    simp only [lengthDecoder]
    have hgo := Agree.step (hb.agree h1 (b.take (min b.length sr))
        (Eos.withRemainingBytes (.finite (sr - min b.length sr))))
      (S := fun (s t : LengthState σ) => R s.inner t.inner ∧ s.expected = t.expected ∧ s.remaining = t.remaining)
      (w := fun i => ⟨i, sx, sr⟩) (w' := fun i => ⟨i, sx, sr⟩)
      (k := fun size i => if sr < size then (.panic, ⟨i, sx, sr⟩) else (.ok size, ⟨i, sx, sr - size⟩))
      (k' := fun size i => if sr < size then (.panic, ⟨i, sx, sr⟩) else (.ok size, ⟨i, sx, sr - size⟩))
      (fun _ _ h => ⟨h, rfl, rfl⟩)
      (fun x _ _ h => Agree.ite _ (.mk ⟨h, rfl, rfl⟩) (.mk ⟨h, rfl, rfl⟩))
    cases e.remainingBytes.toU64 with
    | none => exact hgo
    | some m => exact Agree.ite _ (.mk ⟨h1, rfl, rfl⟩) (Agree.ite _ (.mk ⟨h1, rfl, rfl⟩) hgo)
  · rintro ⟨s, sx, sr⟩ ⟨t, tx, tr⟩ ⟨h1, h2, h3⟩
    simp only at h1 h2 h3
    subst h2 h3
    simp only [lengthDecoder]
    exact Agree.ite _ (Agree.step (hb.agreeF h1) (fun _ _ h => ⟨h, rfl, rfl⟩) fun _ _ _ h => .mk ⟨h, rfl, rfl⟩)
      (.mk ⟨h1, rfl, rfl⟩)

theorem length_collect_fed {D : Decoder σ α} {s₀ : σ} {n : Nat} (hD : Renews D s₀) (hs : SafeFrom D s₀)
    (hp : Productive D s₀) (he : EosStrict D s₀) (hn : n < 2 ^ 64) {s : LengthState (CollectState σ α)}
    (h : FedWith (fun b e => EosSane e b.length) (lengthDecoder (collectDecoder D)) (.new ⟨s₀, [], false⟩ n) s) :
    s.expected = n ∧ LikeFed D s₀ s.inner.inner ∧ (s.inner.eos = true ∨ s.remaining = 0 → Same D s.inner.inner s₀) := by
  induction h with
  | new => exact ⟨rfl, ⟨s₀, .new, same_refl _ _⟩, fun _ => same_refl _ _⟩
  | @decode s s' b e m hfed hsane _ hd ih =>
    have hr := reach_length (D := collectDecoder D) (s₀ := .new ⟨s₀, [], false⟩ n) hn hn hfed.reach
    obtain ⟨hr1, hr2, _⟩ := hr
    have hri := reach_collect hr1
    obtain ⟨ih0, ih1, ih2⟩ := ih
    have hgo : Res.step ((collectDecoder D).decode s.inner (b.take (min b.length s.remaining))
            (Eos.withRemainingBytes (.finite (s.remaining - min b.length s.remaining))))
            (fun i => ({ s with inner := i } : LengthState (CollectState σ α))) (fun size i =>
              if s.remaining < size then (.panic, { s with inner := i })
              else (.ok size, { s with inner := i, remaining := s.remaining - size })) = (.ok m, s') →
            s'.expected = n ∧ LikeFed D s₀ s'.inner.inner ∧
              (s'.inner.eos = true ∨ s'.remaining = 0 → Same D s'.inner.inner s₀) := by
      intro hg
      obtain ⟨k, t, h3, h4⟩ := step_ok hg
      split at h4
      · cases congrArg Prod.fst h4
      cases h4
      refine ⟨ih0, ?_⟩
      have hlen : (b.take (min b.length s.remaining)).length = min b.length s.remaining := by
        rw [List.length_take]; omega
      have hes : EosSane (Eos.withRemainingBytes (.finite (s.remaining - min b.length s.remaining)))
          (b.take (min b.length s.remaining)).length := by
        intro x hx
        cases hx
        omega
      simp only [collectDecoder] at h3
      split at h3
      · next h => cases h3; exact ⟨ih1, fun _ => ih2 (.inl h)⟩
      next hne =>
      obtain ⟨x, hx, hx'⟩ := collectLoop_safe hs hp hes _ 0 s.inner.inner s.inner.items (Nat.le_refl _) hri (by omega)
      obtain ⟨h1, h2⟩ := collectLoop_fed hD _ _ _ _ _ _ hx ih1
      rw [hx] at h3
      cases x with
      | ret r i items =>
        cases h3
        refine ⟨h2 _ _ _ rfl, ?_⟩
        rintro (h | h)
        · exact absurd h hne
        · have hk := hx'.2 _ rfl
          rw [hlen] at hk
          have h0 : s.remaining - min b.length s.remaining = 0 := by simp only at h; omega
          rw [h0] at hx
          exact absurd rfl (collectLoop_eos he (by rw [hlen]; omega) _ _ _ _ hx hri _ _ _)
      | done o i items =>
        cases h3
        refine ⟨(h1 _ _ _ rfl).1, fun h => (h1 _ _ _ rfl).2 ?_⟩
        have ho := hx'.trans hlen
        have hz : s.remaining - min b.length s.remaining = 0 := by
          rcases h with h | h
          · simp only at h
            split at h
            · next hr' =>
              simp only [Eos.isReached, Eos.withRemainingBytes, beq_iff_eq, ByteCount.finite.injEq] at hr'
              exact hr'
            · exact absurd h hne
          · simp only at h; omega
        by_cases h0 : s.remaining = 0
        · exact .inl (ih2 (.inr h0))
        · right; omega
    simp only [lengthDecoder] at hd
    split at hd
    · split at hd
      · cases congrArg Prod.fst hd
      · split at hd
        · cases congrArg Prod.fst hd
        · exact hgo hd
    · exact hgo hd

theorem length_collect_renews {D : Decoder σ α} {s₀ : σ} {n : Nat} (hD : Renews D s₀) (hs : SafeFrom D s₀)
    (hp : Productive D s₀) (he : EosStrict D s₀) (hn : n < 2 ^ 64) {s s' : LengthState (CollectState σ α)}
    {xs : List α}
    (h : FedWith (fun b e => EosSane e b.length) (lengthDecoder (collectDecoder D)) (.new ⟨s₀, [], false⟩ n) s)
    (hf : (lengthDecoder (collectDecoder D)).finish s = (.ok xs, s')) :
    Same (lengthDecoder (collectDecoder D)) s' (.new ⟨s₀, [], false⟩ n) := by
  obtain ⟨h0, _, h2⟩ := length_collect_fed hD hs hp he hn h
  simp only [lengthDecoder] at hf
  split at hf
  · obtain ⟨x, t, h3, h4⟩ := step_ok hf
    cases h4
    simp only [collectDecoder] at h3
    split at h3
    · cases h3
      exact (bisim_length (bisim_collect D)).same ⟨⟨h2 (.inl ‹_›), rfl, rfl⟩, h0, h0⟩
    · cases congrArg Prod.fst h3
  · cases congrArg Prod.fst hf

/-! ## `slice` -/

theorem bisim_slice {D : Decoder σ α} {R : σ → σ → Prop} (hb : Bisim D R) : Bisim (sliceDecoder D)
    (fun s t => R s.inner t.inner ∧ s.consumable = t.consumable) := by
  constructor
  · rintro ⟨s, sc⟩ ⟨t, tc⟩ ⟨h1, h2⟩; exact hb.idle h1
  · rintro ⟨s, sc⟩ ⟨t, tc⟩ ⟨h1, h2⟩; exact hb.req h1
  · rintro ⟨s, sc⟩ ⟨t, tc⟩ ⟨h1, h2⟩ b e
    simp only at h1 h2
    subst h2
    simp only [sliceDecoder]
    cases e.back (b.length - min b.length sc) with
    | ok e' =>
      exact Agree.step (hb.agree h1 (b.take (min b.length sc)) e')
        (S := fun (s t : SliceState σ) => R s.inner t.inner ∧ s.consumable = t.consumable)
        (fun _ _ h => ⟨h, rfl⟩) (fun x _ _ h => Agree.ite _ (.mk ⟨h, rfl⟩) (.mk ⟨h, rfl⟩))
    | err k => exact ⟨rfl, h1, rfl⟩
    | panic => exact ⟨rfl, h1, rfl⟩
    | capacity => exact ⟨rfl, h1, rfl⟩
    | diverge => exact ⟨rfl, h1, rfl⟩
  · rintro ⟨s, sc⟩ ⟨t, tc⟩ ⟨h1, h2⟩
    simp only at h1 h2
    subst h2
    exact Agree.step (hb.agreeF h1) (fun _ _ h => ⟨h, rfl⟩) fun _ _ _ h => .mk ⟨h, rfl⟩

theorem slice_fed {D : Decoder σ α} {s₀ : σ} {s : SliceState σ} (h : FedSlice D s₀ s) : Fed D s₀ s.inner := by
  induction h with
  | new => exact .new
  | allow n _ ih => exact ih
  | decode _ hi hd ih =>
    simp only [sliceDecoder] at hd
    split at hd
    · obtain ⟨x, t, h3, h4⟩ := step_ok hd
      split at h4
      · cases congrArg Prod.fst h4
      · cases h4; exact ih.decode hi h3
    · cases congrArg Prod.fst hd

theorem slice_renews {D : Decoder σ α} {s₀ : σ} (hD : Renews D s₀) {s s' : SliceState σ} {x : α}
    (h : FedSlice D s₀ s) (hf : (sliceDecoder D).finish s = (.ok x, s')) :
    Same (sliceDecoder D) s' ((SliceState.new s₀).setConsumableBytes s.consumable) := by
  obtain ⟨y, t, h3, h4⟩ := step_ok hf
  cases h4
  exact (bisim_slice (bisim_same D)).same ⟨hD.same (slice_fed h) h3, rfl⟩

end Bytecodec
