import Verif.Lemmas.Reuse
/-!
# Lemmas for C55: `collectn` after its items
-/
namespace Bytecodec

open Spec

variable {σ α β : Type}

theorem Bisim.same {D : Decoder σ α} {R : σ → σ → Prop} (h : Bisim D R) {s t : σ} (hr : R s t) : Same D s t :=
  ⟨h.idle hr, h.req hr, fun calls => h.observe calls hr⟩

theorem same_refl (D : Decoder σ α) (s : σ) : Same D s s := ⟨rfl, rfl, fun _ => rfl⟩

theorem same_trans {D : Decoder σ α} {s t u : σ} (h : Same D s t) (h' : Same D t u) : Same D s u :=
  ⟨h.1.trans h'.1, h.2.1.trans h'.2.1, fun c => (h.2.2 c).trans (h'.2.2 c)⟩

theorem Renews.same {D : Decoder σ α} {s₀ s s' : σ} {x : α} (h : Renews D s₀) (hs : Fed D s₀ s)
    (hf : D.finish s = (.ok x, s')) : Same D s' s₀ := by
  obtain ⟨R, hb, hr⟩ := h
  exact hb.same (hr s hs x s' hf)

/-- Two exits of the loop of `collectn` that agree. -/
inductive AgreeN (R : σ → σ → Prop) : LoopExitN σ α → LoopExitN σ α → Prop
  | done (o : Nat) {s t : σ} (items : List α) (n : Nat) : R s t → AgreeN R (.done o s items n) (.done o t items n)
  | ret (r : Res Nat) {s t : σ} (items : List α) (n : Nat) : R s t → AgreeN R (.ret r s items n) (.ret r t items n)

theorem Bisim.collectNLoop {D : Decoder σ α} {R : σ → σ → Prop} (h : Bisim D R) (b : Bytes) (e : Eos) :
    ∀ (n o : Nat) (items : List α) {s t : σ}, R s t →
      AgreeN R (collectNLoop D b e n o s items) (collectNLoop D b e n o t items) := by
  intro n
  induction n with
  | zero => intro o items s t hr; exact .done _ _ _ hr
  | succ n ih =>
    intro o items s t hr
    simp only [Bytecodec.collectNLoop]
    split
    · have a := h.tryDecode hr o b e
      generalize Bytecodec.tryDecode D s o b e = p at a
      generalize Bytecodec.tryDecode D t o b e = q at a
      cases a with
      | ret r hr' => exact .ret _ _ _ hr'
      | @next o' s' t' hr' =>
        simp only
        obtain ⟨h1, h2⟩ := h.finish hr'
        generalize D.finish s' = p at h1 h2
        generalize D.finish t' = q at h1 h2
        obtain ⟨r, u⟩ := p
        obtain ⟨r', v⟩ := q
        simp only at h1 h2
        subst h1
        cases r with
        | ok x => exact ih _ _ h2
        | err k => exact .ret _ _ _ h2
        | panic => exact .ret _ _ _ h2
        | capacity => exact .ret _ _ _ h2
        | diverge => exact .ret _ _ _ h2
    · exact .done _ _ _ hr

theorem bisim_collectN {D : Decoder σ α} {R : σ → σ → Prop} (h : Bisim D R) : Bisim (collectNDecoder D)
    (fun s t => R s.inner t.inner ∧ s.remaining = t.remaining ∧ s.items = t.items) where
  idle := by rintro ⟨s, sr, si⟩ ⟨t, tr, ti⟩ ⟨h1, h2, h3⟩; simp only at h2; subst h2; rfl
  req := by
    rintro ⟨s, sr, si⟩ ⟨t, tr, ti⟩ ⟨h1, h2, h3⟩
    simp only at h1 h2
    subst h2
    simp only [collectNDecoder, h.req h1]
  decode := by
    rintro ⟨s, sr, si⟩ ⟨t, tr, ti⟩ ⟨h1, h2, h3⟩ b e
    simp only at h1 h2 h3
    subst h2 h3
    simp only [collectNDecoder]
    have a := h.collectNLoop b e sr 0 si h1
    generalize collectNLoop D b e sr 0 s si = p at a
    generalize collectNLoop D b e sr 0 t si = q at a
    cases a with
    | ret r items n hr => exact ⟨rfl, hr, rfl, rfl⟩
    | done o items n hr => exact Agree.ite _ (.mk ⟨hr, rfl, rfl⟩) (.mk ⟨hr, rfl, rfl⟩)
  finish := by
    rintro ⟨s, sr, si⟩ ⟨t, tr, ti⟩ ⟨h1, h2, h3⟩
    simp only at h1 h2 h3
    subst h2 h3
    exact Agree.ite _ (.mk ⟨h1, rfl, rfl⟩) (.mk ⟨h1, rfl, rfl⟩)

/-- As good as a state reached from `s₀` within the first item. -/
def LikeFed (D : Decoder σ α) (s₀ s : σ) : Prop := ∃ t, Fed D s₀ t ∧ Same D s t

theorem likeFed_tryDecode {D : Decoder σ α} {s₀ s : σ} (h : LikeFed D s₀ s) {o : Nat} {b : Bytes} {e : Eos} {s' : σ} :
    (∀ o', tryDecode D s o b e = .next o' s' → LikeFed D s₀ s') ∧
    (∀ n, tryDecode D s o b e = .ret (.ok n) s' → LikeFed D s₀ s') := by
  obtain ⟨t, ht, hst⟩ := h
  have a := (bisim_same D).tryDecode hst o b e
  constructor
  · intro o' hn
    rw [hn] at a
    cases hq : tryDecode D t o b e with
    | ret r u => rw [hq] at a; cases a
    | next o'' u =>
      rw [hq] at a
      cases a with
      | next _ hr => exact ⟨u, (tryDecode_fed ht).1 _ hq, hr⟩
  · intro n hn
    rw [hn] at a
    cases hq : tryDecode D t o b e with
    | next o'' u => rw [hq] at a; cases a
    | ret r u =>
      rw [hq] at a
      cases a with
      | ret _ hr => exact ⟨u, (tryDecode_fed ht).2 _ hq, hr⟩

theorem likeFed_finish {D : Decoder σ α} {s₀ s s' : σ} {x : α} (hD : Renews D s₀) (h : LikeFed D s₀ s)
    (hf : D.finish s = (.ok x, s')) : Same D s' s₀ := by
  obtain ⟨t, ht, hst⟩ := h
  obtain ⟨h1, h2⟩ := (bisim_same D).finish hst
  rw [hf] at h1 h2
  have h3 : D.finish t = (.ok x, (D.finish t).2) := Prod.ext h1.symm rfl
  exact same_trans h2 (hD.same ht h3)

theorem collectNLoop_fed {D : Decoder σ α} {s₀ : σ} (hD : Renews D s₀) (b : Bytes) (e : Eos) :
    ∀ (n o : Nat) (items : List α) {s : σ}, LikeFed D s₀ s → (n = 0 → Same D s s₀) →
      (∀ o' s' items' n', collectNLoop D b e n o s items = .done o' s' items' n' →
        LikeFed D s₀ s' ∧ (n' = 0 → Same D s' s₀)) ∧
      (∀ k s' items' n', collectNLoop D b e n o s items = .ret (.ok k) s' items' n' →
        LikeFed D s₀ s' ∧ (n' = 0 → Same D s' s₀)) := by
  intro n
  induction n with
  | zero =>
    intro o items s hs h0
    simp only [collectNLoop]
    exact ⟨fun _ _ _ _ h => (by cases h; exact ⟨hs, h0⟩), fun _ _ _ _ h => (by cases h)⟩
  | succ n ih =>
    intro o items s hs h0
    simp only [collectNLoop]
    split
    · cases ht : tryDecode D s o b e with
      | ret r s' =>
        refine ⟨fun _ _ _ _ h => (by cases h), fun _ _ _ _ h => ?_⟩
        cases h
        exact ⟨(likeFed_tryDecode hs).2 _ ht, fun h => by cases h⟩
      | next o' s' =>
        have hs' := (likeFed_tryDecode hs).1 _ ht
        simp only
        split
        · have hsame := likeFed_finish hD hs' ‹_›
          exact ih _ _ ⟨s₀, .new, hsame⟩ fun _ => hsame
        all_goals exact ⟨fun _ _ _ _ h => (by cases h), fun _ _ _ _ h => (by cases h)⟩
    · exact ⟨fun _ _ _ _ h => (by cases h; exact ⟨hs, h0⟩), fun _ _ _ _ h => (by cases h)⟩

theorem collectN_fed {D : Decoder σ α} {s₀ : σ} (hD : Renews D s₀) {n : Nat} {s : CollectNState σ α}
    (h : Fed (collectNDecoder D) (.new s₀ n) s) :
    LikeFed D s₀ s.inner ∧ (s.remaining = 0 → Same D s.inner s₀) := by
  induction h with
  | new => exact ⟨⟨s₀, .new, same_refl _ _⟩, fun _ => same_refl _ _⟩
  | @decode s s' b e m _ hn hd ih =>
    have hl := collectNLoop_fed hD b e s.remaining 0 s.items ih.1 ih.2
    simp only [collectNDecoder] at hd
    cases hq : collectNLoop D b e s.remaining 0 s.inner s.items with
    | ret r i items k =>
      rw [hq] at hd
      cases hd
      exact hl.2 _ _ _ _ hq
    | done o i items k =>
      rw [hq] at hd
      simp only at hd
      split at hd
      · cases congrArg Prod.fst hd
      · cases hd
        exact hl.1 _ _ _ _ hq

theorem collectN_renews {D : Decoder σ α} {s₀ : σ} (hD : Renews D s₀) {n : Nat} {s s' : CollectNState σ α}
    {xs : List α} (h : Fed (collectNDecoder D) (.new s₀ n) s) (hf : (collectNDecoder D).finish s = (.ok xs, s'))
    (m : Nat) : Same (collectNDecoder D) (s'.setRemainingItems m) (.new s₀ m) := by
  obtain ⟨_, h2⟩ := collectN_fed hD h
  simp only [collectNDecoder] at hf
  split at hf
  · have h1 := congrArg Prod.snd hf
    simp only at h1
    subst h1
    exact (bisim_collectN (bisim_same D)).same ⟨h2 ‹_›, rfl, rfl⟩
  · cases congrArg Prod.fst hf

end Bytecodec
