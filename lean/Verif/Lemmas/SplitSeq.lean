import Verif.Lemmas.Bytewise
import Verif.Lemmas.SplitComb
/-!
# The splitting law for pairs, dependent pairs and repetitions
-/
namespace Bytecodec

open Spec

set_option linter.unusedSimpArgs false

variable {σ α β : Type}

/-- Items consume at most the buffer and lead back to `I`. -/
structure Steps (D : Decoder σ α) (I : σ → Prop) : Prop where
  bound : ∀ {s b e n t x s'}, I s → Item D s b e n t x s' → n ≤ b.length
  again : ∀ {s b e n t x s'}, I s → Item D s b e n t x s' → I s'

theorem Splits.steps {p : Bool} {D : Decoder σ α} {I : σ → Prop} (h : Splits p D I) : Steps D I :=
  ⟨h.bound, h.again⟩

/-! ## Pairs -/

/-- States a component of a tuple can be in: those of `I`, and those holding a finished item. -/
def Mid (D : Decoder σ α) (I : σ → Prop) (s : σ) : Prop :=
  I s ∨ ∃ q b e n, I q ∧ tryDecode D q 0 b e = .next n s

theorem Mid.bound {p : Bool} {D : Decoder σ α} {I : σ → Prop} (h : Splits p D I)
    {s b e n t x s'} (hm : Mid D I s) (hi : Item D s b e n t x s') : n ≤ b.length := by
  rcases hm with hm | ⟨q, b', e', n', hq, hn⟩
  · exact h.bound hm hi
  · rw [item_quiet (tryDecode_next_isIdle hn)] at hi
    omega

theorem Mid.again {p : Bool} {D : Decoder σ α} {I : σ → Prop} (h : Splits p D I)
    {s b e n t x s'} (hm : Mid D I s) (hi : Item D s b e n t x s') : I s' := by
  rcases hm with hm | ⟨q, b', e', n', hq, hn⟩
  · exact h.again hm hi
  · rw [item_quiet (tryDecode_next_isIdle hn)] at hi
    exact h.again hq ⟨hn, hi.2.2⟩

theorem Mid.next {D : Decoder σ α} {I : σ → Prop} {s b e n t} (hm : Mid D I s)
    (hn : tryDecode D s 0 b e = .next n t) : Mid D I t := by
  rcases hm with hm | ⟨q, b', e', n', hq, hn'⟩
  · exact .inr ⟨_, _, _, _, hm, hn⟩
  · rw [tryDecode_quiet (tryDecode_next_isIdle hn')] at hn
    cases hn
    exact .inr ⟨_, _, _, _, hq, hn'⟩

theorem Mid.split {p : Bool} {D : Decoder σ α} {I : σ → Prop} (h : Splits p D I)
    {s a b e e1 n t x s'} (hm : Mid D I s) (hi : Item D s (a ++ b) e n t x s')
    (he : Earlier e1 e b.length) (hne : e1.isReached = false) :
    Item D s a e1 n t x s' ∨ ((p = true → b ≠ []) ∧ a.length ≤ n ∧ ∃ s1,
      tryDecode D s 0 a e1 = .ret (.ok a.length) s1 ∧ I s1 ∧ Item D s1 b e (n - a.length) t x s') := by
  rcases hm with hm | ⟨q, b', e', n', hq, hn⟩
  · exact h.split hm hi he hne
  · left
    have hs := tryDecode_next_isIdle hn
    rw [item_quiet hs] at hi ⊢
    exact hi

theorem pair_fin {σ0 α0 σ1 α1 : Type} {D0 : Decoder σ0 α0} {D1 : Decoder σ1 α1} {s s' : σ0 × σ1}
    {x : α0 × α1} : (tupleDecoder2 D0 D1).finish s = (.ok x, s') ↔
      D0.finish s.1 = (.ok x.1, s'.1) ∧ D1.finish s.2 = (.ok x.2, s'.2) := by
  simp only [tupleDecoder2]
  constructor
  · intro h
    obtain ⟨x0, s0, h1, h2⟩ := step_ok h
    obtain ⟨x1, s1, h3, h4⟩ := step_ok h2
    cases h4
    exact ⟨h1, h3⟩
  · rintro ⟨h1, h2⟩
    rw [h1]; simp only [Res.step_ok_eq]
    rw [h2]; rfl

theorem pair_item {σ0 α0 σ1 α1 : Type} {D0 : Decoder σ0 α0} {D1 : Decoder σ1 α1} {s t s' : σ0 × σ1}
    {b : Bytes} {e : Eos} {n : Nat} {x : α0 × α1} :
    Item (tupleDecoder2 D0 D1) s b e n t x s' ↔
      ∃ n0, Item D0 s.1 b e n0 t.1 x.1 s'.1 ∧ tryDecode D1 s.2 n0 b e = .next n t.2 ∧
        D1.finish t.2 = (.ok x.2, s'.2) := by
  rw [Item, tryDecode_pair, pair_fin]
  constructor
  · rintro ⟨h1, h2, h3⟩
    rcases h0 : tryDecode D0 s.1 0 b e with ⟨n0, t0⟩ | ⟨r, t0⟩ <;> rw [h0] at h1
    · simp only [Flow.bind] at h1
      rcases h4 : tryDecode D1 s.2 n0 b e with ⟨n1, t1⟩ | ⟨r, t1⟩ <;> rw [h4] at h1
      · cases h1
        exact ⟨n0, ⟨h0, h2⟩, h4, h3⟩
      · cases h1
    · cases h1
  · rintro ⟨n0, ⟨h1, h2⟩, h3, h4⟩
    refine ⟨?_, h2, h4⟩
    rw [h1]; simp only [Flow.bind]
    rw [h3]

theorem splits_pair {p : Bool} {σ0 α0 σ1 α1 : Type} {D0 : Decoder σ0 α0} {D1 : Decoder σ1 α1}
    {I0 : σ0 → Prop} {I1 : σ1 → Prop} (h0 : Splits p D0 I0) (h1 : Splits p D1 I1) :
    Splits p (tupleDecoder2 D0 D1) (fun s => Mid D0 I0 s.1 ∧ I1 s.2) := by
  constructor
  · rintro s b e n t x s' ⟨hI0, hI1⟩ hi
    obtain ⟨n0, g0, g1, g2⟩ := pair_item.1 hi
    have hb := hI0.bound h0 g0
    rw [tryDecode_at hb] at g1
    have := h1.bound hI1 ⟨g1.2, g2⟩
    simp at this
    omega
  · rintro s b e n t x s' ⟨hI0, hI1⟩ hi
    obtain ⟨n0, g0, g1, g2⟩ := pair_item.1 hi
    have hb := hI0.bound h0 g0
    rw [tryDecode_at hb] at g1
    exact ⟨.inl (hI0.again h0 g0), h1.again hI1 ⟨g1.2, g2⟩⟩
  · rintro s a b e e1 n t x s' ⟨hI0, hI1⟩ hs hd ht hf he hne
    have hs' : D0.isIdle s.1 = true ∧ D1.isIdle s.2 = true := by simpa [tupleDecoder2] using hs
    rw [pair_decode, tryDecode_quiet hs'.1] at hd ⊢
    simp only [Flow.bind] at hd ⊢
    rw [tryDecode_quiet hs'.2] at hd ⊢
    simp only [Flow.done, Flow.bind] at hd ⊢
    cases hd
    exact ⟨rfl, rfl, trivial⟩
  · rintro s a b e e1 n t x s' ⟨hI0, hI1⟩ hi he hne
    obtain ⟨n0, g0, g1, g2⟩ := pair_item.1 hi
    have hb := hI0.bound h0 g0
    rw [tryDecode_at hb] at g1
    rcases hI0.split h0 g0 he hne with k | ⟨k1, k2, u0, k3, k4, k5⟩
    · have hba := hI0.bound h0 k
      rw [List.drop_append_of_le_length hba] at g1
      rcases h1.split hI1 ⟨g1.2, g2⟩ he hne with m | ⟨m1, m2, u1, m3, m4, m5⟩
      · left
        exact pair_item.2 ⟨n0, k, (tryDecode_at hba).2 ⟨g1.1, m.1⟩, g2⟩
      · right
        have hl : (a.drop n0).length = a.length - n0 := List.length_drop
        rw [hl] at m2 m3 m5
        refine ⟨m1, by omega, (t.1, u1), ?_, ⟨hI0.next k.1, m4⟩, ?_⟩
        · rw [tryDecode_pair, k.1]
          simp only [Flow.bind]
          rw [(tryDecode_at_ret hba (o := a.length)).2 ⟨hba, m3⟩]
        · rw [pair_item]
          refine ⟨0, (item_quiet k.idle).2 ⟨rfl, rfl, k.2⟩, ?_, g2⟩
          have : n - n0 - (a.length - n0) = n - a.length := by omega
          rw [this] at m5
          exact m5.1
    · right
      have hb' := h0.bound k4 k5
      refine ⟨k1, by omega, (u0, s.2), ?_, ⟨.inl k4, hI1⟩, ?_⟩
      · rw [tryDecode_pair, k3]; rfl
      · rw [pair_item]
        refine ⟨n0 - a.length, k5, ?_, g2⟩
        simp only
        rw [tryDecode_at hb']
        refine ⟨by omega, ?_⟩
        have e1 : (a ++ b).drop n0 = b.drop (n0 - a.length) := by
          rw [List.drop_append, List.drop_eq_nil_of_le (by omega), List.nil_append]
        have e2 : n - a.length - (n0 - a.length) = n - n0 := by omega
        rw [e2, ← e1]
        exact g1.2

/-! ## `AndThen` -/

theorem andThen_some {σ0 α0 σ1 α1 : Type} {D0 : Decoder σ0 α0} {D1 : Decoder σ1 α1} {f : α0 → σ1}
    {s0 : σ0} {s1 : σ1} {b : Bytes} {e : Eos} {n : Nat} {t : σ0 × Option σ1} :
    (andThenDecoder D0 D1 f).decode (s0, some s1) b e = (.ok n, t) ↔
      ∃ t1, t = (s0, some t1) ∧
        (tryDecode D1 s1 0 b e = .next n t1 ∨ tryDecode D1 s1 0 b e = .ret (.ok n) t1) := by
  simp only [andThenDecoder]
  rcases tryDecode D1 s1 0 b e with ⟨o, u⟩ | ⟨r, u⟩ <;> constructor
  · intro h; cases h; exact ⟨u, rfl, .inl rfl⟩
  · rintro ⟨t1, rfl, h | h⟩ <;> cases h
    rfl
  · intro h; cases h; exact ⟨u, rfl, .inr rfl⟩
  · rintro ⟨t1, rfl, h | h⟩ <;> cases h
    rfl

theorem andThen_none_part {σ0 α0 σ1 α1 : Type} {D0 : Decoder σ0 α0} {D1 : Decoder σ1 α1} {f : α0 → σ1}
    {s0 u0 : σ0} {b : Bytes} {e : Eos} {r : Res Nat}
    (h : tryDecode D0 s0 0 b e = .ret r u0) :
    (andThenDecoder D0 D1 f).decode (s0, none) b e = (r, (u0, none)) := by
  simp only [andThenDecoder]
  rw [h]

theorem andThen_none_next {σ0 α0 σ1 α1 : Type} {D0 : Decoder σ0 α0} {D1 : Decoder σ1 α1} {f : α0 → σ1}
    {s0 t0 s0' : σ0} {b : Bytes} {e : Eos} {n0 : Nat} {y : α0}
    (h : Item D0 s0 b e n0 t0 y s0') :
    (andThenDecoder D0 D1 f).decode (s0, none) b e =
      ((tryDecode D1 (f y) n0 b e).bind (fun u => (s0', some u)) fun o u => .next o (s0', some u)).done := by
  simp only [andThenDecoder]
  rw [h.1]
  simp only
  rw [h.2]
  simp only [Res.step_ok_eq]
  rcases tryDecode D1 (f y) n0 b e with ⟨o, u⟩ | ⟨r, u⟩ <;> rfl

theorem andThen_none_idle {σ0 α0 σ1 α1 : Type} {D0 : Decoder σ0 α0} {D1 : Decoder σ1 α1} {f : α0 → σ1}
    {s0 : σ0} {b : Bytes} {e : Eos} {n : Nat} {t : σ0 × Option σ1}
    (h : (andThenDecoder D0 D1 f).decode (s0, none) b e = (.ok n, t))
    (hi : (andThenDecoder D0 D1 f).isIdle t = true) :
    ∃ n0 t0 y s0' t1, Item D0 s0 b e n0 t0 y s0' ∧ tryDecode D1 (f y) n0 b e = .next n t1 ∧
      t = (s0', some t1) := by
  rcases h0 : tryDecode D0 s0 0 b e with ⟨n0, t0⟩ | ⟨r, t0⟩
  · have h' := h
    simp only [andThenDecoder] at h'
    rw [h0] at h'
    simp only at h'
    obtain ⟨y, s0', h1, h2⟩ := step_ok h'
    have hit : Item D0 s0 b e n0 t0 y s0' := ⟨h0, h1⟩
    rw [andThen_none_next hit] at h
    rcases h3 : tryDecode D1 (f y) n0 b e with ⟨o, u⟩ | ⟨r, u⟩ <;> rw [h3] at h
    · cases h
      exact ⟨n0, t0, y, s0', u, hit, h3, rfl⟩
    · simp only [Flow.bind, Flow.done] at h
      cases h
      have := tryDecode_ret_ok h3
      simp [andThenDecoder, this] at hi
  · rw [andThen_none_part h0] at h
    cases h
    simp [andThenDecoder] at hi

theorem andThen_fin {σ0 α0 σ1 α1 : Type} {D0 : Decoder σ0 α0} {D1 : Decoder σ1 α1} {f : α0 → σ1}
    {s0 : σ0} {s1 : σ1} {x : α1} {s' : σ0 × Option σ1} :
    (andThenDecoder D0 D1 f).finish (s0, some s1) = (.ok x, s') ↔
      (D1.finish s1).1 = .ok x ∧ s' = (s0, none) := by
  simp [andThenDecoder, eq_comm]

theorem splits_andThen {p : Bool} {σ0 α0 σ1 α1 : Type} {D0 : Decoder σ0 α0} {D1 : Decoder σ1 α1}
    {f : α0 → σ1} {I0 : σ0 → Prop} {I1 : σ1 → Prop} (h0 : Splits p D0 I0) (h1 : Splits p D1 I1)
    (hf : ∀ x, I1 (f x)) :
    Splits p (andThenDecoder D0 D1 f) (fun s => I0 s.1 ∧ ∀ u, s.2 = some u → I1 u) := by
  have item1 : ∀ {s1 b e n t1 x}, tryDecode D1 s1 0 b e = .next n t1 → (D1.finish t1).1 = .ok x →
      Item D1 s1 b e n t1 x (D1.finish t1).2 := fun h1 h2 => ⟨h1, Prod.ext h2 rfl⟩
  have next_of : ∀ {s0 s1 b e n} {t : σ0 × Option σ1},
      (andThenDecoder D0 D1 f).decode (s0, some s1) b e = (.ok n, t) →
      (andThenDecoder D0 D1 f).isIdle t = true →
      ∃ t1, t = (s0, some t1) ∧ tryDecode D1 s1 0 b e = .next n t1 := by
    intro s0 s1 b e n t hd ht
    obtain ⟨t1, rfl, h | h⟩ := andThen_some.1 hd
    · exact ⟨t1, rfl, h⟩
    · have := tryDecode_ret_ok h
      simp [andThenDecoder, this] at ht
  apply Splits.of_busy
  · rintro ⟨s0, s1⟩ b e n t x s' ⟨hI0, hI1⟩ hs hd ht hfin
    cases s1 with
    | some s1 =>
      obtain ⟨t1, rfl, g⟩ := next_of hd ht
      exact h1.bound (hI1 s1 rfl) (item1 g (andThen_fin.1 hfin).1)
    | none =>
      obtain ⟨n0, t0, y, s0', t1, g0, g1, rfl⟩ := andThen_none_idle hd ht
      have hb := h0.bound hI0 g0
      rw [tryDecode_at hb] at g1
      have := h1.bound (hf y) (item1 g1.2 (andThen_fin.1 hfin).1)
      simp at this
      omega
  · rintro ⟨s0, s1⟩ b e n t x s' ⟨hI0, hI1⟩ hs hd ht hfin
    cases s1 with
    | some s1 =>
      obtain ⟨t1, rfl, g⟩ := next_of hd ht
      obtain ⟨_, rfl⟩ := andThen_fin.1 hfin
      exact ⟨hI0, fun u hu => by cases hu⟩
    | none =>
      obtain ⟨n0, t0, y, s0', t1, g0, g1, rfl⟩ := andThen_none_idle hd ht
      obtain ⟨_, rfl⟩ := andThen_fin.1 hfin
      exact ⟨h0.again hI0 g0, fun u hu => by cases hu⟩
  · rintro ⟨s0, s1⟩ x s' ⟨hI0, hI1⟩ hs hfin
    cases s1 with
    | some s1 =>
      obtain ⟨_, rfl⟩ := andThen_fin.1 hfin
      exact ⟨hI0, fun u hu => by cases hu⟩
    | none => simp [andThenDecoder] at hs
  · rintro ⟨s0, s1⟩ a b e e1 n t x s' ⟨hI0, hI1⟩ hs hd ht hfin he hne
    cases s1 with
    | some s1 =>
      have hs' : D1.isIdle s1 = true := hs
      obtain ⟨t1, rfl, g⟩ := next_of hd ht
      rw [tryDecode_quiet hs'] at g
      cases g
      exact ⟨rfl, rfl, andThen_some.2 ⟨s1, rfl, .inl (tryDecode_quiet hs' _ _ _)⟩⟩
    | none => simp [andThenDecoder] at hs
  · rintro ⟨s0, s1⟩ a b e e1 n t x s' ⟨hI0, hI1⟩ hs hd ht hfin he hne
    cases s1 with
    | some s1 =>
      obtain ⟨t1, rfl, g⟩ := next_of hd ht
      rcases h1.split (hI1 s1 rfl) (item1 g (andThen_fin.1 hfin).1) he hne with
        m | ⟨m1, m2, u1, m3, m4, m5⟩
      · left
        exact andThen_some.2 ⟨t1, rfl, .inl m.1⟩
      · right
        refine ⟨m1, m2, (s0, some u1), andThen_some.2 ⟨u1, rfl, .inr m3⟩,
          (tryDecode_ret_ok m3 : D1.isIdle u1 = false),
          ⟨hI0, ?_⟩, andThen_some.2 ⟨t1, rfl, .inl m5.1⟩⟩
        intro u hu
        cases hu
        exact m4
    | none =>
      obtain ⟨n0, t0, y, s0', t1, g0, g1, rfl⟩ := andThen_none_idle hd ht
      have hb := h0.bound hI0 g0
      rw [tryDecode_at hb] at g1
      rcases h0.split hI0 g0 he hne with k | ⟨k1, k2, u0, k3, k4, k5⟩
      · have hba := h0.bound hI0 k
        rw [List.drop_append_of_le_length hba] at g1
        rcases h1.split (hf y) (item1 g1.2 (andThen_fin.1 hfin).1) he hne with
          m | ⟨m1, m2, u1, m3, m4, m5⟩
        · left
          rw [andThen_none_next k, (tryDecode_at hba).2 ⟨g1.1, m.1⟩]
          rfl
        · right
          have hl : (a.drop n0).length = a.length - n0 := List.length_drop
          rw [hl] at m2 m3 m5
          refine ⟨m1, by omega, (s0', some u1), ?_,
            (tryDecode_ret_ok m3 : D1.isIdle u1 = false), ⟨h0.again hI0 k, ?_⟩, ?_⟩
          · rw [andThen_none_next k, (tryDecode_at_ret hba (o := a.length)).2 ⟨hba, m3⟩]
            rfl
          · intro u hu
            cases hu
            exact m4
          · have : n - n0 - (a.length - n0) = n - a.length := by omega
            rw [this] at m5
            exact andThen_some.2 ⟨t1, rfl, .inl m5.1⟩
      · right
        have hb' := h0.bound k4 k5
        refine ⟨k1, by omega, (u0, none), andThen_none_part k3, rfl, ⟨k4, fun u hu => by cases hu⟩, ?_⟩
        rw [andThen_none_next k5, (tryDecode_at hb' (o := n - a.length) (t := t1)).2]
        · rfl
        · refine ⟨by omega, ?_⟩
          have e1 : (a ++ b).drop n0 = b.drop (n0 - a.length) := by
            rw [List.drop_append, List.drop_eq_nil_of_le (by omega), List.nil_append]
          have e2 : n - a.length - (n0 - a.length) = n - n0 := by omega
          rw [e2, ← e1]
          exact g1.2

/-! ## Repetition -/

/-- The loop of `Collect`/`CollectN` completes the items `xs`, consuming `n` bytes of `b`. -/
inductive Runs (D : Decoder σ α) (e : Eos) : Bytes → σ → List α → Nat → σ → Prop
  | stop (b : Bytes) (s : σ) : Runs D e b s [] 0 s
  | step {b : Bytes} {s t s1 s2 : σ} {x : α} {xs : List α} {n m : Nat} : b ≠ [] →
      Item D s b e n t x s1 → n ≤ b.length → Runs D e (b.drop n) s1 xs m s2 →
      Runs D e b s (x :: xs) (n + m) s2

/-- The loop takes all of `b`, completes the items `xs` and stops at or inside the next item. -/
inductive Stops (D : Decoder σ α) (e : Eos) : Bytes → σ → List α → σ → Prop
  | stop (s : σ) : Stops D e [] s [] s
  | part {b : Bytes} {s s1 : σ} : b ≠ [] → tryDecode D s 0 b e = .ret (.ok b.length) s1 →
      Stops D e b s [] s1
  | step {b : Bytes} {s t s1 s2 : σ} {x : α} {xs : List α} {n : Nat} : b ≠ [] →
      Item D s b e n t x s1 → n ≤ b.length → Stops D e (b.drop n) s1 xs s2 →
      Stops D e b s (x :: xs) s2

theorem Runs.le {D : Decoder σ α} {e : Eos} {b : Bytes} {s s' : σ} {xs : List α} {n : Nat}
    (h : Runs D e b s xs n s') : n ≤ b.length := by
  induction h with
  | stop => omega
  | step _ _ h1 _ ih => simp at ih; omega

theorem Runs.stops {D : Decoder σ α} {e : Eos} {b : Bytes} {s s' : σ} {xs : List α} {n : Nat}
    (h : Runs D e b s xs n s') (hn : n = b.length) : Stops D e b s xs s' := by
  induction h with
  | stop b s =>
    have : b = [] := List.eq_nil_of_length_eq_zero hn.symm
    subst this
    exact .stop s
  | step h1 h2 h3 _ ih => exact .step h1 h2 h3 (ih (by simp; omega))

theorem Runs.inv {D : Decoder σ α} {I : σ → Prop} (hI : Steps D I)
    {e : Eos} {b : Bytes} {s s' : σ} {xs : List α} {n : Nat}
    (h : Runs D e b s xs n s') (hs : I s) : I s' := by
  induction h with
  | stop => exact hs
  | step _ h2 _ _ ih => exact ih (hI.again hs h2)

/-- Splitting the buffer of the loop. -/
theorem Runs.split {D : Decoder σ α} {I : σ → Prop} (hI : Splits true D I) {e e1 : Eos} {b : Bytes}
    (he : Earlier e1 e b.length) (hne : e1.isReached = false) {c : Bytes} {s s' : σ} {xs : List α}
    {n : Nat} (h : Runs D e c s xs n s') : ∀ {a}, c = a ++ b → I s →
      Runs D e1 a s xs n s' ∨ (b ≠ [] ∧ a.length ≤ n ∧ ∃ ys zs s1, xs = ys ++ zs ∧ zs ≠ [] ∧
        Stops D e1 a s ys s1 ∧ I s1 ∧ Runs D e b s1 zs (n - a.length) s') := by
  induction h with
  | stop b s =>
    intro a hc hs
    exact .inl (.stop a s)
  | @step c s t s1 s2 x xs n m hb hit hn hr ih =>
    intro a hc hs
    subst hc
    by_cases ha : a = []
    · subst ha
      simp only [List.nil_append] at hb hit hn hr
      refine .inr ⟨hb, by simp, [], x :: xs, s, rfl, by simp, .stop s, hs, ?_⟩
      exact .step hb hit hn hr
    · rcases hI.split hs hit he hne with k | ⟨k1, k2, u, k3, k4, k5⟩
      · have hna := hI.bound hs k
        rcases ih (a := a.drop n) (List.drop_append_of_le_length hna) (hI.again hs k) with
          m1 | ⟨m1, m2, ys, zs, u, m3, m4, m5, m6, m7⟩
        · exact .inl (.step ha k hna m1)
        · simp only [List.length_drop] at m2 m7
          refine .inr ⟨m1, by omega, x :: ys, zs, u, by rw [m3]; rfl, m4, .step ha k hna m5, m6, ?_⟩
          have : n + m - a.length = m - (a.length - n) := by omega
          rw [this]
          exact m7
      · refine .inr ⟨k1 rfl, by omega, [], x :: xs, u, rfl, by simp, .part ha k3, k4, ?_⟩
        have h1 : (a ++ b).drop n = b.drop (n - a.length) := by
          rw [List.drop_append, List.drop_eq_nil_of_le (by omega), List.nil_append]
        have h2 : n + m - a.length = (n - a.length) + m := by omega
        rw [h1] at hr
        rw [h2]
        exact .step (k1 rfl) k5 (hI.bound k4 k5) hr

/-! ### The loop of `CollectN` -/

theorem loopN_runs {D : Decoder σ α} {I : σ → Prop} (hI : Steps D I) {buf : Bytes}
    {e : Eos} : ∀ {r off s items n s' items'}, I s → off ≤ buf.length →
      collectNLoop D buf e r off s items = .done n s' items' 0 →
      ∃ xs, xs.length = r ∧ items' = items ++ xs ∧ off ≤ n ∧ Runs D e (buf.drop off) s xs (n - off) s' := by
  intro r
  induction r with
  | zero =>
    intro off s items n s' items' hs ho h
    cases h
    refine ⟨[], rfl, by simp, Nat.le_refl _, ?_⟩
    rw [Nat.sub_self]
    exact .stop _ _
  | succ r ih =>
    intro off s items n s' items' hs ho h
    rw [collectNLoop] at h
    split at h
    · next hlt =>
      split at h
      · cases h
      · next o t hn =>
        split at h
        · next x s1 hx =>
          rw [tryDecode_at ho] at hn
          have hit : Item D s (buf.drop off) e (o - off) t x s1 := ⟨hn.2, hx⟩
          have hb := hI.bound hs hit
          simp only [List.length_drop] at hb
          obtain ⟨xs, h1, h2, h3, h4⟩ := ih (hI.again hs hit) (by omega) h
          refine ⟨x :: xs, by simp [h1], by simp [h2], by omega, ?_⟩
          have e1 : n - off = (o - off) + (n - o) := by omega
          rw [e1]
          refine .step ?_ hit (by simp; omega) ?_
          · intro hc
            have := congrArg List.length hc
            simp at this
            omega
          · rw [List.drop_drop]
            have : off + (o - off) = o := by omega
            rw [this]
            exact h4
        all_goals cases h
    · cases h

theorem runs_loopN {D : Decoder σ α} {buf : Bytes} {e : Eos} {b : Bytes} {s s' : σ} {xs : List α}
    {n : Nat} (h : Runs D e b s xs n s') : ∀ {off items}, off ≤ buf.length → buf.drop off = b →
      collectNLoop D buf e xs.length off s items = .done (off + n) s' (items ++ xs) 0 := by
  induction h with
  | stop b s => intro off items ho hb; simp [collectNLoop]
  | @step b s t s1 s2 x xs n m hne hit hn hr ih =>
    intro off items ho hb
    subst hb
    have hlt : off < buf.length := by
      have := List.length_pos_iff.2 hne
      simp at this
      omega
    simp only [List.length_drop] at hn
    rw [List.length_cons, collectNLoop, if_pos hlt]
    have : tryDecode D s off buf e = .next (off + n) t :=
      (tryDecode_at ho).2 ⟨by omega, by rw [Nat.add_sub_cancel_left]; exact hit.1⟩
    rw [this]
    simp only
    rw [hit.2]
    simp only
    rw [ih (by omega) (by rw [List.drop_drop])]
    simp [Nat.add_assoc]

theorem stops_loopN {D : Decoder σ α} {buf : Bytes} {e : Eos} {b : Bytes} {s s' : σ} {xs : List α}
    (h : Stops D e b s xs s') : ∀ {off items r}, off ≤ buf.length → buf.drop off = b → xs.length < r →
      collectNLoop D buf e r off s items = .done buf.length s' (items ++ xs) (r - xs.length) ∨
      collectNLoop D buf e r off s items = .ret (.ok buf.length) s' (items ++ xs) (r - xs.length) := by
  induction h with
  | stop s =>
    intro off items r ho hb hr
    have : off = buf.length := by
      have := congrArg List.length hb
      simp at this
      omega
    subst this
    obtain ⟨r, rfl⟩ : ∃ k, r = k + 1 := ⟨r - 1, by simp at hr; omega⟩
    left
    rw [collectNLoop, if_neg (by omega)]
    simp
  | @part b s s1 hne ht =>
    intro off items r ho hb hr
    subst hb
    have hlt : off < buf.length := by
      have := List.length_pos_iff.2 hne
      simp at this
      omega
    obtain ⟨r, rfl⟩ : ∃ k, r = k + 1 := ⟨r - 1, by simp at hr; omega⟩
    right
    rw [collectNLoop, if_pos hlt,
      (tryDecode_at_ret ho (o := buf.length) (t := s1)).2 ⟨ho, by rw [List.length_drop] at ht; exact ht⟩]
    simp
  | @step b s t s1 s2 x xs n hne hit hn hr ih =>
    intro off items r ho hb hr'
    subst hb
    have hlt : off < buf.length := by
      have := List.length_pos_iff.2 hne
      simp at this
      omega
    simp only [List.length_drop] at hn
    obtain ⟨r, rfl⟩ : ∃ k, r = k + 1 := ⟨r - 1, by simp at hr'; omega⟩
    rw [collectNLoop, if_pos hlt]
    have : tryDecode D s off buf e = .next (off + n) t :=
      (tryDecode_at ho).2 ⟨by omega, by rw [Nat.add_sub_cancel_left]; exact hit.1⟩
    rw [this]
    simp only
    rw [hit.2]
    simp only
    have := ih (off := off + n) (items := items ++ [x]) (r := r) (by omega) (by rw [List.drop_drop])
      (by simpa using hr')
    simpa [List.append_assoc] using this

theorem collectN_idle {D : Decoder σ α} {s : CollectNState σ α} :
    (collectNDecoder D).isIdle s = true ↔ s.remaining = 0 := by
  simp [collectNDecoder]

theorem collectN_ok_idle {D : Decoder σ α} {s t : CollectNState σ α} {b : Bytes} {e : Eos} {n : Nat} :
    (collectNDecoder D).decode s b e = (.ok n, t) ∧ (collectNDecoder D).isIdle t = true ↔
      collectNLoop D b e s.remaining 0 s.inner s.items = .done n t.inner t.items 0 ∧ t.remaining = 0 ∨
      collectNLoop D b e s.remaining 0 s.inner s.items = .ret (.ok n) t.inner t.items 0 ∧
        t.remaining = 0 := by
  rw [collectN_idle]
  obtain ⟨ti, tr, tl⟩ := t
  simp only [collectNDecoder]
  rcases collectNLoop D b e s.remaining 0 s.inner s.items with ⟨o, u, l, r⟩ | ⟨r, u, l, k⟩
  · simp only
    split
    · next hc =>
      constructor
      · rintro ⟨h, _⟩; cases h
      · rintro (⟨h, _⟩ | ⟨h, _⟩) <;> cases h
        simp at hc
    · constructor
      · rintro ⟨h, h'⟩; cases h; exact .inl ⟨by rw [h'], h'⟩
      · rintro (⟨h, h'⟩ | ⟨h, _⟩) <;> cases h
        exact ⟨by rw [h'], h'⟩
  · simp only
    constructor
    · rintro ⟨h, h'⟩; cases h; exact .inr ⟨by rw [h'], h'⟩
    · rintro (⟨h, _⟩ | ⟨h, h'⟩) <;> cases h
      exact ⟨by rw [h'], h'⟩

theorem loopN_ret_pos {D : Decoder σ α} {b : Bytes} {e : Eos} : ∀ {r off s items x s' items' k},
    collectNLoop D b e r off s items = .ret x s' items' k → k ≠ 0 := by
  intro r
  induction r with
  | zero => intro off s items x s' items' k h; cases h
  | succ r ih =>
    intro off s items x s' items' k h
    rw [collectNLoop] at h
    split at h
    · split at h
      · cases h; omega
      · split at h
        · exact ih h
        all_goals cases h; omega
    · cases h

/-- An item of `CollectN` in terms of the loop. -/
theorem collectN_done {D : Decoder σ α} {s t : CollectNState σ α} {b : Bytes} {e : Eos} {n : Nat}
    (h : (collectNDecoder D).decode s b e = (.ok n, t)) (hi : (collectNDecoder D).isIdle t = true) :
    collectNLoop D b e s.remaining 0 s.inner s.items = .done n t.inner t.items 0 ∧ t.remaining = 0 := by
  rcases collectN_ok_idle.1 ⟨h, hi⟩ with h | ⟨h, _⟩
  · exact h
  · exact absurd rfl (loopN_ret_pos h)

theorem runs_collectN {D : Decoder σ α} {s : CollectNState σ α} {b : Bytes} {e : Eos} {n : Nat}
    {xs : List α} {i : σ} (h : Runs D e b s.inner xs n i) (hr : xs.length = s.remaining) :
    (collectNDecoder D).decode s b e = (.ok n, ⟨i, 0, s.items ++ xs⟩) := by
  have := runs_loopN (buf := b) (off := 0) (items := s.items) h (by omega) rfl
  rw [Nat.zero_add, hr] at this
  simp only [collectNDecoder]
  rw [this]
  simp

theorem stops_collectN {D : Decoder σ α} {s : CollectNState σ α} {b : Bytes} {e : Eos}
    {xs : List α} {i : σ} (h : Stops D e b s.inner xs i) (hr : xs.length < s.remaining)
    (hne : e.isReached = false) :
    (collectNDecoder D).decode s b e = (.ok b.length, ⟨i, s.remaining - xs.length, s.items ++ xs⟩) := by
  simp only [collectNDecoder]
  rcases stops_loopN (buf := b) (off := 0) (items := s.items) h (by omega) rfl hr with h | h <;> rw [h]
  simp [hne]

theorem splits_collectN (p : Bool) {D : Decoder σ α} {I : σ → Prop} (hI : Splits true D I) :
    Splits p (collectNDecoder D) (fun s => I s.inner) := by
  have fin : ∀ {s s' : CollectNState σ α} {x}, (collectNDecoder D).finish s = (.ok x, s') →
      s' = { s with items := [] } := by
    intro s s' x h
    simp only [collectNDecoder] at h
    split at h <;> cases h
    rfl
  have quiet : ∀ {s : CollectNState σ α} (b e), (collectNDecoder D).isIdle s = true →
      (collectNDecoder D).decode s b e = (.ok 0, s) := by
    intro s b e hs
    rw [collectN_idle] at hs
    obtain ⟨i, r, l⟩ := s
    simp only at hs
    subst hs
    simp [collectNDecoder, collectNLoop]
  apply Splits.of_busy
  · intro s b e n t x s' hs hb hd ht hf
    obtain ⟨h1, _⟩ := collectN_done hd ht
    obtain ⟨xs, _, _, _, h2⟩ := loopN_runs hI.steps hs (by omega) h1
    simpa using h2.le
  · intro s b e n t x s' hs hb hd ht hf
    obtain ⟨h1, _⟩ := collectN_done hd ht
    obtain ⟨xs, _, _, _, h2⟩ := loopN_runs hI.steps hs (by omega) h1
    rw [fin hf]
    exact h2.inv hI.steps hs
  · intro s x s' hs hb hf
    rw [fin hf]
    exact hs
  · intro s a b e e1 n t x s' hs hi hd ht hf he hne
    rw [quiet _ _ hi] at hd ⊢
    cases hd
    exact ⟨rfl, rfl, rfl⟩
  · intro s a b e e1 n t x s' hs hi hd ht hf he hne
    obtain ⟨h1, h0⟩ := collectN_done hd ht
    obtain ⟨xs, hx, hit, _, h2⟩ := loopN_runs hI.steps hs (by omega) h1
    simp only [List.drop_zero, Nat.sub_zero] at h2
    have ht' : t = ⟨t.inner, 0, s.items ++ xs⟩ := by
      obtain ⟨ti, tr, tl⟩ := t
      simp only at h0 hit ⊢
      rw [h0, hit]
    rcases h2.split hI he hne rfl hs with k | ⟨k1, k2, ys, zs, u, k3, k4, k5, k6, k7⟩
    · left
      rw [runs_collectN k hx, ← ht']
    · right
      have hlen : ys.length + zs.length = s.remaining := by rw [← hx, k3]; simp
      have hz : 0 < zs.length := List.length_pos_iff.2 k4
      refine ⟨fun _ => k1, k2, ⟨u, s.remaining - ys.length, s.items ++ ys⟩,
        stops_collectN k5 (by omega) hne, ?_, k6, ?_⟩
      · simp [collectNDecoder]; omega
      · rw [runs_collectN (s := ⟨u, s.remaining - ys.length, s.items ++ ys⟩) k7 (by simp only; omega), ht', k3]
        simp

/-! ### The loop of `Collect` -/

theorem loop_runs {D : Decoder σ α} {I : σ → Prop} (hI : Steps D I) {buf : Bytes}
    {e : Eos} : ∀ off s items r, collectLoop D buf e off s items = some r →
      I s → off ≤ buf.length → ∀ n s' items', r = .done n s' items' →
      n = buf.length ∧
        ∃ xs, items' = items ++ xs ∧ Runs D e (buf.drop off) s xs (buf.length - off) s' := by
  apply collectLoop.partial_correctness D buf e
  intro loop ih off s items r h hs ho n s' items' hr
  split at h
  · next hlt =>
    split at h
    · cases h; cases hr
    · next o t hn =>
      split at h
      · next x s1 hx =>
        rw [tryDecode_at ho] at hn
        have hit : Item D s (buf.drop off) e (o - off) t x s1 := ⟨hn.2, hx⟩
        have hb := hI.bound hs hit
        simp only [List.length_drop] at hb
        obtain ⟨h1, xs, h2, h4⟩ := ih _ _ _ _ h (hI.again hs hit) (by omega) n s' items' hr
        refine ⟨h1, x :: xs, by simp [h2], ?_⟩
        have e1 : buf.length - off = (o - off) + (buf.length - o) := by omega
        rw [e1]
        refine .step ?_ hit (by simp; omega) ?_
        · intro hc
          have := congrArg List.length hc
          simp at this
          omega
        · rw [List.drop_drop]
          have : off + (o - off) = o := by omega
          rw [this]
          exact h4
      all_goals (cases h; cases hr)
  · cases h
    cases hr
    refine ⟨by omega, [], by simp, ?_⟩
    have : buf.length - off = 0 := by omega
    rw [this]
    exact .stop _ _

theorem stops_loop {D : Decoder σ α} {buf : Bytes} {e : Eos} {b : Bytes} {s s' : σ} {xs : List α}
    (h : Stops D e b s xs s') : ∀ {off items}, off ≤ buf.length → buf.drop off = b →
      collectLoop D buf e off s items = some (.done buf.length s' (items ++ xs)) ∨
      collectLoop D buf e off s items = some (.ret (.ok buf.length) s' (items ++ xs)) := by
  induction h with
  | stop s =>
    intro off items ho hb
    have : off = buf.length := by
      have := congrArg List.length hb
      simp at this
      omega
    subst this
    left
    rw [collectLoop, if_neg (by omega)]
    simp
  | @part b s s1 hne ht =>
    intro off items ho hb
    subst hb
    have hlt : off < buf.length := by
      have := List.length_pos_iff.2 hne
      simp at this
      omega
    right
    rw [collectLoop, if_pos hlt,
      (tryDecode_at_ret ho (o := buf.length) (t := s1)).2 ⟨ho, by rw [List.length_drop] at ht; exact ht⟩]
    simp
  | @step b s t s1 s2 x xs n hne hit hn hr ih =>
    intro off items ho hb
    subst hb
    have hlt : off < buf.length := by
      have := List.length_pos_iff.2 hne
      simp at this
      omega
    simp only [List.length_drop] at hn
    rw [collectLoop, if_pos hlt]
    have : tryDecode D s off buf e = .next (off + n) t :=
      (tryDecode_at ho).2 ⟨by omega, by rw [Nat.add_sub_cancel_left]; exact hit.1⟩
    rw [this]
    simp only
    rw [hit.2]
    simp only
    have := ih (off := off + n) (items := items ++ [x]) (by omega) (by rw [List.drop_drop])
    simpa [List.append_assoc] using this

theorem runs_loop {D : Decoder σ α} {buf : Bytes} {e : Eos} {b : Bytes} {s s' : σ} {xs : List α}
    {n : Nat} (h : Runs D e b s xs n s') : ∀ {off items}, off ≤ buf.length → buf.drop off = b →
      off + n = buf.length →
      collectLoop D buf e off s items = some (.done buf.length s' (items ++ xs)) := by
  induction h with
  | stop b s =>
    intro off items ho hb hn
    rw [collectLoop, if_neg (by omega)]
    simp at hn ⊢
    exact hn
  | @step b s t s1 s2 x xs n m hne hit hn hr ih =>
    intro off items ho hb hnm
    subst hb
    have hlt : off < buf.length := by
      have := List.length_pos_iff.2 hne
      simp at this
      omega
    simp only [List.length_drop] at hn
    rw [collectLoop, if_pos hlt]
    have : tryDecode D s off buf e = .next (off + n) t :=
      (tryDecode_at ho).2 ⟨by omega, by rw [Nat.add_sub_cancel_left]; exact hit.1⟩
    rw [this]
    simp only
    rw [hit.2]
    simp only
    rw [ih (by omega) (by rw [List.drop_drop]) (by omega)]
    simp [List.append_assoc]

/-- An item of `Collect` in terms of the loop. -/
theorem collect_done {D : Decoder σ α} {s t : CollectState σ α} {b : Bytes} {e : Eos} {n : Nat}
    (hs : (collectDecoder D).isIdle s = false)
    (h : (collectDecoder D).decode s b e = (.ok n, t)) (hi : (collectDecoder D).isIdle t = true) :
    collectLoop D b e 0 s.inner s.items = some (.done n t.inner t.items) ∧ e.isReached = true ∧
      s.eos = false ∧ t = ⟨t.inner, t.items, true⟩ := by
  have hs' : s.eos = false := hs
  have hi' : t.eos = true := hi
  simp only [collectDecoder] at h
  rw [if_neg (by simp [hs'])] at h
  split at h
  · cases h
  · cases h
    rw [hs'] at hi'
    cases hi'
  · next heq =>
    cases h
    rw [hs'] at hi'
    refine ⟨heq, ?_, hs', ?_⟩
    · cases he : e.isReached <;> simp_all
    · cases he : e.isReached <;> simp_all

theorem runs_collect {D : Decoder σ α} {s : CollectState σ α} {b : Bytes} {e : Eos}
    {xs : List α} {i : σ} (h : Runs D e b s.inner xs b.length i) (hs : s.eos = false)
    (he : e.isReached = true) :
    (collectDecoder D).decode s b e = (.ok b.length, ⟨i, s.items ++ xs, true⟩) := by
  have := runs_loop (buf := b) (off := 0) (items := s.items) h (by omega) rfl (by omega)
  simp only [collectDecoder]
  rw [if_neg (by simp [hs]), this]
  simp [he]

theorem stops_collect {D : Decoder σ α} {s : CollectState σ α} {b : Bytes} {e : Eos}
    {xs : List α} {i : σ} (h : Stops D e b s.inner xs i) (hs : s.eos = false)
    (hne : e.isReached = false) :
    (collectDecoder D).decode s b e = (.ok b.length, ⟨i, s.items ++ xs, false⟩) := by
  simp only [collectDecoder]
  rw [if_neg (by simp [hs])]
  rcases stops_loop (buf := b) (off := 0) (items := s.items) h (by omega) rfl with h | h <;> rw [h] <;>
    simp [hne, hs]

theorem splits_collect {D : Decoder σ α} {I : σ → Prop} (hI : Splits true D I) :
    Splits false (collectDecoder D) (fun s => I s.inner) := by
  have fin : ∀ {s s' : CollectState σ α} {x}, (collectDecoder D).finish s = (.ok x, s') →
      s' = ⟨s.inner, [], false⟩ := by
    intro s s' x h
    simp only [collectDecoder] at h
    split at h <;> cases h
    rfl
  have quiet : ∀ {s : CollectState σ α} (b e), (collectDecoder D).isIdle s = true →
      (collectDecoder D).decode s b e = (.ok 0, s) := by
    intro s b e hs
    have hs' : s.eos = true := hs
    simp [collectDecoder, hs']
  apply Splits.of_busy
  · intro s b e n t x s' hs hb hd ht hf
    obtain ⟨h1, _⟩ := collect_done hb hd ht
    have := (loop_runs hI.steps _ _ _ _ h1 hs (by omega) _ _ _ rfl).1
    omega
  · intro s b e n t x s' hs hb hd ht hf
    obtain ⟨h1, _⟩ := collect_done hb hd ht
    obtain ⟨_, xs, _, h2⟩ := loop_runs hI.steps _ _ _ _ h1 hs (by omega) _ _ _ rfl
    rw [fin hf]
    exact h2.inv hI.steps hs
  · intro s x s' hs hb hf
    rw [fin hf]
    exact hs
  · intro s a b e e1 n t x s' hs hi hd ht hf he hne
    rw [quiet _ _ hi] at hd ⊢
    cases hd
    exact ⟨rfl, rfl, rfl⟩
  · intro s a b e e1 n t x s' hs hi hd ht hf he hne
    obtain ⟨h1, hreach, h0, ht'⟩ := collect_done hi hd ht
    obtain ⟨hn, xs, hx, h2⟩ := loop_runs hI.steps _ _ _ _ h1 hs (by omega) _ _ _ rfl
    simp only [List.drop_zero, Nat.sub_zero] at h2
    simp only [List.length_append] at hn h2
    right
    rcases h2.split hI he hne rfl hs with k | ⟨k1, k2, ys, zs, u, k3, k4, k5, k6, k7⟩
    · have := k.le
      have hb : b = [] := List.eq_nil_of_length_eq_zero (by omega)
      subst hb
      refine ⟨by simp, by omega, ⟨t.inner, s.items ++ xs, false⟩,
        stops_collect (k.stops (by simp)) h0 hne, rfl, k.inv hI.steps hs, ?_⟩
      have hd' := runs_collect (D := D) (s := ⟨t.inner, s.items ++ xs, false⟩) (.stop [] t.inner) rfl hreach
      rw [hd', ht']
      simp [hn, hx]
    · refine ⟨by simp, by omega, ⟨u, s.items ++ ys, false⟩, stops_collect k5 h0 hne, rfl, k6, ?_⟩
      have : a.length + b.length - a.length = b.length := by omega
      rw [this] at k7
      rw [runs_collect (s := ⟨u, s.items ++ ys, false⟩) k7 rfl hreach, ht', hx, k3]
      simp [hn]

/-! ## Captured values -/

section Captured
variable {ε : Type} {F : ε → Decoder σ α} {v : ε}

theorem tryDecode_captured {s : σ} {off : Nat} {b : Bytes} {e : Eos} :
    tryDecode (capturedDecoder F) (v, s) off b e =
      match tryDecode (F v) s off b e with
      | .next n t => .next n (v, t)
      | .ret r t => .ret r (v, t) := by
  have hd : (capturedDecoder F).decode (v, s) (b.drop off) e =
      (((F v).decode s (b.drop off) e).1, v, ((F v).decode s (b.drop off) e).2) := rfl
  have hi : ∀ t, (capturedDecoder F).isIdle (v, t) = (F v).isIdle t := fun _ => rfl
  unfold tryDecode
  rw [hi s]
  by_cases h1 : (F v).isIdle s = true
  · simp only [h1, if_true]
  · rw [if_neg h1, if_neg h1]
    by_cases h2 : b.length < off
    · simp only [h2, if_true]
    · rw [if_neg h2, if_neg h2, hd]
      rcases (F v).decode s (b.drop off) e with ⟨r, t⟩
      cases r with
      | ok n =>
        simp only [hi]
        by_cases h3 : (F v).isIdle t = true
        · simp only [h3, if_true]
        · simp only [h3, Bool.false_eq_true, if_false]
      | _ => rfl

theorem tryDecode_captured_next {s : σ} {off n : Nat} {b : Bytes} {e : Eos} {t : ε × σ} :
    tryDecode (capturedDecoder F) (v, s) off b e = .next n t ↔
      tryDecode (F v) s off b e = .next n t.2 ∧ t.1 = v := by
  rw [tryDecode_captured]
  obtain ⟨w, t⟩ := t
  cases tryDecode (F v) s off b e with
  | next n' t' =>
    constructor
    · intro h; cases h; exact ⟨rfl, rfl⟩
    · rintro ⟨h, rfl⟩; cases h; rfl
  | ret r t' => exact ⟨nofun, fun h => by cases h.1⟩

theorem tryDecode_captured_ret {s : σ} {off : Nat} {b : Bytes} {e : Eos} {r : Res Nat} {t : ε × σ} :
    tryDecode (capturedDecoder F) (v, s) off b e = .ret r t ↔
      tryDecode (F v) s off b e = .ret r t.2 ∧ t.1 = v := by
  rw [tryDecode_captured]
  obtain ⟨w, t⟩ := t
  cases tryDecode (F v) s off b e with
  | next n' t' => exact ⟨nofun, fun h => by cases h.1⟩
  | ret r t' =>
    constructor
    · intro h; cases h; exact ⟨rfl, rfl⟩
    · rintro ⟨h, rfl⟩; cases h; rfl

theorem item_captured {s : σ} {b : Bytes} {e : Eos} {n : Nat} {t s' : ε × σ} {x : α} :
    Item (capturedDecoder F) (v, s) b e n t x s' ↔ Item (F v) s b e n t.2 x s'.2 ∧ t.1 = v ∧ s'.1 = v := by
  unfold Item
  rw [tryDecode_captured_next]
  obtain ⟨w, t⟩ := t
  constructor
  · rintro ⟨⟨h1, h2⟩, h3⟩
    cases h2
    obtain ⟨h3, h4⟩ := captured_finish.1 h3
    exact ⟨⟨h1, h3⟩, rfl, h4⟩
  · rintro ⟨⟨h1, h3⟩, h2, h4⟩
    cases h2
    exact ⟨⟨h1, rfl⟩, captured_finish.2 ⟨h3, h4⟩⟩

theorem splits_captured {p : Bool} {I : σ → Prop} (h : Splits p (F v) I) :
    Splits p (capturedDecoder F) fun s => s.1 = v ∧ I s.2 := by
  constructor
  · rintro ⟨_, s⟩ b e n t x s' ⟨rfl, hs⟩ hi
    exact h.bound hs (item_captured.1 hi).1
  · rintro ⟨_, s⟩ b e n t x s' ⟨rfl, hs⟩ hi
    obtain ⟨h1, _, h2⟩ := item_captured.1 hi
    exact ⟨h2, h.again hs h1⟩
  · rintro ⟨_, s⟩ a b e e1 n ⟨w, t⟩ x s' ⟨rfl, hs⟩ hi hd ht hf he hne
    obtain ⟨hd, hw⟩ := captured_decode.1 hd
    cases hw
    obtain ⟨hf, _⟩ := captured_finish.1 hf
    obtain ⟨h1, h2, h3⟩ := h.quiet hs hi hd ht hf he hne
    exact ⟨h1, congrArg _ h2, captured_decode.2 ⟨h3, rfl⟩⟩
  · rintro ⟨_, s⟩ a b e e1 n t x s' ⟨rfl, hs⟩ hi he hne
    obtain ⟨h1, h2, h3⟩ := item_captured.1 hi
    rcases h.split hs h1 he hne with k | ⟨k1, k2, u, k3, k4, k5⟩
    · exact .inl (item_captured.2 ⟨k, h2, h3⟩)
    · exact .inr ⟨k1, k2, (_, u), tryDecode_captured_ret.2 ⟨k3, rfl⟩, ⟨rfl, k4⟩, item_captured.2 ⟨k5, h2, h3⟩⟩

end Captured

/-! ## Every streamable decoder -/

/-- The states from which the splitting law holds. -/
def Good (p : Bool) (D : Decoder σ α) (s : σ) : Prop := ∃ I, Splits p D I ∧ I s

theorem good_splits (p : Bool) (D : Decoder σ α) : Splits p D (Good p D) := by
  constructor
  · rintro s b e n t x s' ⟨I, hI, hs⟩ h
    exact hI.bound hs h
  · rintro s b e n t x s' ⟨I, hI, hs⟩ h
    exact ⟨I, hI, hI.again hs h⟩
  · rintro s a b e e1 n t x s' ⟨I, hI, hs⟩ h1 h2 h3 h4 h5 h6
    exact hI.quiet hs h1 h2 h3 h4 h5 h6
  · rintro s a b e e1 n t x s' ⟨I, hI, hs⟩ h1 h2 h3
    rcases hI.split hs h1 h2 h3 with k | ⟨k1, k2, u, k3, k4, k5⟩
    · exact .inl k
    · exact .inr ⟨k1, k2, u, k3, ⟨I, hI, k4⟩, k5⟩

theorem streamable_splits {ok : Shape → Prop} {p q : Bool} {D : Decoder σ α} {s : σ}
    (h : Streamable ok p q D s) : Good p D s := by
  induction h with
  | own q hb hI => exact ⟨_, hb.splits, hI⟩
  | copyable p q b => exact ⟨_, splits_copyable p, by simp [CopyableState.new]⟩
  | bytes p q b => exact ⟨_, splits_bytes p, by simp [BytesDecoderState.new]⟩
  | remaining q => exact ⟨_, splits_remaining, by simp⟩
  | null p q => exact ⟨_, splits_null p, by simp⟩
  | padding q b => exact ⟨_, splits_padding, by simp⟩
  | number p q f k => exact ⟨_, splits_fix p f, by simp [fixInit]⟩
  | monolithic q parse hw => exact ⟨_, splits_monolithic hw, rfl⟩
  | utf8 _ ih => obtain ⟨I, h1, h2⟩ := ih; exact ⟨_, splits_utf8 h1, h2⟩
  | map f _ ih => obtain ⟨I, h1, h2⟩ := ih; exact ⟨_, splits_map f h1, h2⟩
  | tryMap f _ ih => obtain ⟨I, h1, h2⟩ := ih; exact ⟨_, splits_tryMap f h1, h2⟩
  | mapErr f _ ih => obtain ⟨I, h1, h2⟩ := ih; exact ⟨_, splits_mapErr f h1, h2⟩
  | omittable d _ ih => obtain ⟨I, h1, h2⟩ := ih; exact ⟨_, splits_omit h1, h2⟩
  | length p n _ _ ih => obtain ⟨I, h1, h2⟩ := ih; exact ⟨_, splits_length p h1, h2⟩
  | maxBytes n _ _ ih => obtain ⟨I, h1, h2⟩ := ih; exact ⟨_, splits_maxBytes h1, h2⟩
  | peekable _ ih => obtain ⟨I, h1, h2⟩ := ih; exact ⟨_, splits_peekable h1, h2⟩
  | maybeEos _ ih => obtain ⟨I, h1, h2⟩ := ih; exact ⟨_, splits_maybeEos h1, h2⟩
  | collect _ _ _ ih => obtain ⟨I, h1, h2⟩ := ih; exact ⟨_, splits_collect h1, h2⟩
  | collectN p n _ ih => obtain ⟨I, h1, h2⟩ := ih; exact ⟨_, splits_collectN p h1, h2⟩
  | pair _ _ ih0 ih1 =>
    obtain ⟨I0, h1, h2⟩ := ih0
    obtain ⟨I1, h3, h4⟩ := ih1
    exact ⟨_, splits_pair h1 h3, .inl h2, h4⟩
  | @andThen p q σ0 α0 σ1 α1 D0 D1 s0 f _ hx ih0 ih1 =>
    exact ⟨_, splits_andThen (good_splits p D0) (good_splits p D1) ih1, ih0, fun u hu => by cases hu⟩
  | captured F v _ ih => obtain ⟨I, h1, h2⟩ := ih; exact ⟨_, splits_captured h1, rfl, h2⟩

end Bytecodec
