import Verif.Spec.Exact
import Verif.Lemmas.Feed
/-!
# Lemmas: what `requiring_bytes` says about the item under way, and `decode_exact`
-/
namespace Bytecodec
open Spec

variable {σ α β ρ : Type}

/-- `F` holds at the start of items, `M` whenever a call may be made. -/
structure Steady (w p : Bool) (D : Decoder σ α) (F M : σ → Prop) : Prop where
  fresh : ∀ {s}, F s → M s
  good : ∀ {s}, M s → Good p D s
  hungry : w = true → ∀ {s}, F s → D.requiring s ≠ .finite 0
  idle : ∀ {s}, M s → D.isIdle s = true → F s
  calm : ∀ {s x s' e}, F s → D.isIdle s = true → D.finish s = (.ok x, s') →
    e = Eos.new false ∨ e = ⟨.finite 0⟩ → D.decode s [] e = (.ok 0, s)
  again : ∀ {s b e n t x s'}, M s → D.isIdle s = false → D.decode s b e = (.ok n, t) →
    D.isIdle t = true → D.finish t = (.ok x, s') → F s' ∧ D.requiring t = .finite 0
  againQuiet : ∀ {s x s'}, F s → D.isIdle s = true → D.finish s = (.ok x, s') →
    F s' ∧ D.requiring s = .finite 0
  need : ∀ {s b e n t x s'}, M s → D.isIdle s = false → D.decode s b e = (.ok n, t) →
    D.isIdle t = true → D.finish t = (.ok x, s') →
    (∃ k, D.requiring s = .finite k ∧ k ≤ n) ∨ (p = false ∧ n = b.length)
  step : ∀ {s a b e e1 n t x s' s1}, M s → D.isIdle s = false → D.decode s (a ++ b) e = (.ok n, t) →
    D.isIdle t = true → D.finish t = (.ok x, s') → Earlier e1 e b.length → e1.isReached = false →
    D.decode s a e1 = (.ok a.length, s1) → D.isIdle s1 = false → M s1 ∧ D.requiring s1 ≠ .finite 0

namespace Steady
variable {w p : Bool} {D : Decoder σ α} {F M : σ → Prop}

theorem item_again (h : Steady w p D F M) {s b e n t x s'} (hm : M s) (hi : Item D s b e n t x s') :
    F s' ∧ D.requiring t = .finite 0 := by
  cases hs : D.isIdle s with
  | true =>
    rw [item_quiet hs] at hi
    obtain ⟨rfl, rfl, hi⟩ := hi
    exact h.againQuiet (h.idle hm hs) hs hi
  | false => rw [item_busy hs] at hi; exact h.again hm hs hi.1 hi.2.1 hi.2.2

theorem item_need (h : Steady w p D F M) {s b e n t x s'} (hm : M s) (hi : Item D s b e n t x s') :
    (∃ k, D.requiring s = .finite k ∧ k ≤ n) ∨ (p = false ∧ n = b.length) := by
  cases hs : D.isIdle s with
  | true => rw [item_quiet hs] at hi; exact .inl ⟨0, (h.againQuiet (h.idle hm hs) hs hi.2.2).2, Nat.zero_le _⟩
  | false => rw [item_busy hs] at hi; exact h.need hm hs hi.1 hi.2.1 hi.2.2

theorem item_step (h : Steady w p D F M) {s a b e e1 n t x s' s1} (hm : M s)
    (hi : Item D s (a ++ b) e n t x s') (he : Earlier e1 e b.length) (hne : e1.isReached = false)
    (hr : tryDecode D s 0 a e1 = .ret (.ok a.length) s1) : M s1 ∧ D.requiring s1 ≠ .finite 0 := by
  have hs := tryDecode_ret_busy hr
  rw [item_busy hs] at hi
  rw [tryDecode_ret_iff hs] at hr
  exact h.step hm hs hi.1 hi.2.1 hi.2.2 he hne hr.1 hr.2

theorem bound (h : Steady w p D F M) {s b e n t x s'} (hm : M s) (hi : Item D s b e n t x s') :
    n ≤ b.length := (good_splits p D).bound (h.good hm) hi

/-- Wrappers that change neither the state nor what is asked for. -/
theorem transfer {D' : Decoder σ β} (h : Steady w p D F M)
    (hd : ∀ s b e n t, D'.decode s b e = (.ok n, t) ↔ D.decode s b e = (.ok n, t))
    (hi : ∀ s, D'.isIdle s = D.isIdle s) (hr : ∀ s, D'.requiring s = D.requiring s)
    (hf : ∀ t y s', D'.finish t = (.ok y, s') → ∃ x, D.finish t = (.ok x, s')) :
    Steady w p D' F M where
  fresh := h.fresh
  good hm := by
    obtain ⟨I, h1, h2⟩ := h.good hm
    exact ⟨I, h1.transfer hd hi hf, h2⟩
  hungry hw s hs := by rw [hr]; exact h.hungry hw hs
  idle hm hs := h.idle hm (by rwa [hi] at hs)
  calm hm hs hfin he := by
    obtain ⟨x, hx⟩ := hf _ _ _ hfin
    exact (hd _ _ _ _ _).2 (h.calm hm (by rwa [hi] at hs) hx he)
  again hm hs h1 h2 h3 := by
    obtain ⟨x, hx⟩ := hf _ _ _ h3
    rw [hr]
    exact h.again hm (by rwa [hi] at hs) ((hd _ _ _ _ _).1 h1) (by rwa [hi] at h2) hx
  againQuiet hm hs h3 := by
    obtain ⟨x, hx⟩ := hf _ _ _ h3
    rw [hr]
    exact h.againQuiet hm (by rwa [hi] at hs) hx
  need hm hs h1 h2 h3 := by
    obtain ⟨x, hx⟩ := hf _ _ _ h3
    rw [hr]
    exact h.need hm (by rwa [hi] at hs) ((hd _ _ _ _ _).1 h1) (by rwa [hi] at h2) hx
  step hm hs h1 h2 h3 h4 h5 h6 h7 := by
    obtain ⟨x, hx⟩ := hf _ _ _ h3
    rw [hr]
    exact h.step hm (by rwa [hi] at hs) ((hd _ _ _ _ _).1 h1) (by rwa [hi] at h2) hx h4 h5
      ((hd _ _ _ _ _).1 h6) (by rwa [hi] at h7)

end Steady

/-- States at the start of an item from which the laws hold. -/
def ExFresh (w p : Bool) (D : Decoder σ α) (s : σ) : Prop := ∃ F M, Steady w p D F M ∧ F s

/-- States between calls from which the laws hold. -/
def ExUnder (w p : Bool) (D : Decoder σ α) (s : σ) : Prop := ∃ F M, Steady w p D F M ∧ M s

theorem steady (w p : Bool) (D : Decoder σ α) :
    Steady w p D (ExFresh w p D) (ExUnder w p D) where
  fresh := by rintro s ⟨F, M, h, hs⟩; exact ⟨F, M, h, h.fresh hs⟩
  good := by rintro s ⟨F, M, h, hs⟩; exact h.good hs
  hungry := by rintro hw s ⟨F, M, h, hs⟩; exact h.hungry hw hs
  idle := by rintro s ⟨F, M, h, hs⟩ h1; exact ⟨F, M, h, h.idle hs h1⟩
  calm := by rintro s x s' e ⟨F, M, h, hs⟩ h1 h2 h3; exact h.calm hs h1 h2 h3
  again := by rintro s b e n t x s' ⟨F, M, h, hs⟩ h1 h2 h3 h4; have := h.again hs h1 h2 h3 h4; exact ⟨⟨F, M, h, this.1⟩, this.2⟩
  againQuiet := by rintro s x s' ⟨F, M, h, hs⟩ h1 h2; have := h.againQuiet hs h1 h2; exact ⟨⟨F, M, h, this.1⟩, this.2⟩
  need := by rintro s b e n t x s' ⟨F, M, h, hs⟩ h1 h2 h3 h4; exact h.need hs h1 h2 h3 h4
  step := by
    rintro s a b e e1 n t x s' s1 ⟨F, M, h, hs⟩ h1 h2 h3 h4 h5 h6 h7 h8
    exact ⟨⟨F, M, h, (h.step hs h1 h2 h3 h4 h5 h6 h7 h8).1⟩, (h.step hs h1 h2 h3 h4 h5 h6 h7 h8).2⟩

/-! ## Leaf decoders -/

/-- A decoder of the user's own does not ask for more than it consumes. -/
theorem asks_need {w : Bool} {D : Decoder σ α} {I : σ → Prop} (hb : Bytewise true D I) (ha : Asks w D I) {e : Eos} :
    ∀ (b : Bytes) {s n t}, I s → D.isIdle s = false → D.decode s b e = (.ok n, t) → D.isIdle t = true →
      ∃ k, D.requiring s = .finite k ∧ k ≤ n := by
  intro b
  induction b with
  | nil =>
    intro s n t hI hs hd ht
    cases he : e.isReached with
    | false => rw [hb.more hI hs he] at hd; cases hd; rw [hs] at ht; cases ht
    | true =>
      rcases hb.last hI hs he with ⟨k, u, hu⟩ | ⟨h, _⟩
      · rw [hu] at hd; cases hd
      · cases h
  | cons c b ih =>
    intro s n t hI hs hd ht
    obtain ⟨k, hk, hx⟩ := ha.busy hI hs
    rw [hb.cons hI hs] at hd
    have hst := hb.staysByte (c := c) hI hs
    rcases hb.byte (c := c) hI hs with ⟨u, hu⟩ | ⟨k', u, hu⟩
    · have hx := hx c u hu
      rw [hu] at hd hst
      simp only [thenDecode] at hd
      cases hi : D.isIdle u with
      | true =>
        simp only [hi, if_true] at hd
        cases hd
        have := hx.1 hi
        exact ⟨_, hk, by omega⟩
      | false =>
        simp only [hi, Bool.false_eq_true, if_false] at hd
        obtain ⟨k', h1, h2⟩ := hx.2 hi
        rcases hv : D.decode u b e with ⟨r, v⟩
        rw [hv] at hd
        cases r with
        | ok m =>
          cases hd
          obtain ⟨k2, h3, h4⟩ := ih hst hi hv ht
          rw [h1] at h3
          cases h3
          exact ⟨_, hk, by omega⟩
        | _ => cases hd
    · rw [hu] at hd; cases hd

theorem steady_own (w p : Bool) {D : Decoder σ α} {I : σ → Prop} (hb : Bytewise true D I) (ha : Asks w D I) :
    Steady w p D (fun s => I s ∧ (w = true → D.isIdle s = false)) (fun s => I s ∧ (w = true → D.isIdle s = false)) where
  fresh h := h
  good h := by
    cases p with
    | true => exact ⟨I, hb.splits, h.1⟩
    | false => exact ⟨I, hb.weaken.splits, h.1⟩
  hungry hw s h := by
    obtain ⟨k, hk, _⟩ := ha.busy h.1 (h.2 hw)
    rw [hk]
    simp
  idle h _ := h
  calm h hi _ _ := hb.idle h.1 hi
  again := by
    intro s b e n t x s' h hs hd ht hf
    have hI : I t := by have := hb.stays h.1 b e; rwa [hd] at this
    have hI' : I s' := by have := hb.staysFinish hI; rwa [hf] at this
    exact ⟨⟨hI', fun hw => ha.again hw hI hf⟩, ha.done hI ht⟩
  againQuiet := by
    intro s x s' h hs hf
    have hI' : I s' := by have := hb.staysFinish h.1; rwa [hf] at this
    exact ⟨⟨hI', fun hw => ha.again hw h.1 hf⟩, ha.done h.1 hs⟩
  need h hs hd ht _ := .inl (asks_need hb ha _ h.1 hs hd ht)
  step := by
    intro s a b e e1 n t x s' s1 h hs _ _ _ _ _ hd hs1
    have hI : I s1 := by have := hb.stays h.1 a e1; rwa [hd] at this
    obtain ⟨k, hk, _⟩ := ha.busy hI hs1
    exact ⟨⟨hI, fun _ => hs1⟩, by rw [hk]; simp⟩

theorem steady_copyable (w p : Bool) : Steady w p copyableBytesDecoder
    (fun s => s.offset = 0 ∧ (w = true → s.bytes.length ≠ 0))
    (fun s => (s.offset = 0 ∨ s.offset < s.bytes.length) ∧ (w = true → s.bytes.length ≠ 0)) := by
  have fin : ∀ {s x s'}, copyableBytesDecoder.finish s = (.ok x, s') →
      s.offset = s.bytes.length ∧ s' = { s with offset := 0 } := by
    intro s x s' h
    simp only [copyableBytesDecoder] at h
    split at h
    · next hc => cases h; exact ⟨hc, rfl⟩
    · cases h
  have idl : ∀ {s}, copyableBytesDecoder.isIdle s = true ↔ s.offset = s.bytes.length := by
    intro s; simp [copyableBytesDecoder]
  have dec : ∀ {s : CopyableState} {b e n t}, s.offset ≤ s.bytes.length →
      copyableBytesDecoder.decode s b e = (.ok n, t) →
      n = min b.length (s.bytes.length - s.offset) ∧ t.offset = s.offset + n ∧
        t.bytes.length = s.bytes.length := by
    intro s b e n t hs h
    rw [copyable_eq b e hs] at h
    split at h
    · cases h
    · cases h
      exact ⟨rfl, rfl, splice_length (by simp; omega)⟩
  have le : ∀ {s : CopyableState}, (s.offset = 0 ∨ s.offset < s.bytes.length) →
      s.offset ≤ s.bytes.length := by intro s h; omega
  constructor
  · rintro s ⟨h1, h2⟩; exact ⟨.inl h1, h2⟩
  · rintro s ⟨h1, h2⟩; exact ⟨_, splits_copyable p, le h1⟩
  · rintro hw s ⟨h1, h2⟩
    have := h2 hw
    simp only [copyableBytesDecoder, ne_eq, ByteCount.finite.injEq]
    omega
  · rintro s ⟨h1, h2⟩ h3
    rw [idl] at h3
    exact ⟨by omega, h2⟩
  · rintro s x s' e ⟨h1, h2⟩ h3 h4 h5
    rw [idl] at h3
    obtain ⟨bs, off⟩ := s
    simp only at h1 h3
    subst h1
    have : bs = [] := List.eq_nil_of_length_eq_zero h3.symm
    subst this
    rw [copyable_eq _ _ (by simp)]
    simp [splice]
  · rintro s b e n t x s' ⟨h1, h2⟩ h3 h4 h5 h6
    obtain ⟨h7, rfl⟩ := fin h6
    have := dec (le h1) h4
    exact ⟨⟨rfl, fun hw => by have := h2 hw; simp only; omega⟩, by simp [copyableBytesDecoder, h7]⟩
  · rintro s x s' ⟨h1, h2⟩ h3 h4
    obtain ⟨h7, rfl⟩ := fin h4
    exact ⟨⟨rfl, h2⟩, by simp [copyableBytesDecoder, h7]⟩
  · rintro s b e n t x s' ⟨h1, h2⟩ h3 h4 h5 h6
    have := dec (le h1) h4
    rw [idl] at h5
    exact .inl ⟨_, rfl, by have := le h1; omega⟩
  · rintro s a b e e1 n t x s' s1 ⟨h1, h2⟩ h3 h4 h5 h6 h7 h8 h9 h10
    have k := dec (le h1) h9
    have hn : ¬ s1.offset = s1.bytes.length := by rw [← idl]; simp [h10]
    have := le h1
    refine ⟨⟨.inr (by omega), fun hw => by have := h2 hw; omega⟩, ?_⟩
    simp only [copyableBytesDecoder, ne_eq, ByteCount.finite.injEq]
    omega

theorem steady_bytes (p : Bool) : Steady false p bytesDecoder
    (fun s => ∀ b, s.bytes = some b → s.offset = 0)
    (fun s => ∀ b, s.bytes = some b → s.offset = 0 ∨ s.offset < b.length) := by
  have le : ∀ {s : BytesDecoderState}, (∀ b, s.bytes = some b → s.offset = 0 ∨ s.offset < b.length) →
      ∀ b, s.bytes = some b → s.offset ≤ b.length := by
    intro s h b hb; have := h b hb; omega
  have fin : ∀ {s x s'}, bytesDecoder.finish s = (.ok x, s') → s.exact = 0 ∧ s.bytes = some x ∧ s'.bytes = none := by
    intro s x s' h
    simp only [bytesDecoder] at h
    split at h
    · cases h
    · next h1 =>
      split at h
      · cases h
      · next h2 => cases h; exact ⟨by omega, h2, rfl⟩
  have dec : ∀ {s : BytesDecoderState} {b e n t}, (∀ b, s.bytes = some b → s.offset ≤ b.length) →
      bytesDecoder.decode s b e = (.ok n, t) →
      ∃ bs cs, s.bytes = some bs ∧ t.bytes = some cs ∧ n = min b.length (bs.length - s.offset) ∧
        t.offset = s.offset + n ∧ cs.length = bs.length := by
    intro s b e n t hs h
    obtain ⟨o, off⟩ := s
    cases o with
    | none => simp [bytesDecoder] at h
    | some bs =>
      have hle := hs bs rfl
      simp only at hle
      obtain ⟨u, hu, rfl⟩ := (bytes_ok hle).1 h
      rw [copyable_eq b e hle] at hu
      split at hu
      · cases hu
      · cases hu
        exact ⟨bs, _, rfl, rfl, rfl, rfl, splice_length (by simp; omega)⟩
  have exact_some : ∀ {s : BytesDecoderState} {b}, s.bytes = some b → s.exact = b.length - s.offset := by
    intro s b h; simp [BytesDecoderState.exact, h]
  constructor
  · intro s h b hb; exact .inl (h b hb)
  · intro s h; exact ⟨_, splits_bytes p, le h⟩
  · intro hw; cases hw
  · intro s h hi b hb
    have h1 : s.exact = 0 := by simpa [bytesDecoder] using hi
    rw [exact_some hb] at h1
    have := h b hb
    omega
  · intro s x s' e h hi hf he
    obtain ⟨h1, h2, _⟩ := fin hf
    obtain ⟨o, off⟩ := s
    simp only at h2
    subst h2
    have h0 := h x rfl
    simp only at h0
    subst h0
    have : x = [] := List.eq_nil_of_length_eq_zero (by simpa [BytesDecoderState.exact] using h1)
    subst this
    rw [bytes_ok (by simp)]
    refine ⟨⟨[], 0⟩, ?_, rfl⟩
    rw [copyable_eq _ _ (by simp)]
    simp [splice]
  · intro s b e n t x s' h h1 h2 h3 h4
    refine ⟨fun c hc => ?_, by simp [bytesDecoder, (fin h4).1]⟩
    rw [(fin h4).2.2] at hc; cases hc
  · intro s x s' h h1 h4
    refine ⟨fun c hc => ?_, by simp [bytesDecoder, (fin h4).1]⟩
    rw [(fin h4).2.2] at hc; cases hc
  · intro s b e n t x s' h h1 h2 h3 h4
    obtain ⟨bs, cs, k1, k2, k3, k4, k5⟩ := dec (le h) h2
    have := (fin h4).1
    rw [exact_some k2] at this
    have := h bs k1
    exact .inl ⟨_, rfl, by rw [exact_some k1]; omega⟩
  · intro s a b e e1 n t x s' s1 h h1 h2 h3 h4 h5 h6 h7 h8
    obtain ⟨bs, cs, k1, k2, k3, k4, k5⟩ := dec (le h) h7
    have h9 : ¬ s1.exact = 0 := by simpa [bytesDecoder] using h8
    have h9' := h9
    rw [exact_some k2] at h9'
    refine ⟨?_, ?_⟩
    · intro c hc
      rw [k2] at hc
      cases hc
      right; omega
    · simpa [bytesDecoder] using h9

theorem steady_fix (w p : Bool) (f : Bytes → α) : Steady w p (fixDecoder f)
    (fun s => s.offset = 0 ∧ (w = true → s.bytes.length ≠ 0))
    (fun s => (s.offset = 0 ∨ s.offset < s.bytes.length) ∧ (w = true → s.bytes.length ≠ 0)) := by
  refine (steady_copyable w p).transfer (fun _ _ _ _ _ => Iff.rfl) (fun _ => rfl) (fun _ => rfl) ?_
  intro t y s' h
  exact step_id_ok (by rintro a s y s' h; cases h; rfl) h

/-- Decoders of everything up to the end of the stream. -/
theorem steady_toEnd (w : Bool) {D : Decoder σ α} {F : σ → Prop} (h : ∀ {s}, F s → Good false D s)
    (idle : ∀ {s}, F s → D.isIdle s = false)
    (req : ∀ {s}, F s → D.requiring s ≠ .finite 0)
    (done : ∀ {s x s'}, D.finish s = (.ok x, s') → D.requiring s = .finite 0 ∧ F s')
    (dec : ∀ {s b e n t}, F s → D.decode s b e = (.ok n, t) → n = b.length ∧ (D.isIdle t = false → F t)) :
    Steady w false D F F := by
  constructor
  · intro s h; exact h
  · exact h
  · intro _; exact req
  · intro s h _; exact h
  · intro s x s' e h1 h2; rw [idle h1] at h2; cases h2
  · intro s b e n t x s' _ _ _ _ h1; exact ⟨(done h1).2, (done h1).1⟩
  · intro s x s' _ _ h1; exact ⟨(done h1).2, (done h1).1⟩
  · intro s b e n t x s' h1 _ h2 _ _; exact .inr ⟨rfl, (dec h1 h2).1⟩
  · intro s a b e e1 n t x s' s1 h1 _ _ _ _ _ _ h2 h3
    have := (dec h1 h2).2 h3
    exact ⟨this, req this⟩

theorem steady_remaining (w : Bool) :
    Steady w false remainingBytesDecoder (fun s => s.eos = false) (fun s => s.eos = false) := by
  apply steady_toEnd
  · intro s _; exact ⟨_, splits_remaining, trivial⟩
  · intro s h; exact h
  · intro s h; simp [remainingBytesDecoder, h]
  · intro s x s' h
    simp only [remainingBytesDecoder] at h ⊢
    split at h <;> cases h
    next h1 => exact ⟨by simp [h1], rfl⟩
  · intro s b e n t h h1
    simp only [remainingBytesDecoder] at h1 ⊢
    rw [if_neg (by simp [h])] at h1
    split at h1
    · split at h1
      · cases h1
      · split at h1 <;> cases h1
        exact ⟨rfl, id⟩
    · cases h1; exact ⟨rfl, id⟩

theorem steady_padding (w : Bool) :
    Steady w false paddingDecoder (fun s => s.eos = false) (fun s => s.eos = false) := by
  apply steady_toEnd
  · intro s _; exact ⟨_, splits_padding, trivial⟩
  · intro s h; exact h
  · intro s h; simp [paddingDecoder, h]
  · intro s x s' h
    simp only [paddingDecoder] at h ⊢
    split at h <;> cases h
    next h1 => exact ⟨by simp [h1], rfl⟩
  · intro s b e n t h h1
    simp only [paddingDecoder] at h1 ⊢
    rw [if_neg (by simp [h])] at h1
    split at h1
    · split at h1 <;> cases h1
      exact ⟨rfl, id⟩
    · cases h1; exact ⟨rfl, id⟩

theorem steady_monolithic (w : Bool) {parse : MonolithicParser α} (hp : WholeParser parse) :
    Steady w false (monolithicDecoder parse) (fun s => s.item = none) (fun s => s.item = none) := by
  apply steady_toEnd
  · intro s h; exact ⟨_, splits_monolithic hp, h⟩
  · intro s h; simp [monolithicDecoder, h]
  · intro s h; simp [monolithicDecoder, h]
  · intro s x s' h
    simp only [monolithicDecoder] at h ⊢
    split at h <;> cases h
    next h1 => exact ⟨by simp [h1], rfl⟩
  · intro s b e n t h h1
    simp only [monolithicDecoder] at h1 ⊢
    split at h1
    · split at h1 <;> cases h1
      next hq =>
        have := hp.whole s.buf b _ (by rw [hq])
        rw [hq] at this
        simp only at this
        exact ⟨by omega, by simp⟩
    · cases h1; exact ⟨rfl, fun _ => h⟩

theorem steady_null (p : Bool) : Steady false p nullDecoder (fun _ => True) (fun _ => True) := by
  constructor
  · intros; trivial
  · intros; exact ⟨_, splits_null p, trivial⟩
  · intro hw; cases hw
  · intros; trivial
  · intros; rfl
  · intros; exact ⟨trivial, rfl⟩
  · intros; exact ⟨trivial, rfl⟩
  · intro s b e n t x s' _ h; cases h
  · intro s a b e e1 n t x s' s1 _ h; cases h

/-! ## Wrappers -/

theorem steady_utf8 {w p : Bool} {D : Decoder σ Bytes} {F M : σ → Prop} (h : Steady w p D F M) :
    Steady w p (utf8Decoder D) F M := by
  refine h.transfer (fun _ _ _ _ _ => Iff.rfl) (fun _ => rfl) (fun _ => rfl) ?_
  intro t y s' h
  refine step_id_ok ?_ h
  intro a s y s' h
  split at h <;> cases h
  rfl

theorem steady_map {w p : Bool} {D : Decoder σ α} {F M : σ → Prop} (f : α → β) (h : Steady w p D F M) :
    Steady w p (mapDecoder D f) F M := by
  refine h.transfer (fun _ _ _ _ _ => Iff.rfl) (fun _ => rfl) (fun _ => rfl) ?_
  intro t y s' h
  exact step_id_ok (by rintro a s y s' h; cases h; rfl) h

theorem steady_tryMap {w p : Bool} {D : Decoder σ α} {F M : σ → Prop} (f : α → Except ErrorKind β)
    (h : Steady w p D F M) : Steady w p (tryMapDecoder D f) F M := by
  refine h.transfer (fun _ _ _ _ _ => Iff.rfl) (fun _ => rfl) (fun _ => rfl) ?_
  intro t y s' h
  refine step_id_ok ?_ h
  intro a s y s' h
  split at h <;> cases h
  rfl

theorem steady_mapErr {w p : Bool} {D : Decoder σ α} {F M : σ → Prop} (f : ErrorKind → ErrorKind)
    (h : Steady w p D F M) : Steady w p (mapErrDecoder D f) F M := by
  refine h.transfer ?_ (fun _ => rfl) (fun _ => rfl) ?_
  · intro s b e n t
    simp only [mapErrDecoder, Prod.mk.injEq, mapErr_ok_iff]
    constructor
    · rintro ⟨h1, h2⟩; exact Prod.ext h1 h2
    · intro h; rw [h]; exact ⟨rfl, rfl⟩
  · intro t y s' h
    simp only [mapErrDecoder, Prod.mk.injEq, mapErr_ok_iff] at h
    exact ⟨y, Prod.ext h.1 h.2⟩

theorem steady_omit {w p : Bool} {D : Decoder σ α} {F M : σ → Prop} (h : Steady w p D F M) :
    Steady w p (omittableDecoder D)
      (fun s => (s.doOmit = true ∧ w = false ∧ Good p D s.inner) ∨ (s.doOmit = false ∧ F s.inner))
      (fun s => (s.doOmit = true ∧ w = false ∧ Good p D s.inner) ∨ (s.doOmit = false ∧ M s.inner)) := by
  have busy : ∀ {i d}, (omittableDecoder D).isIdle ⟨i, d⟩ = false → d = false ∧ D.isIdle i = false := by
    intro i d hs
    simpa [omittableDecoder] using hs
  have idl : ∀ {i}, (omittableDecoder D).isIdle ⟨i, false⟩ = D.isIdle i := by
    intro i; simp [omittableDecoder]
  have req : ∀ {i}, (omittableDecoder D).requiring ⟨i, false⟩ = D.requiring i := by
    intro i; simp [omittableDecoder]
  constructor
  · rintro s (h1 | ⟨h1, h2⟩)
    · exact .inl h1
    · exact .inr ⟨h1, h.fresh h2⟩
  · rintro s (⟨h1, _, h2⟩ | ⟨h1, h2⟩)
    · exact ⟨_, splits_omit (good_splits p D), h2⟩
    · exact ⟨_, splits_omit (good_splits p D), h.good h2⟩
  · rintro h0 ⟨i, d⟩ (⟨h1, h3, h2⟩ | ⟨h1, h2⟩)
    · rw [h0] at h3; cases h3
    · simp only at h1 h2
      subst h1
      rw [req]; exact h.hungry h0 h2
  · rintro ⟨i, d⟩ (h1 | ⟨h1, h2⟩) h3
    · exact .inl h1
    · simp only at h1 h2
      subst h1
      rw [idl] at h3
      exact .inr ⟨rfl, h.idle h2 h3⟩
  · rintro ⟨i, d⟩ x s' e (h1 | ⟨h1, h2⟩) h3 h4 h5
    · obtain rfl : d = true := h1.1
      simp [omittableDecoder]
    · simp only at h1 h2
      subst h1
      rw [idl] at h3
      obtain ⟨y, j, h6, rfl, rfl⟩ := omit_fin.1 h4
      exact omit_ok.2 ⟨_, h.calm h2 h3 h6 h5, rfl⟩
  · rintro ⟨i, d⟩ b e n t x s' hm hs hd ht hf
    obtain ⟨rfl, hs⟩ := busy hs
    rcases hm with ⟨hm, _⟩ | ⟨_, hm⟩
    · cases hm
    obtain ⟨j, hj, rfl⟩ := omit_ok.1 hd
    obtain ⟨y, k, hk, rfl, rfl⟩ := omit_fin.1 hf
    rw [idl] at ht
    rw [req]
    exact ⟨.inr ⟨rfl, (h.again hm hs hj ht hk).1⟩, (h.again hm hs hj ht hk).2⟩
  · rintro ⟨i, d⟩ x s' hm hs hf
    rcases hm with ⟨hm, hm2⟩ | ⟨rfl, hm⟩
    · simp only at hm
      subst hm
      simp only [omittableDecoder, if_true] at hf
      cases hf
      exact ⟨.inl ⟨rfl, hm2⟩, by simp [omittableDecoder]⟩
    · obtain ⟨y, k, hk, rfl, rfl⟩ := omit_fin.1 hf
      rw [idl] at hs
      rw [req]
      exact ⟨.inr ⟨rfl, (h.againQuiet hm hs hk).1⟩, (h.againQuiet hm hs hk).2⟩
  · rintro ⟨i, d⟩ b e n t x s' hm hs hd ht hf
    obtain ⟨rfl, hs⟩ := busy hs
    rcases hm with ⟨hm, _⟩ | ⟨_, hm⟩
    · cases hm
    obtain ⟨j, hj, rfl⟩ := omit_ok.1 hd
    obtain ⟨y, k, hk, rfl, rfl⟩ := omit_fin.1 hf
    rw [idl] at ht
    rw [req]; exact h.need hm hs hj ht hk
  · rintro ⟨i, d⟩ a b e e1 n t x s' s1 hm hs hd ht hf he hne h1 h2
    obtain ⟨rfl, hs⟩ := busy hs
    rcases hm with ⟨hm, _⟩ | ⟨_, hm⟩
    · cases hm
    obtain ⟨j, hj, rfl⟩ := omit_ok.1 hd
    obtain ⟨y, k, hk, rfl, rfl⟩ := omit_fin.1 hf
    obtain ⟨u, hu, rfl⟩ := omit_ok.1 h1
    rw [idl] at ht h2
    obtain ⟨g1, g2⟩ := h.step hm hs hj ht hk he hne hu h2
    rw [req]
    exact ⟨.inr ⟨rfl, g1⟩, g2⟩

theorem steady_length (w p : Bool) {w' q : Bool} {D : Decoder σ α} {F M : σ → Prop}
    (h : Steady w' q D F M) :
    Steady w p (lengthDecoder D)
      (fun s => F s.inner ∧ s.remaining = s.expected ∧ (w = true → s.expected ≠ 0))
      (fun s => M s.inner ∧ (D.isIdle s.inner = false ∨ s.remaining = s.expected) ∧
        (w = true → s.expected ≠ 0)) := by
  have idl : ∀ {s}, (lengthDecoder D).isIdle s = D.isIdle s.inner := fun {s} => rfl
  have req : ∀ {s}, (lengthDecoder D).requiring s = .finite s.remaining := fun {s} => rfl
  constructor
  · rintro s ⟨h1, h2, h3⟩; exact ⟨h.fresh h1, .inr h2, h3⟩
  · rintro s ⟨h1, _⟩; exact ⟨_, splits_length p (good_splits q D), h.good h1⟩
  · rintro hw s ⟨h1, h2, h3⟩
    rw [req, h2]
    simpa using h3 hw
  · rintro s ⟨h1, h2, h3⟩ h4
    rw [idl] at h4
    refine ⟨h.idle h1 h4, ?_, h3⟩
    rcases h2 with h2 | h2
    · rw [h4] at h2; cases h2
    · exact h2
  · rintro s x s' e ⟨h1, h2, h3⟩ h4 h5 h6
    obtain ⟨h7, i, h8, rfl⟩ := length_fin.1 h5
    rw [length_ok]
    refine ⟨?_, s.inner, ?_, Nat.zero_le _, ?_⟩
    · intro r hr
      rcases h6 with rfl | rfl
      · cases hr
      · cases hr; simp [h7]
    · rw [h7]; exact h.calm h1 h4 h8 (.inr rfl)
    · rfl
  · rintro s b e n t x s' ⟨h1, h2, h3⟩ hs hd ht hf
    obtain ⟨_, i, hi, hn, rfl⟩ := length_ok.1 hd
    obtain ⟨h7, j, h8, rfl⟩ := length_fin.1 hf
    exact ⟨⟨(h.again h1 hs hi ht h8).1, rfl, h3⟩, congrArg _ h7⟩
  · rintro s x s' ⟨h1, h2, h3⟩ hs hf
    obtain ⟨h7, j, h8, rfl⟩ := length_fin.1 hf
    exact ⟨⟨(h.againQuiet h1 hs h8).1, rfl, h3⟩, congrArg _ h7⟩
  · rintro s b e n t x s' ⟨h1, h2, h3⟩ hs hd ht hf
    obtain ⟨_, i, hi, hn, rfl⟩ := length_ok.1 hd
    obtain ⟨h7, j, h8, rfl⟩ := length_fin.1 hf
    simp only at h7
    exact .inl ⟨_, req, by omega⟩
  · rintro s a b e e1 n t x s' s1 ⟨h1, h2, h3⟩ hs hd ht hf he hne hd1 hs1
    obtain ⟨_, i, hi, hn, rfl⟩ := length_ok.1 hd
    obtain ⟨h7, j, h8, rfl⟩ := length_fin.1 hf
    simp only at h7
    obtain ⟨_, u, hu, hna, rfl⟩ := length_ok.1 hd1
    rw [idl] at hs ht hs1
    simp only at ht hs1
    have hb := h.bound h1 ((item_busy hs).2 ⟨hi, ht, h8⟩)
    simp only [List.length_take, List.length_append] at hb
    have hlt : a.length < s.remaining := by
      refine Nat.lt_of_le_of_ne hna fun hc => ?_
      have e1 : (a ++ b).take s.remaining = a.take s.remaining := List.take_append_of_le_length (by omega)
      have e2 : s.remaining - min (a ++ b).length s.remaining = s.remaining - min a.length s.remaining := by
        simp only [List.length_append]; omega
      rw [e1, e2, hu] at hi
      cases hi
      rw [ht] at hs1
      cases hs1
    have e1 : (a ++ b).take s.remaining = a ++ b.take (s.remaining - a.length) := by
      rw [List.take_append, List.take_of_length_le hna]
    have e2 : s.remaining - min (a ++ b).length s.remaining = 0 := by
      simp only [List.length_append]; omega
    have e3 : a.take s.remaining = a := List.take_of_length_le hna
    have e4 : s.remaining - min a.length s.remaining = s.remaining - a.length := by omega
    rw [e1, e2] at hi
    rw [e3, e4] at hu
    have hl : (b.take (s.remaining - a.length)).length = s.remaining - a.length := by
      simp only [List.length_take]; omega
    have := h.step h1 hs hi ht h8 (e1 := ⟨.finite (s.remaining - a.length)⟩)
      (.inr (by rw [hl]; simp [eosShift])) (by
        simp only [Eos.isReached]
        simp
        omega) hu hs1
    refine ⟨⟨this.1, .inl hs1, h3⟩, ?_⟩
    rw [req]
    simp only [ne_eq, ByteCount.finite.injEq]
    omega

theorem steady_maxBytes {w p : Bool} {D : Decoder σ α} {F M : σ → Prop} (h : Steady w p D F M) :
    Steady w p (maxBytesDecoder D) (fun s => F s.inner ∧ s.consumed = 0)
      (fun s => M s.inner ∧ (D.isIdle s.inner = false ∨ s.consumed = 0)) := by
  have idl : ∀ {s}, (maxBytesDecoder D).isIdle s = D.isIdle s.inner := fun {s} => rfl
  have req : ∀ {s}, (maxBytesDecoder D).requiring s = D.requiring s.inner := fun {s} => rfl
  constructor
  · rintro s ⟨h1, h2⟩; exact ⟨h.fresh h1, .inr h2⟩
  · rintro s ⟨h1, _⟩; exact ⟨_, splits_maxBytes (good_splits p D), h.good h1⟩
  · rintro hw s ⟨h1, h2⟩
    exact h.hungry hw h1
  · rintro s ⟨h1, h2⟩ h4
    rw [idl] at h4
    refine ⟨h.idle h1 h4, ?_⟩
    rcases h2 with h2 | h2
    · rw [h4] at h2; cases h2
    · exact h2
  · rintro s x s' e ⟨h1, h2⟩ h4 h5 h6
    obtain ⟨i, h8, rfl⟩ := maxBytes_fin.1 h5
    rw [maxBytes_ok]
    refine ⟨?_, by omega, by simp, ?_, s.inner, h.calm h1 h4 h8 h6, rfl⟩
    · rcases h6 with rfl | rfl <;> simp [Eos.new]
    · intro r hr
      rcases h6 with rfl | rfl
      · cases hr
      · cases hr; simp
  · rintro s b e n t x s' ⟨h1, h2⟩ hs hd ht hf
    obtain ⟨_, _, _, _, i, hi, rfl⟩ := maxBytes_ok.1 hd
    obtain ⟨j, h8, rfl⟩ := maxBytes_fin.1 hf
    exact ⟨⟨(h.again h1 hs hi ht h8).1, rfl⟩, (h.again h1 hs hi ht h8).2⟩
  · rintro s x s' ⟨h1, h2⟩ hs hf
    obtain ⟨j, h8, rfl⟩ := maxBytes_fin.1 hf
    exact ⟨⟨(h.againQuiet h1 hs h8).1, rfl⟩, (h.againQuiet h1 hs h8).2⟩
  · rintro s b e n t x s' ⟨h1, h2⟩ hs hd ht hf
    obtain ⟨_, _, _, _, i, hi, rfl⟩ := maxBytes_ok.1 hd
    obtain ⟨j, h8, rfl⟩ := maxBytes_fin.1 hf
    exact h.need h1 hs hi ht h8
  · rintro s a b e e1 n t x s' s1 ⟨h1, h2⟩ hs hd ht hf he hne hd1 hs1
    obtain ⟨_, _, _, _, i, hi, rfl⟩ := maxBytes_ok.1 hd
    obtain ⟨j, h8, rfl⟩ := maxBytes_fin.1 hf
    obtain ⟨_, _, _, _, u, hu, rfl⟩ := maxBytes_ok.1 hd1
    have := h.step h1 hs hi ht h8 he hne hu hs1
    exact ⟨⟨this.1, .inl hs1⟩, this.2⟩

theorem steady_maybeEos {w p : Bool} {D : Decoder σ α} {F M : σ → Prop} (h : Steady w p D F M) :
    Steady w p (maybeEosDecoder D) (fun s => F s.inner ∧ s.started = false)
      (fun s => M s.inner ∧ (D.isIdle s.inner = false ∨ s.started = false)) := by
  have idl : ∀ {s}, (maybeEosDecoder D).isIdle s = D.isIdle s.inner := fun {s} => rfl
  have req : ∀ {s}, (maybeEosDecoder D).requiring s = D.requiring s.inner := fun {s} => rfl
  constructor
  · rintro s ⟨h1, h2⟩; exact ⟨h.fresh h1, .inr h2⟩
  · rintro s ⟨h1, _⟩; exact ⟨_, splits_maybeEos (good_splits p D), h.good h1⟩
  · rintro hw s ⟨h1, h2⟩
    exact h.hungry hw h1
  · rintro s ⟨h1, h2⟩ h4
    rw [idl] at h4
    refine ⟨h.idle h1 h4, ?_⟩
    rcases h2 with h2 | h2
    · rw [h4] at h2; cases h2
    · exact h2
  · rintro s x s' e ⟨h1, h2⟩ h4 h5 h6
    obtain ⟨i, h8, rfl⟩ := maybe_fin.1 h5
    rw [maybe_ok]
    refine ⟨s.inner, h.calm h1 h4 h8 ?_, rfl⟩
    rw [maybeMark]
    split
    · exact .inl rfl
    · exact h6
  · rintro s b e n t x s' ⟨h1, h2⟩ hs hd ht hf
    obtain ⟨i, hi, rfl⟩ := maybe_ok.1 hd
    obtain ⟨j, h8, rfl⟩ := maybe_fin.1 hf
    exact ⟨⟨(h.again h1 hs hi ht h8).1, rfl⟩, (h.again h1 hs hi ht h8).2⟩
  · rintro s x s' ⟨h1, h2⟩ hs hf
    obtain ⟨j, h8, rfl⟩ := maybe_fin.1 hf
    exact ⟨⟨(h.againQuiet h1 hs h8).1, rfl⟩, (h.againQuiet h1 hs h8).2⟩
  · rintro s b e n t x s' ⟨h1, h2⟩ hs hd ht hf
    obtain ⟨i, hi, rfl⟩ := maybe_ok.1 hd
    obtain ⟨j, h8, rfl⟩ := maybe_fin.1 hf
    exact h.need h1 hs hi ht h8
  · rintro s a b e e1 n t x s' s1 ⟨h1, h2⟩ hs hd ht hf he hne hd1 hs1
    obtain ⟨i, hi, rfl⟩ := maybe_ok.1 hd
    obtain ⟨j, h8, rfl⟩ := maybe_fin.1 hf
    obtain ⟨u, hu, rfl⟩ := maybe_ok.1 hd1
    rw [maybeMark_not_reached hne] at hu
    have : M u ∧ D.requiring u ≠ .finite 0 := by
      rw [maybeMark] at hi
      split at hi
      · next hc =>
        simp only [Bool.and_eq_true, List.isEmpty_iff, List.append_eq_nil_iff] at hc
        obtain ⟨⟨_, rfl, rfl⟩, hc⟩ := hc
        have : e1 = Eos.new false := by
          rcases he with he | he
          · exact he
          · exfalso
            subst he
            obtain ⟨r⟩ := e
            cases r <;> simp_all [eosShift, Eos.isReached]
        subst this
        exact h.step h1 hs hi ht h8 (.inl rfl) rfl hu hs1
      · exact h.step h1 hs hi ht h8 he hne hu hs1
    exact ⟨⟨this.1, .inl hs1⟩, this.2⟩

theorem steady_peekable {w p : Bool} {D : Decoder σ α} {F M : σ → Prop} (h : Steady w p D F M) :
    Steady w p (peekableDecoder D) (fun s => F s.inner ∧ s.item = none)
      (fun s => M s.inner ∧ s.item = none) := by
  have fin : ∀ {s s' : PeekState σ α} {x}, (peekableDecoder D).finish s = (.ok x, s') →
      s.item = some x ∧ s' = ⟨s.inner, none⟩ := by
    intro s s' x hf
    simp only [peekableDecoder] at hf
    split at hf <;> cases hf
    next hi => exact ⟨hi, rfl⟩
  have item : ∀ {i j b e n x k}, M i → D.decode i b e = (.ok n, j) →
      D.isIdle j = true → D.finish j = (.ok x, k) → Item D i b e n j x k := by
    intro i j b e n x k hM h2 h3 h4
    cases hi : D.isIdle i with
    | false => exact (item_busy hi).2 ⟨h2, h3, h4⟩
    | true =>
      obtain ⟨rfl, rfl, _⟩ := (good_splits p D).quiet (a := []) (b := b) (e1 := Eos.new false)
        (h.good hM) hi h2 h3 h4 (.inl rfl) rfl
      exact (item_quiet hi).2 ⟨rfl, rfl, h4⟩
  have busy : ∀ {s : PeekState σ α}, s.item = none → (peekableDecoder D).isIdle s = false := by
    intro s hs; simp [peekableDecoder, hs]
  constructor
  · rintro s ⟨h1, h2⟩; exact ⟨h.fresh h1, h2⟩
  · rintro s ⟨h1, _⟩; exact ⟨_, splits_peekable (good_splits p D), h.good h1⟩
  · rintro hw s ⟨h1, h2⟩
    simp only [peekableDecoder, h2]
    exact h.hungry hw h1
  · rintro s ⟨h1, h2⟩ h4
    rw [busy h2] at h4; cases h4
  · rintro s x s' e ⟨h1, h2⟩ h4
    rw [busy h2] at h4; cases h4
  · rintro ⟨i, o⟩ b e n t x s' ⟨h1, rfl⟩ hs hd ht hf
    obtain ⟨j, hj, hc⟩ := peek_ok.1 hd
    rw [(fin hf).2]
    rcases hc with ⟨_, rfl⟩ | ⟨hi, y, k, hk, rfl⟩
    · cases ht
    · exact ⟨⟨(h.item_again h1 (item h1 hj hi hk)).1, rfl⟩, by simp [peekableDecoder]⟩
  · rintro s x s' ⟨h1, h2⟩ h4
    rw [busy h2] at h4; cases h4
  · rintro ⟨i, o⟩ b e n t x s' ⟨h1, rfl⟩ hs hd ht hf
    obtain ⟨j, hj, hc⟩ := peek_ok.1 hd
    rcases hc with ⟨_, rfl⟩ | ⟨hi, y, k, hk, rfl⟩
    · cases ht
    · exact h.item_need h1 (item h1 hj hi hk)
  · rintro ⟨i, o⟩ a b e e1 n t x s' s1 ⟨h1, rfl⟩ hs hd ht hf he hne hd1 hs1
    obtain ⟨j, hj, hc⟩ := peek_ok.1 hd
    rcases hc with ⟨_, rfl⟩ | ⟨hi, y, k, hk, rfl⟩
    · cases ht
    · obtain ⟨u, hu, hc⟩ := peek_ok.1 hd1
      rcases hc with ⟨hui, rfl⟩ | ⟨_, _, _, _, rfl⟩
      · cases hq : D.isIdle i with
        | true =>
          obtain ⟨_, _, h3⟩ := (good_splits p D).quiet (h.good h1) hq hj hi hk he hne
          rw [h3] at hu
          obtain rfl : i = u := congrArg Prod.snd hu
          rw [hq] at hui; cases hui
        | false =>
          have := h.step h1 hq hj hi hk he hne hu hui
          exact ⟨⟨this.1, rfl⟩, this.2⟩
      · cases hs1

/-! ## Sequences -/

theorem add_ne_zero {x y : ByteCount} (h : x ≠ .finite 0 ∨ y ≠ .finite 0) :
    ((ByteCount.finite 0).addForDecoding x).addForDecoding y ≠ .finite 0 := by
  rcases x with a | _ | _ <;> rcases y with b | _ | _
  all_goals simp [ByteCount.addForDecoding] at h ⊢
  all_goals
    first
      | omega
      | (rcases a with _ | a <;> simp)
      | (rcases b with _ | b <;> simp)

theorem steady_pair {w0 w1 p : Bool} {σ0 α0 σ1 α1 : Type} {D0 : Decoder σ0 α0} {D1 : Decoder σ1 α1}
    {F0 M0 : σ0 → Prop} {F1 M1 : σ1 → Prop} (h0 : Steady w0 p D0 F0 M0) (h1 : Steady w1 p D1 F1 M1) :
    Steady (w0 || w1) p (tupleDecoder2 D0 D1) (fun s => F0 s.1 ∧ F1 s.2)
      (fun s => (M0 s.1 ∧ F1 s.2) ∨
        ((∃ q b e n, M0 q ∧ tryDecode D0 q 0 b e = .next n s.1) ∧ M1 s.2 ∧ D1.isIdle s.2 = false)) := by
  have good : ∀ {s : σ0 × σ1}, ((M0 s.1 ∧ F1 s.2) ∨
        ((∃ q b e n, M0 q ∧ tryDecode D0 q 0 b e = .next n s.1) ∧ M1 s.2 ∧ D1.isIdle s.2 = false)) →
      Mid D0 M0 s.1 ∧ M1 s.2 := by
    rintro s (⟨h2, h3⟩ | ⟨h2, h3, h4⟩)
    · exact ⟨.inl h2, h1.fresh h3⟩
    · exact ⟨.inr h2, h3⟩
  have mid : ∀ {s}, Mid D0 M0 s → Mid D0 (Good p D0) s := by
    rintro s (h | ⟨q, b, e, n, hq, hn⟩)
    · exact .inl (h0.good h)
    · exact .inr ⟨q, b, e, n, h0.good hq, hn⟩
  have S0 := good_splits p D0
  have S1 := good_splits p D1
  have dn : ∀ {s : σ0 × σ1}, D0.requiring s.1 = .finite 0 → D1.requiring s.2 = .finite 0 →
      (tupleDecoder2 D0 D1).requiring s = .finite 0 := by
    intro s e0 e1
    show ((ByteCount.finite 0).addForDecoding (D0.requiring s.1)).addForDecoding (D1.requiring s.2) = _
    rw [e0, e1]
    rfl
  have mid0 : ∀ {s b e n t x s'}, Mid D0 M0 s → Item D0 s b e n t x s' →
      F0 s' ∧ D0.requiring t = .finite 0 := by
    rintro s b e n t x s' (h2 | ⟨q, b', e', n', hq, hn⟩) g0
    · exact h0.item_again h2 g0
    · rw [item_quiet (tryDecode_next_isIdle hn)] at g0
      obtain ⟨rfl, rfl, g0⟩ := g0
      exact h0.item_again hq ⟨hn, g0⟩
  constructor
  · rintro s ⟨h2, h3⟩; exact .inl ⟨h0.fresh h2, h3⟩
  · intro s hm
    have := good hm
    exact ⟨_, splits_pair S0 S1, mid this.1, h1.good this.2⟩
  · rintro hw s ⟨h2, h3⟩
    apply add_ne_zero
    cases hw0 : w0 with
    | true => exact .inl (h0.hungry hw0 h2)
    | false => exact .inr (h1.hungry (by simpa [hw0] using hw) h3)
  · rintro s hm hi
    have hi' : D0.isIdle s.1 = true ∧ D1.isIdle s.2 = true := by simpa [tupleDecoder2] using hi
    rcases hm with ⟨h2, h3⟩ | ⟨h2, h3, h4⟩
    · exact ⟨h0.idle h2 hi'.1, h3⟩
    · rw [hi'.2] at h4; cases h4
  · rintro s x s' e ⟨h2, h3⟩ hi hf he
    have hi' : D0.isIdle s.1 = true ∧ D1.isIdle s.2 = true := by simpa [tupleDecoder2] using hi
    rw [pair_decode, tryDecode_quiet hi'.1]
    simp only [Flow.bind]
    rw [tryDecode_quiet hi'.2]
    rfl
  · intro s b e n t x s' hm hs hd ht hf
    obtain ⟨h2, h3⟩ := good hm
    obtain ⟨n0, g0, g1, g2⟩ := pair_item.1 ((item_busy hs).2 ⟨hd, ht, hf⟩)
    rw [tryDecode_at ((mid h2).bound S0 g0)] at g1
    have k1 := h1.item_again h3 ⟨g1.2, g2⟩
    have k0 := mid0 h2 g0
    exact ⟨⟨k0.1, k1.1⟩, dn k0.2 k1.2⟩
  · rintro s x s' ⟨h2, h3⟩ hi hf
    have hi' : D0.isIdle s.1 = true ∧ D1.isIdle s.2 = true := by simpa [tupleDecoder2] using hi
    rw [pair_fin] at hf
    have k0 := h0.againQuiet h2 hi'.1 hf.1
    have k1 := h1.againQuiet h3 hi'.2 hf.2
    exact ⟨⟨k0.1, k1.1⟩, dn k0.2 k1.2⟩
  · intro s b e n t x s' hm hs hd ht hf
    obtain ⟨h2, h3⟩ := good hm
    obtain ⟨n0, g0, g1, g2⟩ := pair_item.1 ((item_busy hs).2 ⟨hd, ht, hf⟩)
    have hb := (mid h2).bound S0 g0
    rw [tryDecode_at hb] at g1
    have k1 := h1.item_need h3 ⟨g1.2, g2⟩
    have hb1 := S1.bound (h1.good h3) ⟨g1.2, g2⟩
    simp only [List.length_drop] at k1 hb1
    have k0 : (∃ k, D0.requiring s.1 = .finite k ∧ k ≤ n0) ∨ (p = false ∧ n0 = b.length) := by
      rcases h2 with h2 | ⟨q, b', e', n', hq, hn⟩
      · exact h0.item_need h2 g0
      · have := (mid0 (.inr ⟨q, b', e', n', hq, hn⟩) g0).2
        rw [item_quiet (tryDecode_next_isIdle hn)] at g0
        rw [g0.2.1] at this
        exact .inl ⟨0, this, by omega⟩
    rcases k0 with ⟨k, k0, k0'⟩ | ⟨hp, k0⟩
    · rcases k1 with ⟨l, k1, k1'⟩ | ⟨hp, k1⟩
      · refine .inl ⟨k + l, ?_, by omega⟩
        show ((ByteCount.finite 0).addForDecoding (D0.requiring s.1)).addForDecoding (D1.requiring s.2) = _
        rw [k0, k1]
        simp [ByteCount.addForDecoding]
      · exact .inr ⟨hp, by omega⟩
    · exact .inr ⟨hp, by omega⟩
  · intro s a b e e1 n t x s' s1 hm hs hd ht hf he hne hd1 hs1
    obtain ⟨h2, h3⟩ := good hm
    obtain ⟨n0, g0, g1, g2⟩ := pair_item.1 ((item_busy hs).2 ⟨hd, ht, hf⟩)
    have hb := (mid h2).bound S0 g0
    rw [tryDecode_at hb] at g1
    have hr : tryDecode (tupleDecoder2 D0 D1) s 0 a e1 = .ret (.ok a.length) s1 :=
      (tryDecode_ret_iff hs).2 ⟨hd1, hs1⟩
    rw [tryDecode_pair] at hr
    rcases (mid h2).split S0 g0 he hne with k | ⟨k1, k2, u0, k3, k4, k5⟩
    · have hba := (mid h2).bound S0 k
      rw [List.drop_append_of_le_length hba] at g1
      rw [k.1] at hr
      simp only [Flow.bind] at hr
      rcases hq : tryDecode D1 s.2 n0 a e1 with ⟨o, u⟩ | ⟨r, u⟩ <;> rw [hq] at hr
      · cases hr
      · cases hr
        rw [tryDecode_at_ret hba] at hq
        have hl : (a.drop n0).length = a.length - n0 := List.length_drop
        rw [← hl] at hq
        have := h1.item_step h3 ⟨g1.2, g2⟩ he hne hq.2
        refine ⟨.inr ⟨?_, this.1, tryDecode_ret_ok hq.2⟩, add_ne_zero (.inr this.2)⟩
        rcases h2 with h2 | ⟨q, b', e', n', hq', hn⟩
        · exact ⟨_, _, _, _, h2, k.1⟩
        · have := k.1
          rw [tryDecode_quiet (tryDecode_next_isIdle hn)] at this
          simp only [Flow.next.injEq] at this
          rw [← this.2]
          exact ⟨_, _, _, _, hq', hn⟩
    · rw [k3] at hr
      simp only [Flow.bind] at hr
      cases hr
      rcases hm with ⟨h2, h3⟩ | ⟨⟨q, b', e', n', hq', hn⟩, _⟩
      · have := h0.item_step h2 g0 he hne k3
        exact ⟨.inl ⟨this.1, h3⟩, add_ne_zero (.inl this.2)⟩
      · rw [tryDecode_quiet (tryDecode_next_isIdle hn)] at k3
        cases k3

theorem steady_andThen {w w1 p : Bool} {σ0 α0 σ1 α1 : Type} {D0 : Decoder σ0 α0} {D1 : Decoder σ1 α1}
    {f : α0 → σ1} {F0 M0 : σ0 → Prop} {F1 M1 : σ1 → Prop} (h0 : Steady w p D0 F0 M0)
    (h1 : Steady w1 p D1 F1 M1) (hf1 : ∀ x, F1 (f x)) :
    Steady w p (andThenDecoder D0 D1 f) (fun s => F0 s.1 ∧ s.2 = none)
      (fun s => (M0 s.1 ∧ s.2 = none) ∨ (F0 s.1 ∧ ∃ u, s.2 = some u ∧ M1 u ∧ D1.isIdle u = false)) := by
  have S0 := good_splits p D0
  have S1 := good_splits p D1
  have item1 : ∀ {s1 b e n t1 x}, tryDecode D1 s1 0 b e = .next n t1 → (D1.finish t1).1 = .ok x →
      Item D1 s1 b e n t1 x (D1.finish t1).2 := fun h1 h2 => ⟨h1, Prod.ext h2 rfl⟩
  have next_of : ∀ {s0 s1 b e n} {t : σ0 × Option σ1},
      (andThenDecoder D0 D1 f).decode (s0, some s1) b e = (.ok n, t) →
      (andThenDecoder D0 D1 f).isIdle t = true →
      ∃ t1, t = (s0, some t1) ∧ tryDecode D1 s1 0 b e = .next n t1 := by
    intro s0 s1 b e n t hd ht
    obtain ⟨t1, rfl, h | h⟩ := andThen_some.1 hd
    · exact ⟨t1, rfl, h⟩
    · have := tryDecode_ret_ok h
      simp [andThenDecoder, this] at ht
  have busy : ∀ {s0}, (andThenDecoder D0 D1 f).isIdle (s0, none) = false := by
    intro s0; simp [andThenDecoder]
  constructor
  · rintro s ⟨h2, h3⟩; exact .inl ⟨h0.fresh h2, h3⟩
  · rintro ⟨s0, s1⟩ (⟨h2, h3⟩ | ⟨h2, u, h3, h4, h5⟩)
    · simp only at h3
      subst h3
      exact ⟨_, splits_andThen S0 S1 (fun x => h1.good (h1.fresh (hf1 x))), h0.good h2,
        fun u hu => by cases hu⟩
    · simp only at h3
      subst h3
      refine ⟨_, splits_andThen S0 S1 (fun x => h1.good (h1.fresh (hf1 x))), h0.good (h0.fresh h2), ?_⟩
      intro v hv
      cases hv
      exact h1.good h4
  · rintro hw ⟨s0, s1⟩ ⟨h2, h3⟩
    simp only at h3
    subst h3
    exact h0.hungry hw h2
  · rintro ⟨s0, s1⟩ (⟨h2, h3⟩ | ⟨h2, u, h3, h4, h5⟩) hi
    · simp only at h3
      subst h3
      rw [busy] at hi; cases hi
    · simp only at h3
      subst h3
      simp [andThenDecoder, h5] at hi
  · rintro ⟨s0, s1⟩ x s' e ⟨h2, h3⟩ hi
    simp only at h3
    subst h3
    rw [busy] at hi; cases hi
  · rintro ⟨s0, s1⟩ b e n t x s' hm hs hd ht hf
    rcases hm with ⟨h2, h3⟩ | ⟨h2, u, h3, h4, h5⟩
    · simp only at h3
      subst h3
      obtain ⟨n0, t0, y, s0', t1, g0, g1, rfl⟩ := andThen_none_idle hd ht
      rw [tryDecode_at (h0.bound h2 g0)] at g1
      have := h1.item_again (h1.fresh (hf1 y)) (item1 g1.2 (andThen_fin.1 hf).1)
      obtain ⟨_, rfl⟩ := andThen_fin.1 hf
      exact ⟨⟨(h0.item_again h2 g0).1, rfl⟩, this.2⟩
    · simp only at h3
      subst h3
      obtain ⟨t1, rfl, g⟩ := next_of hd ht
      have := h1.item_again h4 (item1 g (andThen_fin.1 hf).1)
      obtain ⟨_, rfl⟩ := andThen_fin.1 hf
      exact ⟨⟨h2, rfl⟩, this.2⟩
  · rintro ⟨s0, s1⟩ x s' ⟨h2, h3⟩ hi
    simp only at h3
    subst h3
    rw [busy] at hi; cases hi
  · rintro ⟨s0, s1⟩ b e n t x s' hm hs hd ht hf
    rcases hm with ⟨h2, h3⟩ | ⟨h2, u, h3, h4, h5⟩
    · simp only at h3
      subst h3
      obtain ⟨n0, t0, y, s0', t1, g0, g1, rfl⟩ := andThen_none_idle hd ht
      have hb := h0.bound h2 g0
      rw [tryDecode_at hb] at g1
      have hb1 := h1.bound (h1.fresh (hf1 y)) (item1 g1.2 (andThen_fin.1 hf).1)
      simp only [List.length_drop] at hb1
      rcases h0.item_need h2 g0 with ⟨k, k0, k0'⟩ | ⟨hp, k0⟩
      · exact .inl ⟨k, k0, by omega⟩
      · exact .inr ⟨hp, by omega⟩
    · simp only at h3
      subst h3
      obtain ⟨t1, rfl, g⟩ := next_of hd ht
      exact h1.item_need h4 (item1 g (andThen_fin.1 hf).1)
  · rintro ⟨s0, s1⟩ a b e e1 n t x s' v hm hs hd ht hf he hne hd1 hs1
    rcases hm with ⟨h2, h3⟩ | ⟨h2, u, h3, h4, h5⟩
    · simp only at h3 h2
      subst h3
      obtain ⟨n0, t0, y, s0', t1, g0, g1, rfl⟩ := andThen_none_idle hd ht
      have hb := h0.bound h2 g0
      rw [tryDecode_at hb] at g1
      rcases S0.split (h0.good h2) g0 he hne with k | ⟨k1, k2, u0, k3, k4, k5⟩
      · have hba := h0.bound h2 k
        rw [List.drop_append_of_le_length hba] at g1
        rw [andThen_none_next k] at hd1
        rcases hq : tryDecode D1 (f y) n0 a e1 with ⟨o, u⟩ | ⟨r, u⟩ <;> rw [hq] at hd1
        · cases hd1
          have := tryDecode_next_isIdle hq
          simp [andThenDecoder, this] at hs1
        · cases hd1
          rw [tryDecode_at_ret hba] at hq
          have hl : (a.drop n0).length = a.length - n0 := List.length_drop
          rw [← hl] at hq
          have := h1.item_step (h1.fresh (hf1 y)) (item1 g1.2 (andThen_fin.1 hf).1) he hne hq.2
          exact ⟨.inr ⟨(h0.item_again h2 k).1, u, rfl, this.1, tryDecode_ret_ok hq.2⟩, this.2⟩
      · rw [andThen_none_part k3] at hd1
        cases hd1
        have := h0.item_step h2 g0 he hne k3
        exact ⟨.inl ⟨this.1, rfl⟩, this.2⟩
    · simp only at h3 h2
      subst h3
      obtain ⟨t1, rfl, g⟩ := next_of hd ht
      obtain ⟨v1, rfl, hv | hv⟩ := andThen_some.1 hd1
      · have := tryDecode_next_isIdle hv
        simp [andThenDecoder, this] at hs1
      · have := h1.item_step h4 (item1 g (andThen_fin.1 hf).1) he hne hv
        exact ⟨.inr ⟨h2, v1, rfl, this.1, tryDecode_ret_ok hv⟩, this.2⟩

/-- Between calls the item decoder inside a repeating decoder asks for bytes. -/
def Asking (D : Decoder σ α) (F M : σ → Prop) (s : σ) : Prop :=
  F s ∨ (M s ∧ D.requiring s ≠ .finite 0)

theorem Asking.under {p : Bool} {D : Decoder σ α} {F M : σ → Prop} (h : Steady true p D F M) {s : σ}
    (hs : Asking D F M s) : M s ∧ D.requiring s ≠ .finite 0 := by
  rcases hs with hs | hs
  · exact ⟨h.fresh hs, h.hungry rfl hs⟩
  · exact hs

theorem Stops.asking {D : Decoder σ α} {F M : σ → Prop} (h : Steady true true D F M) {e e1 : Eos}
    {b : Bytes} (he : Earlier e1 e b.length) (hne : e1.isReached = false) {a : Bytes} {s s1 : σ}
    {ys : List α} (hst : Stops D e1 a s ys s1) :
    ∀ {zs n s'}, Asking D F M s → zs ≠ [] → Runs D e (a ++ b) s (ys ++ zs) n s' → Asking D F M s1 := by
  induction hst with
  | stop s => intro zs n s' hs _ _; exact hs
  | @part a s s1 ha hr =>
    intro zs n s' hs hz hrun
    cases hrun with
    | stop => exact absurd rfl hz
    | step h1 h2 h3 h4 => exact .inr (h.item_step (hs.under h).1 h2 he hne hr)
  | @step a s t s1 s2 x xs n ha hi hn _ ih =>
    intro zs m s' hs hz hrun
    cases hrun with
    | step h1 h2 h3 h4 =>
      have hM := (hs.under h).1
      rcases (good_splits true D).split (h.good hM) h2 he hne with k | ⟨_, _, u, k, _⟩
      · have e1 := k.1.symm.trans hi.1
        cases e1
        have e2 := k.2.symm.trans hi.2
        cases e2
        rw [List.drop_append_of_le_length hn] at h4
        exact ih (.inl (h.item_again hM hi).1) hz h4
      · rw [hi.1] at k; cases k

theorem Runs.fresh {D : Decoder σ α} {F M : σ → Prop} (h : Steady true true D F M) {e : Eos}
    {b : Bytes} {s s' : σ} {xs : List α} {n : Nat} (hr : Runs D e b s xs n s') :
    Asking D F M s → Asking D F M s' := by
  induction hr with
  | stop => exact id
  | step _ h2 _ _ ih => intro hs; exact ih (.inl (h.item_again (hs.under h).1 h2).1)

theorem Runs.first {D : Decoder σ α} {e : Eos} {b : Bytes} {s s' : σ} {xs : List α} {n : Nat}
    (h : Runs D e b s xs n s') (hx : xs ≠ []) : ∃ m t x s1, Item D s b e m t x s1 ∧ m ≤ n := by
  cases h with
  | stop => exact absurd rfl hx
  | step _ h2 _ _ => exact ⟨_, _, _, _, h2, by omega⟩

theorem steady_collectN (p : Bool) {D : Decoder σ α} {F M : σ → Prop} (h : Steady true true D F M) :
    Steady false p (collectNDecoder D) (fun s => Asking D F M s.inner) (fun s => Asking D F M s.inner) := by
  have S := good_splits true D
  have good : ∀ {s}, Asking D F M s → Good true D s := fun hs => h.good (hs.under h).1
  have fin : ∀ {s s' : CollectNState σ α} {x}, (collectNDecoder D).finish s = (.ok x, s') →
      s.remaining = 0 ∧ s' = { s with items := [] } := by
    intro s s' x h
    simp only [collectNDecoder] at h
    split at h <;> cases h
    next h1 => exact ⟨h1, rfl⟩
  constructor
  · exact id
  · intro s hs; exact ⟨_, splits_collectN p S, good hs⟩
  · intro hw; cases hw
  · intro s hs _; exact hs
  · intro s x s' e hs hi hf he
    have := (fin hf).1
    obtain ⟨i, r, l⟩ := s
    simp only at this
    subst this
    simp [collectNDecoder, collectNLoop]
  · intro s b e n t x s' hs hb hd ht hf
    obtain ⟨h1, _⟩ := collectN_done hd ht
    obtain ⟨xs, _, _, _, h2⟩ := loopN_runs S.steps (good hs) (by omega) h1
    refine ⟨?_, by simp [collectNDecoder, (fin hf).1]⟩
    rw [(fin hf).2]
    exact h2.fresh h hs
  · intro s x s' hs hi hf
    refine ⟨?_, by simp [collectNDecoder, (fin hf).1]⟩
    rw [(fin hf).2]
    exact hs
  · intro s b e n t x s' hs hb hd ht hf
    obtain ⟨h1, _⟩ := collectN_done hd ht
    obtain ⟨xs, hx, _, _, h2⟩ := loopN_runs S.steps (good hs) (by omega) h1
    simp only [List.drop_zero, Nat.sub_zero] at h2
    have hr : ¬ s.remaining = 0 := by
      intro hc
      rw [collectN_idle.2 hc] at hb
      cases hb
    obtain ⟨m, u, y, u1, k2, k3⟩ := h2.first (by rintro rfl; simp at hx; omega)
    rcases h.item_need (hs.under h).1 k2 with ⟨k, g1, g2⟩ | ⟨hp, _⟩
    · refine .inl ⟨k, ?_, by omega⟩
      simp only [collectNDecoder]
      rw [if_neg hr, g1]
    · cases hp
  · intro s a b e e1 n t x s' s1 hs hi hd ht hf he hne hd1 hs1
    obtain ⟨h1, h0⟩ := collectN_done hd ht
    obtain ⟨xs, hx, hit, _, h2⟩ := loopN_runs S.steps (good hs) (by omega) h1
    simp only [List.drop_zero, Nat.sub_zero] at h2
    rcases h2.split S he hne rfl (good hs) with k | ⟨k1, k2, ys, zs, u, k3, k4, k5, k6, k7⟩
    · rw [runs_collectN k hx] at hd1
      have : s1.remaining = 0 := (congrArg (fun z => z.2.remaining) hd1).symm
      rw [collectN_idle.2 this] at hs1
      cases hs1
    · have hlen : ys.length + zs.length = s.remaining := by rw [← hx, k3]; simp
      have hz : 0 < zs.length := List.length_pos_iff.2 k4
      rw [stops_collectN k5 (by omega) hne] at hd1
      rw [k3] at h2
      have hA := k5.asking h he hne hs k4 h2
      have e1 : s1 = ⟨u, s.remaining - ys.length, s.items ++ ys⟩ := (congrArg Prod.snd hd1).symm
      subst e1
      refine ⟨hA, ?_⟩
      simp only [collectNDecoder]
      rw [if_neg (by omega)]
      exact (hA.under h).2

theorem steady_collect (w : Bool) {D : Decoder σ α} {F M : σ → Prop} (h : Steady true true D F M) :
    Steady w false (collectDecoder D) (fun s => Asking D F M s.inner ∧ s.eos = false)
      (fun s => Asking D F M s.inner ∧ s.eos = false) := by
  have S := good_splits true D
  have good : ∀ {s}, Asking D F M s → Good true D s := fun hs => h.good (hs.under h).1
  have fin : ∀ {s s' : CollectState σ α} {x}, (collectDecoder D).finish s = (.ok x, s') →
      s.eos = true ∧ s' = ⟨s.inner, [], false⟩ := by
    intro s s' x h
    simp only [collectDecoder] at h
    split at h <;> cases h
    next h1 => exact ⟨h1, rfl⟩
  have req : ∀ {s}, Asking D F M s.inner ∧ s.eos = false → (collectDecoder D).requiring s ≠ .finite 0 := by
    rintro s ⟨hs, he⟩
    simp only [collectDecoder]
    rw [if_neg (by simp [he])]
    exact (hs.under h).2
  constructor
  · exact id
  · intro s hs; exact ⟨_, splits_collect S, good hs.1⟩
  · intro _ s hs; exact req hs
  · intro s hs _; exact hs
  · rintro s x s' e ⟨hs, he⟩ hi
    have : s.eos = true := hi
    rw [he] at this; cases this
  · rintro s b e n t x s' ⟨hs, _⟩ hb hd ht hf
    obtain ⟨h1, _⟩ := collect_done hb hd ht
    obtain ⟨_, xs, _, h2⟩ := loop_runs S.steps _ _ _ _ h1 (good hs) (by omega) _ _ _ rfl
    refine ⟨?_, by simp [collectDecoder, (fin hf).1]⟩
    rw [(fin hf).2]
    exact ⟨h2.fresh h hs, rfl⟩
  · rintro s x s' ⟨hs, he⟩ hi
    have : s.eos = true := hi
    rw [he] at this; cases this
  · rintro s b e n t x s' ⟨hs, _⟩ hb hd ht hf
    obtain ⟨h1, _⟩ := collect_done hb hd ht
    exact .inr ⟨rfl, (loop_runs S.steps _ _ _ _ h1 (good hs) (by omega) _ _ _ rfl).1⟩
  · rintro s a b e e1 n t x s' s1 ⟨hs, h0⟩ hi hd ht hf he hne hd1 hs1
    obtain ⟨h1, hreach, _, ht'⟩ := collect_done hi hd ht
    obtain ⟨hn, xs, hx, h2⟩ := loop_runs S.steps _ _ _ _ h1 (good hs) (by omega) _ _ _ rfl
    simp only [List.drop_zero, Nat.sub_zero] at h2
    simp only [List.length_append] at hn h2
    have : Asking D F M s1.inner ∧ s1.eos = false := by
      rcases h2.split S he hne rfl (good hs) with k | ⟨k1, k2, ys, zs, u, k3, k4, k5, k6, k7⟩
      · have := k.le
        have hb : b = [] := List.eq_nil_of_length_eq_zero (by omega)
        subst hb
        rw [stops_collect (k.stops (by simp)) h0 hne] at hd1
        have e1 : s1 = ⟨t.inner, s.items ++ xs, false⟩ := (congrArg Prod.snd hd1).symm
        subst e1
        exact ⟨k.fresh h hs, rfl⟩
      · rw [stops_collect k5 h0 hne] at hd1
        rw [k3] at h2
        have hA := k5.asking h he hne hs k4 h2
        have e1 : s1 = ⟨u, s.items ++ ys, false⟩ := (congrArg Prod.snd hd1).symm
        subst e1
        exact ⟨hA, rfl⟩
    exact ⟨this, req this⟩

theorem steady_captured {ε : Type} {C : ε → Decoder σ α} {v : ε} {w p : Bool} {F M : σ → Prop}
    (h : Steady w p (C v) F M) :
    Steady w p (capturedDecoder C) (fun s => s.1 = v ∧ F s.2) fun s => s.1 = v ∧ M s.2 where
  fresh := fun hs => ⟨hs.1, h.fresh hs.2⟩
  good := by
    rintro ⟨_, s⟩ ⟨rfl, hs⟩
    obtain ⟨I, h1, h2⟩ := h.good hs
    exact ⟨_, splits_captured h1, rfl, h2⟩
  hungry := by rintro hw ⟨_, s⟩ ⟨rfl, hs⟩; exact h.hungry hw hs
  idle := by rintro ⟨_, s⟩ ⟨rfl, hs⟩ hi; exact ⟨rfl, h.idle hs hi⟩
  calm := by
    rintro ⟨_, s⟩ x s' e ⟨rfl, hs⟩ hi hf he
    exact captured_decode.2 ⟨h.calm hs hi (captured_finish.1 hf).1 he, rfl⟩
  again := by
    rintro ⟨_, s⟩ b e n ⟨w, t⟩ x s' ⟨rfl, hs⟩ hi hd ht hf
    obtain ⟨hd, hw⟩ := captured_decode.1 hd
    cases hw
    obtain ⟨hf, hw⟩ := captured_finish.1 hf
    obtain ⟨h1, h2⟩ := h.again hs hi hd ht hf
    exact ⟨⟨hw, h1⟩, h2⟩
  againQuiet := by
    rintro ⟨_, s⟩ x s' ⟨rfl, hs⟩ hi hf
    obtain ⟨hf, hw⟩ := captured_finish.1 hf
    obtain ⟨h1, h2⟩ := h.againQuiet hs hi hf
    exact ⟨⟨hw, h1⟩, h2⟩
  need := by
    rintro ⟨_, s⟩ b e n ⟨w, t⟩ x s' ⟨rfl, hs⟩ hi hd ht hf
    obtain ⟨hd, hw⟩ := captured_decode.1 hd
    cases hw
    exact h.need hs hi hd ht (captured_finish.1 hf).1
  step := by
    rintro ⟨_, s⟩ a b e e1 n ⟨w, t⟩ x s' ⟨w1, s1⟩ ⟨rfl, hs⟩ hi hd ht hf he hne hd1 hi1
    obtain ⟨hd, hw⟩ := captured_decode.1 hd
    cases hw
    obtain ⟨hd1, hw⟩ := captured_decode.1 hd1
    cases hw
    obtain ⟨h1, h2⟩ := h.step hs hi hd ht (captured_finish.1 hf).1 he hne hd1 hi1
    exact ⟨⟨rfl, h1⟩, h2⟩

/-! ## Every decoder of the family -/

theorem exactable_fresh {w p : Bool} {D : Decoder σ α} {s : σ} (h : Exactable w p D s) : ExFresh w p D s := by
  induction h with
  | own w p hb ha hI hw => exact ⟨_, _, steady_own w p hb ha, hI, hw⟩
  | copyable w p b hw =>
    exact ⟨_, _, steady_copyable w p, rfl, fun h => by simpa [CopyableState.new] using hw h⟩
  | bytes p b => exact ⟨_, _, steady_bytes p, fun _ _ => rfl⟩
  | remaining w => exact ⟨_, _, steady_remaining w, rfl⟩
  | null p => exact ⟨_, _, steady_null p, trivial⟩
  | padding w b => exact ⟨_, _, steady_padding w, rfl⟩
  | number w p f k hw =>
    exact ⟨_, _, steady_fix w p f, rfl, fun h => by simpa [fixInit, CopyableState.new] using hw h⟩
  | monolithic w parse hp => exact ⟨_, _, steady_monolithic w hp, rfl⟩
  | utf8 _ ih => exact ⟨_, _, steady_utf8 (steady _ _ _), ih⟩
  | map f _ ih => exact ⟨_, _, steady_map f (steady _ _ _), ih⟩
  | tryMap f _ ih => exact ⟨_, _, steady_tryMap f (steady _ _ _), ih⟩
  | mapErr f _ ih => exact ⟨_, _, steady_mapErr f (steady _ _ _), ih⟩
  | @omittable w p _ _ D s d hd _ ih =>
    refine ⟨_, _, steady_omit (steady _ _ _), ?_⟩
    cases d with
    | false => exact .inr ⟨rfl, ih⟩
    | true =>
      refine .inl ⟨rfl, ?_, (steady _ _ _).good ((steady _ _ _).fresh ih)⟩
      cases w with
      | false => rfl
      | true => cases hd rfl
  | length w p n hw _ ih => exact ⟨_, _, steady_length w p (steady _ _ _), ih, rfl, hw⟩
  | maxBytes n _ ih => exact ⟨_, _, steady_maxBytes (steady _ _ _), ih, rfl⟩
  | peekable _ ih => exact ⟨_, _, steady_peekable (steady _ _ _), ih, rfl⟩
  | maybeEos _ ih => exact ⟨_, _, steady_maybeEos (steady _ _ _), ih, rfl⟩
  | collect w _ ih => exact ⟨_, _, steady_collect w (steady _ _ _), .inl ih, rfl⟩
  | collectN p n _ ih => exact ⟨_, _, steady_collectN p (steady _ _ _), .inl ih⟩
  | pair _ _ ih0 ih1 => exact ⟨_, _, steady_pair (steady _ _ _) (steady _ _ _), ih0, ih1⟩
  | @andThen w w1 p σ0 α0 σ1 α1 D0 D1 s0 f _ _ ih0 ih1 =>
    exact ⟨_, _, steady_andThen (steady _ _ _) (steady _ _ _) ih1, ih0, rfl⟩
  | captured F v _ ih => exact ⟨_, _, steady_captured (steady _ _ _), rfl, ih⟩

end Bytecodec
