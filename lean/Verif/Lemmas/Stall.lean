import Verif.Lemmas.Join
import Verif.Lemmas.Bytewise
import Verif.Lemmas.Stripped
import Verif.Spec.Stall
/-!
# A decoder that leaves bytes over while it waits for more is lost

`Dead D s`: whatever comes, no item will be completed. A successful `decode` call that neither completes the item nor
takes all bytes leads to such a state.
-/
set_option linter.unusedSimpArgs false

namespace Bytecodec

open Spec

variable {σ α β : Type}

/-- No sequence of successful calls leads to an item. -/
def Dead (D : Decoder σ α) (s : σ) : Prop :=
  ∃ J : σ → Prop, J s ∧ ∀ s, J s → ∀ b e,
    (∀ n t x s', ¬ Item D s b e n t x s') ∧ ∀ n t, tryDecode D s 0 b e = .ret (.ok n) t → J t

theorem Dead.item {D : Decoder σ α} {s : σ} (h : Dead D s) {b e n t x s'} : ¬ Item D s b e n t x s' := by
  obtain ⟨J, hJ, h⟩ := h
  exact (h s hJ b e).1 n t x s'

theorem Dead.part {D : Decoder σ α} {s : σ} (h : Dead D s) {b e n t} (hr : tryDecode D s 0 b e = .ret (.ok n) t) :
    Dead D t := by
  obtain ⟨J, hJ, h⟩ := h
  exact ⟨J, (h s hJ b e).2 n t hr, h⟩

theorem Dead.retAt {D : Decoder σ α} {s : σ} (h : Dead D s) {off b e n t}
    (hr : tryDecode D s off b e = .ret (.ok n) t) : Dead D t := by
  have hb := tryDecode_ret_le hr
  rw [tryDecode_at_ret hb] at hr
  exact h.part hr.2

theorem Dead.nextAt {D : Decoder σ α} {s : σ} (h : Dead D s) {off b e n t x s'}
    (hr : tryDecode D s off b e = .next n t) (hf : D.finish t = (.ok x, s')) : False := by
  cases hi : D.isIdle s with
  | true =>
    rw [tryDecode_quiet hi] at hr
    cases hr
    exact h.item (b := []) (e := Eos.new false) ((item_quiet hi).2 ⟨rfl, rfl, hf⟩)
  | false =>
    by_cases hb : off ≤ b.length
    · rw [tryDecode_at hb] at hr
      exact h.item ⟨hr.2, hf⟩
    · rw [tryDecode, if_neg (by simp [hi]), if_pos (by omega)] at hr
      cases hr

/-- A finished item that cannot be taken. -/
theorem dead_idle {D : Decoder σ α} {s : σ} (hi : D.isIdle s = true) (hf : ∀ x s', D.finish s ≠ (.ok x, s')) :
    Dead D s := by
  refine ⟨fun t => t = s, rfl, ?_⟩
  rintro _ rfl b e
  refine ⟨fun n t x s' h => ?_, fun n t h => ?_⟩
  · exact hf _ _ ((item_quiet hi).1 h).2.2
  · rw [tryDecode_quiet hi] at h; cases h

theorem Dead.next {D : Decoder σ α} {s : σ} (h : Dead D s) {off b e n t}
    (hr : tryDecode D s off b e = .next n t) : Dead D t :=
  dead_idle (tryDecode_next_isIdle hr) fun _ _ hf => h.nextAt hr hf

/-- The law on the states satisfying `I`, next to the joining law. -/
structure Stalls (c q : Bool) (D : Decoder σ α) (I : σ → Prop) : Prop where
  joins : Joins c true q D I
  stall : ∀ {s b e n t}, I s → tryDecode D s 0 b e = .ret (.ok n) t → n ≠ b.length → Dead D t

/-- The states from which the law holds. -/
def Lost (c q : Bool) (D : Decoder σ α) (s : σ) : Prop := ∃ I, Stalls c q D I ∧ I s

theorem lost_stalls (c q : Bool) (D : Decoder σ α) : Stalls c q D (Lost c q D) := by
  constructor
  · constructor
    · rintro s b e n t x s' ⟨I, hI, hs⟩ h
      exact hI.joins.bound hs h
    · rintro s b e n t x s' ⟨I, hI, hs⟩ h
      exact ⟨I, hI, hI.joins.again hs h⟩
    · rintro s b e n t ⟨I, hI, hs⟩ h
      exact ⟨I, hI, hI.joins.part hs h⟩
    · rintro s b e n t ⟨I, hI, hs⟩ h
      exact hI.joins.quiet hs h
    · rintro s a b e e1 n t x s' ⟨I, hI, hs⟩ h
      exact hI.joins.still hs h
    · rintro s a b e e1 n t x s' ⟨I, hI, hs⟩ h
      exact hI.joins.extend hs h
    · rintro s a b e e1 s1 m t x s' ⟨I, hI, hs⟩ h
      exact hI.joins.join hs h
    · rintro hk s a e s1 m t x s' ⟨I, hI, hs⟩ h
      exact hI.joins.closed hk hs h
    · rintro hq s b e n s1 ⟨I, hI, hs⟩ h
      exact hI.joins.strict hq hs h
  · rintro s b e n t ⟨I, h, hs⟩ hr; exact h.stall hs hr

theorem Stalls.stallAt {c q : Bool} {D : Decoder σ α} {I : σ → Prop} (h : Stalls c q D I) {s off b e n t}
    (hs : I s) (hr : tryDecode D s off b e = .ret (.ok n) t) (hn : n ≠ b.length) : Dead D t := by
  have hb := tryDecode_ret_le hr
  rw [tryDecode_at_ret hb] at hr
  refine h.stall hs hr.2 ?_
  simp only [List.length_drop]
  omega

/-! ## Leaves -/

/-- Decoders that always take everything. -/
theorem stalls_full {c q : Bool} {D : Decoder σ α} {I : σ → Prop} (hj : Joins c true q D I)
    (h : ∀ {s b e n t}, I s → D.isIdle s = false → D.decode s b e = (.ok n, t) → D.isIdle t = false → n = b.length) :
    Stalls c q D I := by
  refine ⟨hj, ?_⟩
  intro s b e n t hs hr hn
  have hi := tryDecode_ret_busy hr
  obtain ⟨h1, h2⟩ := (tryDecode_ret_iff hi).1 hr
  exact absurd (h hs hi h1 h2) hn

theorem Spec.Bytewise.stalls {p : Bool} {D : Decoder σ α} {I : σ → Prop} (c q : Bool) (h : Bytewise p D I) :
    Stalls c q D I := by
  refine stalls_full (h.joins c true q) ?_
  intro s b e n t hs hi hd ht
  rcases h.outcome e b hs hi with ⟨m, u, h1, _, _, h3⟩ | ⟨k, u, h1, _⟩
  · rw [hd] at h1
    cases h1
    exact (h3 ht).1
  · rw [hd] at h1; cases h1

theorem copyable_full {s : CopyableState} {b e n t} (hd : copyableBytesDecoder.decode s b e = (.ok n, t))
    (hi : copyableBytesDecoder.isIdle t = false) : n = b.length := by
  simp only [copyableBytesDecoder] at hd hi
  split at hd
  · cases hd
  · next hle =>
    have hl := splice_length (buf := s.bytes) (off := s.offset)
      (src := b.take (min b.length (s.bytes.length - s.offset))) (by simp; omega)
    split at hd
    · cases hd
    · cases hd
      simp only [hl, beq_eq_false_iff_ne, ne_eq] at hi
      omega

theorem bytes_full {s : BytesDecoderState} {b e n t} (hd : bytesDecoder.decode s b e = (.ok n, t))
    (hi : bytesDecoder.isIdle t = false) : n = b.length := by
  simp only [bytesDecoder] at hd hi
  split at hd
  · cases hd
  · next c hc =>
    split at hd
    · cases hd
    · have hl := splice_length (buf := c) (off := s.offset)
        (src := b.take (min b.length (c.length - s.offset))) (by simp; omega)
      split at hd
      · cases hd
      · cases hd
        simp only [BytesDecoderState.exact, hl, beq_eq_false_iff_ne, ne_eq] at hi
        omega

theorem monolithic_full {p : MonolithicParser α} {s b e n t} (hd : (monolithicDecoder p).decode s b e = (.ok n, t))
    (hi : (monolithicDecoder p).isIdle t = false) : n = b.length := by
  simp only [monolithicDecoder] at hd hi
  (repeat' split at hd) <;> cases hd
  · simp at hi
  · rfl

/-! ## Decoders around a decoder -/

/-- A decoder that passes its calls on to another one. -/
theorem stalls_sim {τ : Type} {c q c' q' : Bool} {D : Decoder σ α} {D' : Decoder τ β} {I : σ → Prop} {I' : τ → Prop}
    (h : Stalls c q D I) (hj : Joins c' true q' D' I') (P : τ → Prop) (π : τ → σ) (hI : ∀ {s}, I' s → I (π s))
    (ret : ∀ {s b e n t}, I' s ∨ P s → tryDecode D' s 0 b e = .ret (.ok n) t →
      P t ∧ ∃ e', tryDecode D (π s) 0 b e' = .ret (.ok n) (π t))
    (item : ∀ {s b e n t x s'}, P s → Item D' s b e n t x s' →
      ∃ b e n t x s', Item D (π s) b e n t x s') : Stalls c' q' D' I' := by
  refine ⟨hj, ?_⟩
  intro s b e n t hs hr hn
  obtain ⟨hP, e', hr'⟩ := ret (.inl hs) hr
  refine ⟨fun t => P t ∧ Dead D (π t), ⟨hP, h.stall (hI hs) hr' hn⟩, ?_⟩
  rintro u ⟨hP, hu⟩ b e
  refine ⟨fun n t x s' hi => ?_, fun n t hr => ?_⟩
  · obtain ⟨_, _, _, _, _, _, hi⟩ := item hP hi
    exact hu.item hi
  · obtain ⟨hP, e', hr'⟩ := ret (.inr hP) hr
    exact ⟨hP, hu.part hr'⟩

theorem Stalls.transfer {c q : Bool} {D : Decoder σ α} {D' : Decoder σ β} {I : σ → Prop} (h : Stalls c q D I)
    (hd : ∀ s b e n t, D'.decode s b e = (.ok n, t) ↔ D.decode s b e = (.ok n, t))
    (hi : ∀ s, D'.isIdle s = D.isIdle s)
    (hf : ∀ t y s', D'.finish t = (.ok y, s') → ∃ x, D.finish t = (.ok x, s')) : Stalls c q D' I := by
  refine stalls_sim h (h.joins.transfer hd hi hf) (fun _ => True) id (fun h => h) ?_ ?_
  · intro s b e n t _ hr
    have hs' := tryDecode_ret_busy hr
    have hs : D.isIdle s = false := (hi s).symm.trans hs'
    rw [tryDecode_ret_iff hs', hd, hi] at hr
    exact ⟨trivial, e, (tryDecode_ret_iff hs).2 hr⟩
  · rintro s b e n t x s' _ ⟨h1, h2⟩
    obtain ⟨y, hy⟩ := hf _ _ _ h2
    refine ⟨b, e, n, t, y, s', ?_, hy⟩
    cases hs : D.isIdle s with
    | true =>
      rw [tryDecode_quiet ((hi s).trans hs)] at h1
      exact (tryDecode_quiet hs _ _ _).trans h1
    | false =>
      rw [tryDecode_next_iff ((hi s).trans hs), hd, hi] at h1
      exact (tryDecode_next_iff hs).2 h1

theorem stalls_fix (c q : Bool) (f : Bytes → α) :
    Stalls c q (fixDecoder f) (fun s => s.offset ≤ s.bytes.length) := by
  refine (stalls_full (joins_copyable c true q) fun _ _ => copyable_full).transfer
    (fun _ _ _ _ _ => Iff.rfl) (fun _ => rfl) ?_
  intro t y s' h
  exact step_id_ok (by rintro a s y s' h; cases h; rfl) h

theorem stalls_utf8 {c q : Bool} {D : Decoder σ Bytes} {I : σ → Prop} (h : Stalls c q D I) :
    Stalls c q (utf8Decoder D) I := by
  refine h.transfer (fun _ _ _ _ _ => Iff.rfl) (fun _ => rfl) ?_
  intro t y s' h
  refine step_id_ok ?_ h
  intro a s y s' h
  split at h <;> cases h
  rfl

theorem stalls_map {c q : Bool} {D : Decoder σ α} {I : σ → Prop} (f : α → β) (h : Stalls c q D I) :
    Stalls c q (mapDecoder D f) I := by
  refine h.transfer (fun _ _ _ _ _ => Iff.rfl) (fun _ => rfl) ?_
  intro t y s' h
  exact step_id_ok (by rintro a s y s' h; cases h; rfl) h

theorem stalls_tryMap {c q : Bool} {D : Decoder σ α} {I : σ → Prop} (f : α → Except ErrorKind β)
    (h : Stalls c q D I) : Stalls c q (tryMapDecoder D f) I := by
  refine h.transfer (fun _ _ _ _ _ => Iff.rfl) (fun _ => rfl) ?_
  intro t y s' h
  refine step_id_ok ?_ h
  intro a s y s' h
  split at h <;> cases h
  rfl

theorem stalls_mapErr {c q : Bool} {D : Decoder σ α} {I : σ → Prop} (f : ErrorKind → ErrorKind)
    (h : Stalls c q D I) : Stalls c q (mapErrDecoder D f) I := by
  refine h.transfer ?_ (fun _ => rfl) ?_
  · intro s b e n t
    simp only [mapErrDecoder, Prod.mk.injEq, mapErr_ok_iff]
    constructor
    · rintro ⟨h1, h2⟩; exact Prod.ext h1 h2
    · intro h; rw [h]; exact ⟨rfl, rfl⟩
  · intro t y s' h
    simp only [mapErrDecoder, Prod.mk.injEq, mapErr_ok_iff] at h
    exact ⟨y, Prod.ext_iff.2 h⟩

theorem stalls_captured {ε : Type} {F : ε → Decoder σ α} {v : ε} {c q : Bool} {I : σ → Prop}
    (h : Stalls c q (F v) I) : Stalls c q (capturedDecoder F) fun s => s.1 = v ∧ I s.2 := by
  refine stalls_sim h (joins_captured h.joins) (fun s => s.1 = v) Prod.snd (fun h => h.2) ?_ ?_
  · rintro ⟨w, s⟩ b e n t hw hr
    obtain rfl : w = v := hw.elim (fun h => h.1) id
    obtain ⟨h1, h2⟩ := tryDecode_captured_ret.1 hr
    exact ⟨h2, e, h1⟩
  · rintro ⟨_, s⟩ b e n t x s' rfl hi
    exact ⟨_, _, _, _, _, _, (item_captured.1 hi).1⟩

theorem stalls_omit {c q : Bool} {D : Decoder σ α} {I : σ → Prop} (h : Stalls c q D I) :
    Stalls c q (omittableDecoder D) (fun s => I s.inner) := by
  have idle : ∀ {i}, (omittableDecoder D).isIdle ⟨i, false⟩ = D.isIdle i := by
    intro i; simp [omittableDecoder]
  refine stalls_sim h (joins_omit h.joins) (fun s => s.doOmit = false) OmitState.inner (fun h => h) ?_ ?_
  · rintro ⟨i, d⟩ b e n t _ hr
    have hs := tryDecode_ret_busy hr
    obtain ⟨rfl, hs'⟩ : d = false ∧ D.isIdle i = false := by simpa [omittableDecoder] using hs
    obtain ⟨h1, h2⟩ := (tryDecode_ret_iff hs).1 hr
    obtain ⟨j, hj, rfl⟩ := omit_ok.1 h1
    exact ⟨rfl, e, (tryDecode_ret_iff hs').2 ⟨hj, idle ▸ h2⟩⟩
  · rintro ⟨i, d⟩ b e n t x s' hd hi
    cases hd
    cases hs : D.isIdle i with
    | true =>
      obtain ⟨rfl, rfl, hf⟩ := (item_quiet (idle.trans hs)).1 hi
      obtain ⟨y, k, hk, rfl, rfl⟩ := omit_fin.1 hf
      exact ⟨[], e, _, _, _, _, (item_quiet hs).2 ⟨rfl, rfl, hk⟩⟩
    | false =>
      obtain ⟨h1, h2, hf⟩ := (item_busy (idle.trans hs)).1 hi
      obtain ⟨j, hj, rfl⟩ := omit_ok.1 h1
      obtain ⟨y, k, hk, rfl, rfl⟩ := omit_fin.1 hf
      exact ⟨_, _, _, _, _, _, (item_busy hs).2 ⟨hj, idle ▸ h2, hk⟩⟩

theorem stalls_maybeEos {c q : Bool} {D : Decoder σ α} {I : σ → Prop} (h : Stalls c q D I) :
    Stalls c false (maybeEosDecoder D) (fun s => I s.inner) := by
  refine stalls_sim h (joins_maybeEos h.joins) (fun _ => True) MaybeEosState.inner (fun h => h) ?_ ?_
  · rintro s b e n t _ hr
    have hs : D.isIdle s.inner = false := tryDecode_ret_busy (D := maybeEosDecoder D) hr
    obtain ⟨h1, h2⟩ := (tryDecode_ret_iff (D := maybeEosDecoder D) hs).1 hr
    obtain ⟨j, hj, rfl⟩ := maybe_ok.1 h1
    exact ⟨trivial, _, (tryDecode_ret_iff hs).2 ⟨hj, h2⟩⟩
  · rintro s b e n t x s' _ hi
    cases hs : D.isIdle s.inner with
    | true =>
      obtain ⟨rfl, rfl, hf⟩ := (item_quiet (D := maybeEosDecoder D) hs).1 hi
      obtain ⟨j, hj, rfl⟩ := maybe_fin.1 hf
      exact ⟨[], e, _, _, _, _, (item_quiet hs).2 ⟨rfl, rfl, hj⟩⟩
    | false =>
      obtain ⟨h1, h2, hf⟩ := (item_busy (D := maybeEosDecoder D) hs).1 hi
      obtain ⟨i, hi', rfl⟩ := maybe_ok.1 h1
      obtain ⟨j, hj, rfl⟩ := maybe_fin.1 hf
      exact ⟨_, _, _, _, _, _, (item_busy hs).2 ⟨hi', h2, hj⟩⟩

theorem stalls_peekable {c q : Bool} {D : Decoder σ α} {I : σ → Prop} (h : Stalls c q D I) :
    Stalls c q (peekableDecoder D) (fun s => I s.inner) := by
  refine stalls_sim h (joins_peekable h.joins) (fun s => D.isIdle s.inner = false ∧ s.item = none) PeekState.inner
    (fun h => h) ?_ ?_
  · rintro ⟨i, o⟩ b e n t hI hr
    have hs := tryDecode_ret_busy hr
    obtain rfl : o = none := by cases o <;> simp [peekableDecoder] at hs; rfl
    obtain ⟨h1, h2⟩ := (tryDecode_ret_iff hs).1 hr
    obtain ⟨j, hj, hc⟩ := peek_ok.1 h1
    rcases hc with ⟨hi, rfl⟩ | ⟨hi, y, k, hk, rfl⟩
    · have hq : D.isIdle i = false := by
        rcases hI with hI | hI
        · cases hq : D.isIdle i with
          | true =>
            obtain ⟨_, rfl⟩ := h.joins.quiet hI hq hj
            rw [hq] at hi; cases hi
          | false => rfl
        · exact hI.1
      exact ⟨⟨hi, rfl⟩, e, (tryDecode_ret_iff hq).2 ⟨hj, hi⟩⟩
    · cases h2
  · rintro ⟨i, o⟩ b e n t x s' ⟨hq, ho⟩ hi
    cases ho
    replace hq : D.isIdle i = false := hq
    obtain ⟨h1, h2, hf⟩ := (item_busy (D := peekableDecoder D) rfl).1 hi
    obtain ⟨j, hj, hc⟩ := peek_ok.1 h1
    rcases hc with ⟨hi', rfl⟩ | ⟨hi', y, k, hk, rfl⟩
    · cases h2
    · exact ⟨_, _, _, _, _, _, (item_busy hq).2 ⟨hj, hi', hk⟩⟩

/-! ## Composition -/

theorem stalls_pair {c q : Bool} {σ0 α0 σ1 α1 : Type} {D0 : Decoder σ0 α0} {D1 : Decoder σ1 α1}
    {I0 : σ0 → Prop} {I1 : σ1 → Prop} (h0 : Stalls c q D0 I0) (h1 : Stalls c q D1 I1) :
    Stalls c q (tupleDecoder2 D0 D1) (fun s => Mid D0 I0 s.1 ∧ I1 s.2) := by
  refine ⟨joins_pair h0.joins h1.joins, ?_⟩
  rintro s b e n t ⟨hI0, hI1⟩ hr hn
  refine ⟨fun t => Dead D0 t.1 ∨ Dead D1 t.2, ?_, ?_⟩
  · rcases pair_ret.1 hr with ⟨g0, _⟩ | ⟨n0, g0, g1⟩
    · exact .inl (h0.stall (hI0.ret g0) g0 hn)
    · exact .inr (h1.stallAt hI1 g1 hn)
  · intro u hu b e
    refine ⟨fun n t x s' hi => ?_, fun n t hr => ?_⟩
    · obtain ⟨m0, g0, g1, g2⟩ := pair_item.1 hi
      rcases hu with hu | hu
      · exact hu.item g0
      · exact hu.nextAt g1 g2
    · rcases pair_ret.1 hr with ⟨g0, g1⟩ | ⟨n0, g0, g1⟩
      · rcases hu with hu | hu
        · exact .inl (hu.part g0)
        · exact .inr (by rw [g1]; exact hu)
      · rcases hu with hu | hu
        · exact .inl (hu.next g0)
        · exact .inr (hu.retAt g1)

theorem stalls_andThen {c q : Bool} {σ0 α0 σ1 α1 : Type} {D0 : Decoder σ0 α0} {D1 : Decoder σ1 α1}
    {f : α0 → σ1} {I0 : σ0 → Prop} {I1 : σ1 → Prop} (h0 : Stalls c q D0 I0) (h1 : Stalls c q D1 I1)
    (hf : ∀ x, I1 (f x)) :
    Stalls c q (andThenDecoder D0 D1 f) (fun s => I0 s.1 ∧ ∀ u, s.2 = some u → I1 u) := by
  have some_ret : ∀ {s0 s1 b e n} {t : σ0 × Option σ1},
      tryDecode (andThenDecoder D0 D1 f) (s0, some s1) 0 b e = .ret (.ok n) t →
      ∃ t1, t = (s0, some t1) ∧ tryDecode D1 s1 0 b e = .ret (.ok n) t1 := by
    intro s0 s1 b e n t hr
    obtain ⟨hd, ht⟩ := (tryDecode_ret_iff (tryDecode_ret_busy hr)).1 hr
    obtain ⟨t1, rfl, h | h⟩ := andThen_some.1 hd
    · have := tryDecode_next_isIdle h
      simp [andThenDecoder, this] at ht
    · exact ⟨t1, rfl, h⟩
  refine ⟨joins_andThen h0.joins h1.joins hf, ?_⟩
  rintro ⟨s0, s1⟩ b e n t ⟨hI0, hI1⟩ hr hn
  refine ⟨fun t => (t.2 = none ∧ Dead D0 t.1) ∨ ∃ u, t.2 = some u ∧ Dead D1 u, ?_, ?_⟩
  · cases s1 with
    | some s1 =>
      obtain ⟨t1, rfl, h⟩ := some_ret hr
      exact .inr ⟨t1, rfl, h1.stall (hI1 s1 rfl) h hn⟩
    | none =>
      obtain ⟨hd, ht⟩ := (tryDecode_ret_iff rfl).1 hr
      rcases andThen_none_ret hd ht with ⟨u0, g, rfl⟩ | ⟨n0, t0, y, s0', u1, g0, g1, rfl⟩
      · exact .inl ⟨rfl, h0.stall hI0 g hn⟩
      · exact .inr ⟨u1, rfl, h1.stallAt (hf y) g1 hn⟩
  · rintro ⟨u0, u1⟩ hu b e
    refine ⟨fun n t x s' hi => ?_, fun n t hr => ?_⟩
    · rcases hu with ⟨hu, hD⟩ | ⟨u, hu, hD⟩
      · cases hu
        obtain ⟨hd, ht, hfin⟩ := (item_busy rfl).1 hi
        obtain ⟨m0, t0, y, s0', t1, f0, f1, rfl⟩ := andThen_none_idle hd ht
        exact hD.item f0
      · cases hu
        cases hs : D1.isIdle u with
        | true =>
          obtain ⟨rfl, rfl, hfin⟩ := (item_quiet (D := andThenDecoder D0 D1 f) (s := (u0, some u)) hs).1 hi
          exact hD.item (b := []) (e := e) ((item_quiet hs).2 ⟨rfl, rfl, Prod.ext (andThen_fin.1 hfin).1 rfl⟩)
        | false =>
          obtain ⟨hd, ht, hfin⟩ := (item_busy (D := andThenDecoder D0 D1 f) (s := (u0, some u)) hs).1 hi
          obtain ⟨t1, rfl, h | h⟩ := andThen_some.1 hd
          · exact hD.item ⟨h, Prod.ext (andThen_fin.1 hfin).1 rfl⟩
          · have := tryDecode_ret_ok h
            simp [andThenDecoder, this] at ht
    · rcases hu with ⟨hu, hD⟩ | ⟨u, hu, hD⟩
      · cases hu
        obtain ⟨hd, ht⟩ := (tryDecode_ret_iff rfl).1 hr
        rcases andThen_none_ret hd ht with ⟨u0, g, rfl⟩ | ⟨n0, t0, y, s0', u1, g0, g1, rfl⟩
        · exact .inl ⟨rfl, hD.part g⟩
        · exact (hD.item g0).elim
      · cases hu
        obtain ⟨t1, rfl, h⟩ := some_ret hr
        exact .inr ⟨t1, rfl, hD.part h⟩

/-! ## Repetition -/

theorem loopN_stall {c q : Bool} {D : Decoder σ α} {I : σ → Prop} (hI : Stalls c q D I) {buf : Bytes}
    {e : Eos} : ∀ {r off s items n s' items' r'}, I s → off ≤ buf.length →
      (collectNLoop D buf e r off s items = .ret (.ok n) s' items' r' ∨
        (collectNLoop D buf e r off s items = .done n s' items' r' ∧ r' ≠ 0)) →
      n ≠ buf.length → Dead D s' := by
  intro r
  induction r with
  | zero =>
    intro off s items n s' items' r' hs ho h
    rcases h with h | ⟨h, h0⟩
    · cases h
    · cases h; exact absurd rfl h0
  | succ r ih =>
    intro off s items n s' items' r' hs ho h hn
    rw [collectNLoop] at h
    split at h
    · next hlt =>
      rcases hg : tryDecode D s off buf e with ⟨o, t⟩ | ⟨x, t⟩ <;> rw [hg] at h <;> simp only at h
      · rw [tryDecode_at ho] at hg
        rcases hx : D.finish t with ⟨x, s1⟩
        rw [hx] at h
        cases x with
        | ok x =>
          simp only at h
          have hit : Item D s (buf.drop off) e (o - off) t x s1 := ⟨hg.2, hx⟩
          have hb := hI.joins.bound hs hit
          simp only [List.length_drop] at hb
          exact ih (hI.joins.again hs hit) (by omega) h hn
        | _ => simp at h
      · rcases h with h | ⟨h, _⟩
        · cases h
          exact hI.stallAt hs hg hn
        · cases h
    · next hlt =>
      rcases h with h | ⟨h, h0⟩
      · cases h
      · cases h
        omega

theorem loopN_dead {D : Decoder σ α} {buf : Bytes} {e : Eos} {r off s items n s' items' r'} (hs : Dead D s)
    (hr : r ≠ 0) (h : collectNLoop D buf e r off s items = .ret (.ok n) s' items' r' ∨
        collectNLoop D buf e r off s items = .done n s' items' r') : r' ≠ 0 ∧ Dead D s' := by
  obtain ⟨r, rfl⟩ : ∃ m, r = m + 1 := ⟨r - 1, by omega⟩
  rw [collectNLoop] at h
  split at h
  · rcases hg : tryDecode D s off buf e with ⟨o, t⟩ | ⟨x, t⟩ <;> rw [hg] at h <;> simp only at h
    · rcases hx : D.finish t with ⟨x, s1⟩
      rw [hx] at h
      cases x with
      | ok x => exact (hs.nextAt hg hx).elim
      | _ => simp at h
    · rcases h with h | h
      · cases h
        exact ⟨by omega, hs.retAt hg⟩
      · cases h
  · rcases h with h | h
    · cases h
    · cases h
      exact ⟨by omega, hs⟩

theorem stalls_collectN (c : Bool) {c' q : Bool} {D : Decoder σ α} {I : σ → Prop}
    (hI : Stalls c' q D I) : Stalls c q (collectNDecoder D) (fun s => I s.inner) := by
  refine ⟨joins_collectN c true hI.joins, ?_⟩
  intro s b e n t hs hr hn
  obtain ⟨hd, ht⟩ := (tryDecode_ret_iff (tryDecode_ret_busy hr)).1 hr
  obtain ⟨h0, h1⟩ := collectN_wait hd ht
  refine ⟨fun t => t.remaining ≠ 0 ∧ Dead D t.inner,
    ⟨h0, loopN_stall hI hs (by omega) (h1.imp_right fun h => ⟨h.1, h0⟩) hn⟩, ?_⟩
  rintro u ⟨h0, hu⟩ b e
  have hq : (collectNDecoder D).isIdle u = false := by
    cases hq : (collectNDecoder D).isIdle u with
    | false => rfl
    | true => exact absurd (collectN_idle.1 hq) h0
  refine ⟨fun n t x s' hi => ?_, fun n t hr => ?_⟩
  · obtain ⟨hd, ht, hf⟩ := (item_busy hq).1 hi
    obtain ⟨h1, h2⟩ := collectN_done hd ht
    exact (loopN_dead hu h0 (.inr h1)).1 rfl
  · obtain ⟨hd, ht⟩ := (tryDecode_ret_iff hq).1 hr
    obtain ⟨h1, h2⟩ := collectN_wait hd ht
    exact loopN_dead hu h0 (h2.imp_right fun h => h.1)

/-! ## `Length` -/

/-- A decoder that was told that nothing more comes and still waits. -/
def Ended (c q : Bool) (D : Decoder σ α) (s : σ) : Prop :=
  Whole c true q D s ∧ D.isIdle s = false ∧ ∀ n t x s', ¬ Item D s [] ⟨.finite 0⟩ n t x s'

theorem Ended.of {c q : Bool} {D : Decoder σ α} {s t : σ} {b : Bytes} (hs : Whole c true q D s)
    (hr : tryDecode D s 0 b ⟨.finite 0⟩ = .ret (.ok b.length) t) : Ended c q D t :=
  ⟨(whole_joins _ _ _ _).part hs hr, tryDecode_ret_ok hr,
    fun _ _ _ _ hi => (whole_joins c true q D).closed rfl hs rfl hr hi⟩

theorem stalls_length (c : Bool) {c' q' : Bool} {D : Decoder σ α} {I : σ → Prop} (h : Stalls c' q' D I) :
    Stalls c false (lengthDecoder D)
      (fun s => I s.inner ∧ s.remaining ≤ s.expected ∧ s.expected < 2 ^ 64) := by
  refine ⟨joins_length c true h.joins, ?_⟩
  rintro s b e n t ⟨hI, _, _⟩ hr hn
  have hs : D.isIdle s.inner = false := tryDecode_ret_busy (D := lengthDecoder D) hr
  obtain ⟨hd, ht⟩ := (tryDecode_ret_iff (D := lengthDecoder D) hs).1 hr
  obtain ⟨_, i, hi, hle, rfl⟩ := length_ok.1 hd
  replace hi := (tryDecode_ret_iff hs).2 ⟨hi, ht⟩
  refine ⟨fun u => Dead D u.inner ∨ (u.remaining = 0 ∧ Ended c' q' D u.inner), ?_, ?_⟩
  · by_cases hf : n = (b.take s.remaining).length
    · right
      have hlt : s.remaining < b.length := by
        simp only [List.length_take] at hf
        omega
      have e1 : n = s.remaining := by
        simp only [List.length_take] at hf
        omega
      have e2 : s.remaining - min b.length s.remaining = 0 := by omega
      rw [e2] at hi
      rw [hf] at hi
      refine ⟨by simp only; omega, Ended.of ⟨I, h.joins, hI⟩ hi⟩
    · exact .inl (h.stall hI hi hf)
  · rintro u hu b e
    refine ⟨fun n t x s' hi => ?_, fun n t hr => ?_⟩
    · cases hs : D.isIdle u.inner with
      | true =>
        obtain ⟨rfl, rfl, hf⟩ := (item_quiet (D := lengthDecoder D) hs).1 hi
        obtain ⟨_, j, hj, rfl⟩ := length_fin.1 hf
        rcases hu with hu | ⟨_, hu⟩
        · exact hu.item (b := []) (e := e) ((item_quiet hs).2 ⟨rfl, rfl, hj⟩)
        · rw [hu.2.1] at hs; cases hs
      | false =>
        obtain ⟨hd, ht, hf⟩ := (item_busy (D := lengthDecoder D) hs).1 hi
        obtain ⟨_, i, hi', _, rfl⟩ := length_ok.1 hd
        obtain ⟨_, j, hj, rfl⟩ := length_fin.1 hf
        have hit := (item_busy hs).2 ⟨hi', ht, hj⟩
        rcases hu with hu | ⟨h0, hu⟩
        · exact hu.item hit
        · rw [h0] at hit
          simp only [List.take_zero, Nat.min_zero, Nat.sub_self] at hit
          exact hu.2.2 _ _ _ _ hit
    · have hs : D.isIdle u.inner = false := tryDecode_ret_busy (D := lengthDecoder D) hr
      obtain ⟨hd, ht⟩ := (tryDecode_ret_iff (D := lengthDecoder D) hs).1 hr
      obtain ⟨_, i, hi, hle, rfl⟩ := length_ok.1 hd
      replace hi := (tryDecode_ret_iff hs).2 ⟨hi, ht⟩
      rcases hu with hu | ⟨h0, hu⟩
      · exact .inl (hu.part hi)
      · right
        rw [h0] at hi hle
        obtain rfl : n = 0 := by omega
        simp only [List.take_zero, Nat.min_zero, Nat.sub_self] at hi
        exact ⟨by simp only; omega, Ended.of (b := []) hu.1 hi⟩

/-! ## Every streamable decoder -/

theorem streamable_stalls {ok : Shape → Prop} {p q c : Bool} {D : Decoder σ α} {s : σ}
    (hm : ¬ ok .maxBytes) (hc : ¬ ok .collect) (h : Streamable ok p q D s) : Lost c q D s := by
  induction h generalizing c with
  | own q hb hI => exact ⟨_, hb.stalls _ q, hI⟩
  | copyable p q b =>
    exact ⟨_, stalls_full (joins_copyable _ _ q) fun _ _ => copyable_full, by simp [CopyableState.new]⟩
  | bytes p q b => exact ⟨_, stalls_full (joins_bytes _ _ q) fun _ _ => bytes_full, by simp [BytesDecoderState.new]⟩
  | remaining q =>
    exact ⟨_, stalls_full (joins_remaining _ _ q) fun _ hs hd _ => ((remaining_ok hs).1 hd).1, by simp⟩
  | null p q => exact ⟨_, stalls_full (joins_null _ _ q) fun _ hs => (by cases hs), trivial⟩
  | padding q b =>
    exact ⟨_, stalls_full (joins_padding _ _ q) fun _ hs hd _ => ((padding_ok hs).1 hd).1, by simp⟩
  | number p q f k => exact ⟨_, stalls_fix _ q f, by simp [fixInit]⟩
  | monolithic q parse hw => exact ⟨_, stalls_full (joins_monolithic _ _ q hw) fun _ _ => monolithic_full, rfl⟩
  | utf8 _ ih => obtain ⟨I, h1, h2⟩ := @ih c; exact ⟨_, stalls_utf8 h1, h2⟩
  | map f _ ih => obtain ⟨I, h1, h2⟩ := @ih c; exact ⟨_, stalls_map f h1, h2⟩
  | tryMap f _ ih => obtain ⟨I, h1, h2⟩ := @ih c; exact ⟨_, stalls_tryMap f h1, h2⟩
  | mapErr f _ ih => obtain ⟨I, h1, h2⟩ := @ih c; exact ⟨_, stalls_mapErr f h1, h2⟩
  | omittable d _ ih => obtain ⟨I, h1, h2⟩ := @ih c; exact ⟨_, stalls_omit h1, h2⟩
  | length p n hn _ ih =>
    obtain ⟨I, h1, h2⟩ := @ih c
    exact ⟨_, stalls_length _ h1, h2, Nat.le_refl _, hn⟩
  | maxBytes n hb _ ih => exact absurd hb hm
  | peekable _ ih => obtain ⟨I, h1, h2⟩ := @ih c; exact ⟨_, stalls_peekable h1, h2⟩
  | maybeEos _ ih => obtain ⟨I, h1, h2⟩ := @ih c; exact ⟨_, stalls_maybeEos h1, h2⟩
  | collect ho hq _ ih => exact absurd ho hc
  | collectN p n _ ih => obtain ⟨I, h1, h2⟩ := @ih c; exact ⟨_, stalls_collectN _ h1, h2⟩
  | pair _ _ ih0 ih1 =>
    obtain ⟨I0, h1, h2⟩ := @ih0 c
    obtain ⟨I1, h3, h4⟩ := @ih1 c
    exact ⟨_, stalls_pair h1 h3, .inl h2, h4⟩
  | @andThen p q σ0 α0 σ1 α1 D0 D1 s0 f _ hx ih0 ih1 =>
    exact ⟨_, stalls_andThen (lost_stalls c q D0) (lost_stalls c q D1) (fun x => ih1 x), ih0,
      fun u hu => by cases hu⟩
  | captured F v _ ih => obtain ⟨I, h1, h2⟩ := @ih c; exact ⟨_, stalls_captured h1, rfl, h2⟩

/-! ## Use -/

theorem uses_lost {c q : Bool} {D : Decoder σ α} {s₀ s : σ} (h₀ : Lost c q D s₀) (h : Uses D s₀ s) :
    Mid D (Lost c q D) s := by
  induction h with
  | new => exact .inl h₀
  | @decode s s' b e n _ hi hd ih =>
    have hs : Lost c q D s := by
      rcases ih with h | ⟨u, b, e, m, _, hn⟩
      · exact h
      · rw [tryDecode_next_isIdle hn] at hi; cases hi
    cases hi' : D.isIdle s' with
    | true => exact .inr ⟨s, b, e, n, hs, (tryDecode_next_iff hi).2 ⟨hd, hi'⟩⟩
    | false => exact .inl ((lost_stalls c q D).joins.part hs ((tryDecode_ret_iff hi).2 ⟨hd, hi'⟩))
  | finish _ hi hf ih =>
    exact .inl (ih.again' (lost_stalls c q D).joins.steps
      ((item_quiet (b := []) (e := Eos.new false) hi).2 ⟨rfl, rfl, hf⟩))

theorem decodes_dead {D : Decoder σ α} {s s' : σ} (h : Decodes D s s') : Dead D s → Dead D s' := by
  induction h with
  | refl => exact id
  | @step s s1 s' b e n hi hd _ ih =>
    intro hs
    apply ih
    cases hi' : D.isIdle s1 with
    | true => exact hs.next ((tryDecode_next_iff (b := b) (e := e) hi).2 ⟨hd, hi'⟩)
    | false => exact hs.part ((tryDecode_ret_iff (b := b) (e := e) hi).2 ⟨hd, hi'⟩)

theorem uses_retained {τ : Type} {D : Decoder σ α} {D' : Decoder τ α} {R : σ → τ → Prop} (hk : Retains D D' R)
    {s₀ s : σ} {s₀' : τ} (h₀ : R s₀ s₀') (h : Uses D s₀ s) : ∃ s', R s s' ∧ Uses D' s₀' s' := by
  induction h with
  | new => exact ⟨_, h₀, .new⟩
  | decode _ hi hd ih =>
    obtain ⟨u, h1, h2⟩ := ih
    obtain ⟨v, h3, h4⟩ := hk.decode h1 _ _ _ _ hd
    exact ⟨v, h4, .decode h2 (by rw [← hk.idle h1, hi]) h3⟩
  | finish _ hi hf ih =>
    obtain ⟨u, h1, h2⟩ := ih
    obtain ⟨v, h3, h4⟩ := hk.finish h1 _ _ hf
    exact ⟨v, h4, .finish h2 (by rw [← hk.idle h1, hi]) h3⟩

theorem decodes_retained {τ : Type} {D : Decoder σ α} {D' : Decoder τ α} {R : σ → τ → Prop} (hk : Retains D D' R)
    {s t : σ} (h : Decodes D s t) : ∀ {s'}, R s s' → ∃ t', R t t' ∧ Decodes D' s' t' := by
  induction h with
  | refl => intro s' hr; exact ⟨_, hr, .refl⟩
  | step hi hd _ ih =>
    intro s' hr
    obtain ⟨v, h3, h4⟩ := hk.decode hr _ _ _ _ hd
    obtain ⟨t', h5, h6⟩ := ih h4
    exact ⟨t', h5, .step (by rw [← hk.idle hr, hi]) h3 h6⟩

theorem stall_lost {c q : Bool} {D : Decoder σ α} {s₀ s s' t : σ} (h₀ : Lost c q D s₀) (h : Uses D s₀ s)
    {b : Bytes} {e : Eos} {n : Nat} (hi : D.isIdle s = false) (hd : D.decode s b e = (.ok n, s'))
    (hi' : D.isIdle s' = false) (hn : n ≠ b.length) (ht : Decodes D s' t) (hti : D.isIdle t = true) (x : α) (u : σ) :
    D.finish t ≠ (.ok x, u) := by
  intro hf
  have hr := (tryDecode_ret_iff hi).2 ⟨hd, hi'⟩
  have hdead := (lost_stalls c q D).stall ((uses_lost h₀ h).ret hr) hr hn
  exact (decodes_dead ht hdead).item (b := []) (e := Eos.new false) ((item_quiet hti).2 ⟨rfl, rfl, hf⟩)

end Bytecodec
