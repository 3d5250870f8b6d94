import Verif.Lemmas.Matched
import Verif.Lemmas.Join
import Verif.Lemmas.Utf8
import Verif.Lemmas.Frames
import Verif.Spec.Lossless
/-!
# Decoders that accept one encoding per item
-/
namespace Bytecodec

open Spec

variable {σ τ α β : Type}

/-- From the states `F` the decoder delivers an item only for the bytes `wire` says. -/
structure Keeps (again : Bool) (D : Decoder σ α) (F : σ → Prop) (wire : α → Bytes → Prop) : Prop where
  item : ∀ {s b e n t x s'}, F s → Item D s b e n t x s' → n ≤ b.length ∧ wire x (b.take n) ∧ (again = true → F s')

theorem Keeps.mono {again again' : Bool} {D : Decoder σ α} {F : σ → Prop} {wire wire' : α → Bytes → Prop}
    (h : Keeps again D F wire) (hw : ∀ {x b}, wire x b → wire' x b) (ha : again' = true → again = true) :
    Keeps again' D F wire' := by
  constructor
  intro s b e n t x s' hs hi
  obtain ⟨h1, h2, h3⟩ := h.item hs hi
  exact ⟨h1, hw h2, fun h => h3 (ha h)⟩

theorem keeps_copyable (k : Nat) : Keeps true copyableBytesDecoder
    (fun s => s.offset = 0 ∧ s.bytes.length = k) (fun x bs => x = bs ∧ bs.length = k) := by
  constructor
  rintro ⟨B, off⟩ b e n t x s' ⟨rfl, hk⟩ hi
  simp only at hk
  cases hid : copyableBytesDecoder.isIdle ⟨B, 0⟩ with
  | true =>
    rw [item_quiet hid] at hi
    obtain ⟨rfl, rfl, hf⟩ := hi
    have h0 : B = [] := by
      simp only [copyableBytesDecoder, beq_iff_eq] at hid
      exact List.eq_nil_of_length_eq_zero hid.symm
    subst h0
    simp only [copyableBytesDecoder, List.length_nil, if_true] at hf
    cases hf
    exact ⟨by simp, ⟨by simp, by simpa using hk⟩, fun _ => ⟨rfl, hk⟩⟩
  | false =>
    rw [item_busy hid] at hi
    obtain ⟨hd, ht, hf⟩ := hi
    rw [copyable_eq _ _ (by simp)] at hd
    split at hd
    · cases hd
    · cases hd
      simp only [Nat.sub_zero, Nat.zero_add] at ht hf ⊢
      have hl : (splice B 0 (b.take B.length)).length = B.length := splice_length (by simp; omega)
      simp only [copyableBytesDecoder, beq_iff_eq, hl] at ht
      simp only [copyableBytesDecoder, hl, ht, if_true] at hf
      cases hf
      have hb : B.length ≤ b.length := by omega
      refine ⟨by omega, ⟨?_, by simp; omega⟩, fun _ => ⟨rfl, by simp only [hl]; exact hk⟩⟩
      simp [splice, ht, Nat.min_eq_left hb]

theorem keeps_map {again : Bool} {D : Decoder σ α} {F : σ → Prop} {wire : α → Bytes → Prop}
    (h : Keeps again D F wire) {wire' : β → Bytes → Prop} {D' : Decoder σ β} (hd : D'.decode = D.decode)
    (hi : D'.isIdle = D.isIdle) (hf : ∀ {t y s'}, D'.finish t = (.ok y, s') →
      ∃ x, D.finish t = (.ok x, s') ∧ ∀ b, wire x b → wire' y b) : Keeps again D' F wire' := by
  constructor
  intro s b e n t y s' hs hit
  obtain ⟨x, h1, h2⟩ := hf hit.2
  have : Item D s b e n t x s' := by
    refine ⟨?_, h1⟩
    have := hit.1
    simp only [tryDecode] at this ⊢
    rw [hd, hi] at this
    exact this
  obtain ⟨h3, h4, h5⟩ := h.item hs this
  exact ⟨h3, h2 _ h4, h5⟩

theorem keeps_number (g : Bytes → α) (k : Nat) : Keeps true (fixDecoder g)
    (fun s => s.offset = 0 ∧ s.bytes.length = k) (fun x bs => x = g bs ∧ bs.length = k) := by
  refine keeps_map (keeps_copyable k) rfl rfl ?_
  intro t y s' hf
  obtain ⟨a, u, h1, h2⟩ := step_ok hf
  cases h2
  exact ⟨a, h1, fun b hb => ⟨by rw [hb.1], hb.2⟩⟩

theorem keeps_bytes (k : Nat) : Keeps false bytesDecoder
    (fun s => ∃ b, s = .new b ∧ b.length = k) (fun x bs => x = bs ∧ bs.length = k) := by
  constructor
  rintro s b e n t x s' ⟨B, rfl, hk⟩ hi
  have hid : bytesDecoder.isIdle (.new B) = copyableBytesDecoder.isIdle ⟨B, 0⟩ := bytes_idle (by simp)
  have fin : ∀ {u : CopyableState}, u.offset ≤ u.bytes.length → bytesDecoder.finish ⟨some u.bytes, u.offset⟩ = (.ok x, s') →
      copyableBytesDecoder.finish u = (.ok x, ⟨u.bytes, 0⟩) := by
    rintro ⟨B, off⟩ hu hf
    simp only [bytesDecoder] at hf
    by_cases h0 : (⟨some B, off⟩ : BytesDecoderState).exact = 0
    · rw [if_neg (by simpa using h0)] at hf
      have : B.length - off = 0 := h0
      simp only at hu
      cases hf
      simp only [copyableBytesDecoder]
      rw [if_pos (by omega)]
    · rw [if_pos h0] at hf
      cases hf
  have key : ∃ u, Item copyableBytesDecoder ⟨B, 0⟩ b e n u x ⟨u.bytes, 0⟩ := by
    cases hc : copyableBytesDecoder.isIdle ⟨B, 0⟩ with
    | true =>
      rw [item_quiet (hid.trans hc)] at hi
      obtain ⟨rfl, rfl, hf⟩ := hi
      exact ⟨⟨B, 0⟩, (item_quiet hc).2 ⟨rfl, rfl, fin (by simp) hf⟩⟩
    | false =>
      rw [item_busy (hid.trans hc)] at hi
      obtain ⟨hd, ht, hf⟩ := hi
      obtain ⟨u, hu, rfl⟩ := (bytes_ok (bs := B) (off := 0) (by simp)).1 hd
      have hb := copyable_bounded (s := ⟨B, 0⟩) (by simp) hu
      exact ⟨u, (item_busy hc).2 ⟨hu, (bytes_idle hb).symm.trans ht, fin hb hf⟩⟩
  obtain ⟨u, hu⟩ := key
  obtain ⟨h1, h2, _⟩ := (keeps_copyable k).item (s := ⟨B, 0⟩) ⟨rfl, hk⟩ hu
  exact ⟨h1, h2, by simp⟩

theorem keeps_remaining : Keeps true remainingBytesDecoder (fun s => s = .new) (fun x bs => x = bs) := by
  constructor
  rintro s b e n t x s' rfl hi
  rw [item_busy rfl] at hi
  obtain ⟨hd, ht, hf⟩ := hi
  obtain ⟨rfl, rfl, _⟩ := (remaining_ok rfl).1 hd
  have ht : e.isReached = true := ht
  simp only [remainingBytesDecoder, RemainingState.new, ht, List.nil_append] at hf
  cases hf
  exact ⟨Nat.le_refl _, by simp, fun _ => rfl⟩

theorem keeps_null : Keeps true nullDecoder (fun _ => True) (fun _ bs => bs = []) := by
  constructor
  intro s b e n t x s' _ hi
  rw [item_quiet rfl] at hi
  obtain ⟨rfl, _, _⟩ := hi
  simp

theorem keeps_monolithic {parse : MonolithicParser α} (hp : WholeParser parse) :
    Keeps true (monolithicDecoder parse) (fun s => s = .new) (fun x bs => (parse [] bs).1 = .ok x) := by
  constructor
  rintro s b e n t x s' rfl hi
  rw [item_busy rfl] at hi
  obtain ⟨hd, ht, hf⟩ := hi
  simp only [monolithicDecoder, MonoDecState.new] at hd
  split at hd
  · split at hd
    · next item m hm =>
      cases hd
      simp only [monolithicDecoder] at hf
      cases hf
      have h1 := hp.whole [] b x (by rw [hm])
      rw [hm] at h1
      simp only [List.length_nil, Nat.zero_add] at h1
      subst h1
      refine ⟨by simp, ?_, fun _ => rfl⟩
      simp [hm]
    all_goals cases hd
  · cases hd
    simp [monolithicDecoder] at ht

theorem keeps_mapErr {again : Bool} {D : Decoder σ α} {F : σ → Prop} {wire : α → Bytes → Prop}
    (f : ErrorKind → ErrorKind) (h : Keeps again D F wire) : Keeps again (mapErrDecoder D f) F wire := by
  constructor
  intro s b e n t x s' hs hi
  have fin : ∀ {u}, (mapErrDecoder D f).finish u = (.ok x, s') → D.finish u = (.ok x, s') := by
    intro u hf
    simp only [mapErrDecoder, Prod.mk.injEq, mapErr_ok_iff] at hf
    exact Prod.ext_iff.2 hf
  refine h.item hs (t := t) (e := e) ?_
  cases hid : D.isIdle s with
  | true =>
    rw [item_quiet (D := mapErrDecoder D f) hid] at hi
    exact (item_quiet hid).2 ⟨hi.1, hi.2.1, fin hi.2.2⟩
  | false =>
    rw [item_busy (D := mapErrDecoder D f) hid] at hi
    have hd := hi.1
    simp only [mapErrDecoder, Prod.mk.injEq, mapErr_ok_iff] at hd
    exact (item_busy hid).2 ⟨Prod.ext_iff.2 hd, hi.2.1, fin hi.2.2⟩

theorem keeps_present {again : Bool} {D : Decoder σ α} {F : σ → Prop} {wire : α → Bytes → Prop}
    (h : Keeps again D F wire) :
    Keeps again (omittableDecoder D) (fun s => F s.inner ∧ s.doOmit = false)
      (fun o bs => ∃ x, o = some x ∧ wire x bs) := by
  constructor
  rintro ⟨i, d⟩ b e n t o s' ⟨hs, rfl⟩ hi
  have idle : ∀ {i}, (omittableDecoder D).isIdle ⟨i, false⟩ = D.isIdle i := by
    intro i; simp [omittableDecoder]
  have key : ∃ u x j, Item D i b e n u x j ∧ s' = ⟨j, false⟩ ∧ o = some x := by
    cases hid : D.isIdle i with
    | true =>
      rw [item_quiet (idle.trans hid)] at hi
      obtain ⟨rfl, rfl, hf⟩ := hi
      obtain ⟨x, j, h1, h2, h3⟩ := omit_fin.1 hf
      exact ⟨i, x, j, (item_quiet hid).2 ⟨rfl, rfl, h1⟩, h2, h3⟩
    | false =>
      rw [item_busy (idle.trans hid)] at hi
      obtain ⟨hd, ht, hf⟩ := hi
      obtain ⟨u, h4, rfl⟩ := omit_ok.1 hd
      obtain ⟨x, j, h1, h2, h3⟩ := omit_fin.1 hf
      exact ⟨u, x, j, (item_busy hid).2 ⟨h4, idle.symm.trans ht, h1⟩, h2, h3⟩
  obtain ⟨u, x, j, h1, rfl, rfl⟩ := key
  obtain ⟨h2, h3, h4⟩ := h.item hs h1
  exact ⟨h2, ⟨x, rfl, h3⟩, fun h => ⟨h4 h, rfl⟩⟩

theorem keeps_absent (D : Decoder σ α) : Keeps true (omittableDecoder D) (fun s => s.doOmit = true)
    (fun o bs => o = none ∧ bs = []) := by
  constructor
  rintro ⟨i, d⟩ b e n t o s' rfl hi
  rw [item_quiet (by simp [omittableDecoder])] at hi
  obtain ⟨rfl, rfl, hf⟩ := hi
  simp only [omittableDecoder, if_true] at hf
  cases hf
  simp

theorem keeps_maxBytes {again : Bool} {D : Decoder σ α} {F : σ → Prop} {wire : α → Bytes → Prop} (k : Nat)
    (h : Keeps again D F wire) :
    Keeps again (maxBytesDecoder D) (fun s => F s.inner ∧ s.consumed = 0 ∧ s.max = k)
      (fun x bs => wire x bs ∧ bs.length ≤ k) := by
  constructor
  rintro ⟨i, c, m⟩ b e n t x s' ⟨hs, hc, hm⟩ hi
  simp only at hs hc hm
  subst hc hm
  have key : ∃ u j, Item D i b e n u x j ∧ s' = ⟨j, 0, m⟩ ∧ (n = 0 ∨ b.length ≤ m) := by
    cases hid : D.isIdle i with
    | true =>
      rw [item_quiet (D := maxBytesDecoder D) (show (maxBytesDecoder D).isIdle ⟨i, 0, m⟩ = _ from hid)] at hi
      obtain ⟨rfl, rfl, hf⟩ := hi
      obtain ⟨j, h1, h2⟩ := maxBytes_fin.1 hf
      exact ⟨i, j, (item_quiet hid).2 ⟨rfl, rfl, h1⟩, h2, .inl rfl⟩
    | false =>
      rw [item_busy (D := maxBytesDecoder D) (show (maxBytesDecoder D).isIdle ⟨i, 0, m⟩ = _ from hid)] at hi
      obtain ⟨hd, ht, hf⟩ := hi
      obtain ⟨_, _, h3, _, u, h4, rfl⟩ := maxBytes_ok.1 hd
      obtain ⟨j, h1, h2⟩ := maxBytes_fin.1 hf
      exact ⟨u, j, (item_busy hid).2 ⟨h4, ht, h1⟩, h2, .inr (by simpa using h3)⟩
  obtain ⟨u, j, h1, rfl, h5⟩ := key
  obtain ⟨h2, h3, h4⟩ := h.item hs h1
  exact ⟨h2, ⟨h3, by simp; omega⟩, fun h => ⟨h4 h, rfl, rfl⟩⟩

theorem keeps_length {again : Bool} {D : Decoder σ α} {F : σ → Prop} {wire : α → Bytes → Prop} (k : Nat)
    (h : Keeps again D F wire) :
    Keeps again (lengthDecoder D) (fun s => F s.inner ∧ s.expected = k ∧ s.remaining = k)
      (fun x bs => wire x bs ∧ bs.length = k) := by
  constructor
  rintro ⟨i, c, m⟩ b e n t x s' ⟨hs, hc, hm⟩ hi
  simp only at hs hc hm
  subst hc hm
  cases hid : D.isIdle i with
  | true =>
    rw [item_quiet (D := lengthDecoder D) (show (lengthDecoder D).isIdle ⟨i, m, m⟩ = _ from hid)] at hi
    obtain ⟨rfl, rfl, hf⟩ := hi
    obtain ⟨h0, j, h1, rfl⟩ := length_fin.1 hf
    simp only at h0
    obtain ⟨h2, h3, h4⟩ := h.item (b := b) (e := e) hs ((item_quiet hid).2 ⟨rfl, rfl, h1⟩)
    exact ⟨h2, ⟨h3, by simp [h0]⟩, fun h => ⟨h4 h, rfl, rfl⟩⟩
  | false =>
    rw [item_busy (D := lengthDecoder D) (show (lengthDecoder D).isIdle ⟨i, m, m⟩ = _ from hid)] at hi
    obtain ⟨hd, ht, hf⟩ := hi
    obtain ⟨_, u, h5, h6, rfl⟩ := length_ok.1 hd
    obtain ⟨h0, j, h1, rfl⟩ := length_fin.1 hf
    simp only at h0 h5 h6
    obtain ⟨h2, h3, h4⟩ := h.item hs ((item_busy hid).2 ⟨h5, ht, h1⟩)
    have hn : n = m := by omega
    subst hn
    rw [List.length_take] at h2
    rw [List.take_take, Nat.min_self] at h3
    exact ⟨by omega, ⟨h3, by simp; omega⟩, fun h => ⟨h4 h, rfl, rfl⟩⟩

theorem keeps_peekable {again p : Bool} {D : Decoder σ α} {F : σ → Prop} {wire : α → Bytes → Prop}
    (h : Keeps again D F wire) :
    Keeps again (peekableDecoder D) (fun s => (F s.inner ∧ Good p D s.inner) ∧ s.item = none) wire := by
  constructor
  rintro ⟨i, o⟩ b e n t x s' ⟨⟨hs, hg⟩, rfl⟩ hi
  rw [item_busy rfl] at hi
  obtain ⟨hd, ht, hf⟩ := hi
  obtain ⟨u, h1, ⟨h2, rfl⟩ | ⟨h2, y, k, h3, rfl⟩⟩ := peek_ok.1 hd
  · simp [peekableDecoder] at ht
  · simp only [peekableDecoder] at hf
    cases hf
    have key : Item D i b e n u x k := by
      cases hid : D.isIdle i with
      | true =>
        obtain ⟨rfl, rfl, _⟩ := (good_splits p D).quiet (a := b) (b := []) (e1 := Eos.new false) hg hid
          (by simpa using h1) h2 h3 (.inl rfl) rfl
        exact (item_quiet hid).2 ⟨rfl, rfl, h3⟩
      | false => exact (item_busy hid).2 ⟨h1, h2, h3⟩
    obtain ⟨h4, h5, h6⟩ := h.item hs key
    exact ⟨h4, h5, fun h => ⟨⟨h6 h, (good_splits p D).again hg key⟩, rfl⟩⟩

theorem keeps_maybeEos {again : Bool} {D : Decoder σ α} {F : σ → Prop} {wire : α → Bytes → Prop}
    (h : Keeps again D F wire) :
    Keeps again (maybeEosDecoder D) (fun s => F s.inner ∧ s.started = false) wire := by
  constructor
  rintro ⟨i, d⟩ b e n t o s' ⟨hs, rfl⟩ hi
  have key : ∃ e' u j, Item D i b e' n u o j ∧ s' = ⟨j, false⟩ := by
    cases hid : D.isIdle i with
    | true =>
      rw [item_quiet (D := maybeEosDecoder D) (show (maybeEosDecoder D).isIdle ⟨i, false⟩ = _ from hid)] at hi
      obtain ⟨rfl, rfl, hf⟩ := hi
      obtain ⟨j, h1, h2⟩ := maybe_fin.1 hf
      exact ⟨e, i, j, (item_quiet hid).2 ⟨rfl, rfl, h1⟩, h2⟩
    | false =>
      rw [item_busy (D := maybeEosDecoder D) (show (maybeEosDecoder D).isIdle ⟨i, false⟩ = _ from hid)] at hi
      obtain ⟨hd, ht, hf⟩ := hi
      obtain ⟨u, h4, rfl⟩ := maybe_ok.1 hd
      obtain ⟨j, h1, h2⟩ := maybe_fin.1 hf
      exact ⟨_, u, j, (item_busy hid).2 ⟨h4, ht, h1⟩, h2⟩
  obtain ⟨e', u, j, h1, rfl⟩ := key
  obtain ⟨h2, h3, h4⟩ := h.item hs h1
  exact ⟨h2, h3, fun h => ⟨h4 h, rfl⟩⟩

theorem Keeps.steps {D : Decoder σ α} {F : σ → Prop} {wire : α → Bytes → Prop} (h : Keeps true D F wire) :
    Steps D F := ⟨fun hs hi => (h.item hs hi).1, fun hs hi => (h.item hs hi).2.2 rfl⟩

/-- A sequence of items, one after the other. -/
inductive Row (wire : α → Bytes → Prop) : List α → Bytes → Prop
  | nil : Row wire [] []
  | cons {x : α} {b : Bytes} {xs : List α} {bs : Bytes} : wire x b → Row wire xs bs → Row wire (x :: xs) (b ++ bs)

theorem Runs.row {D : Decoder σ α} {F : σ → Prop} {wire : α → Bytes → Prop} (h : Keeps true D F wire)
    {e : Eos} {b : Bytes} {s s' : σ} {xs : List α} {n : Nat} (hr : Runs D e b s xs n s') (hs : F s) :
    Row wire xs (b.take n) := by
  induction hr with
  | stop b s => exact .nil
  | @step b s t s1 s2 x xs n m hb hi hn hr ih =>
    obtain ⟨_, h2, h3⟩ := h.item hs hi
    rw [List.take_add]
    exact .cons h2 (ih (h3 rfl))

theorem keeps_collect {D : Decoder σ α} {F : σ → Prop} {wire : α → Bytes → Prop} (h : Keeps true D F wire) :
    Keeps true (collectDecoder D) (fun s => F s.inner ∧ s.items = [] ∧ s.eos = false) (Row wire) := by
  constructor
  rintro ⟨i, l, d⟩ b e n t x s' ⟨hs, rfl, rfl⟩ hi
  rw [item_busy rfl] at hi
  obtain ⟨hd, ht, hf⟩ := hi
  obtain ⟨h1, h2, _, h3⟩ := collect_done rfl hd ht
  obtain ⟨rfl, xs, h4, h5⟩ := loop_runs h.steps _ _ _ _ h1 hs (Nat.zero_le _) _ _ _ rfl
  simp only [List.drop_zero, Nat.sub_zero, List.nil_append] at h4 h5
  rw [h3] at hf
  simp only [collectDecoder, h4] at hf
  cases hf
  exact ⟨Nat.le_refl _, h5.row h hs, fun _ => ⟨h5.inv h.steps hs, rfl, rfl⟩⟩

theorem Row.snoc {wire : α → Bytes → Prop} {xs : List α} {b c : Bytes} {y : α} (h : Row wire xs b)
    (hy : wire y c) : Row wire (xs ++ [y]) (b ++ c) := by
  induction h with
  | nil => simpa using Row.cons hy .nil
  | cons h1 _ ih => rw [List.append_assoc]; exact .cons h1 ih

theorem keeps_collectN {D : Decoder σ α} {F : σ → Prop} {wire : α → Bytes → Prop} (k : Nat)
    (h : Keeps true D F wire) :
    Keeps false (collectNDecoder D) (fun s => F s.inner ∧ s.items = [] ∧ s.remaining = k)
      (fun xs b => Row wire xs b ∧ xs.length = k) := by
  constructor
  rintro ⟨i, r, l⟩ b e n t x s' ⟨hs, hl, hr⟩ hi
  simp only at hs hl hr
  subst hl hr
  cases hid : (collectNDecoder D).isIdle ⟨i, r, []⟩ with
  | true =>
    rw [item_quiet hid] at hi
    obtain ⟨rfl, rfl, hf⟩ := hi
    have h0 : r = 0 := collectN_idle.1 hid
    subst h0
    have : x = [] := by
      simp only [collectNDecoder] at hf
      simp_all
    subst this
    exact ⟨by simp, ⟨.nil, rfl⟩, by simp⟩
  | false =>
    rw [item_busy hid] at hi
    obtain ⟨hd, ht, hf⟩ := hi
    obtain ⟨h1, h2⟩ := collectN_done hd ht
    obtain ⟨xs, h3, h4, h5, h6⟩ := loopN_runs h.steps hs (Nat.zero_le _) h1
    simp only [List.drop_zero, Nat.sub_zero, List.nil_append] at h3 h4 h5 h6
    have : x = xs := by
      simp only [collectNDecoder] at hf
      simp_all
    subst this
    exact ⟨h6.le, ⟨h6.row h hs, h3⟩, by simp⟩

theorem keeps_pair {again : Bool} {σ0 α0 σ1 α1 : Type} {D0 : Decoder σ0 α0} {D1 : Decoder σ1 α1}
    {F0 : σ0 → Prop} {F1 : σ1 → Prop} {wire0 : α0 → Bytes → Prop} {wire1 : α1 → Bytes → Prop}
    (h0 : Keeps again D0 F0 wire0) (h1 : Keeps again D1 F1 wire1) :
    Keeps again (tupleDecoder2 D0 D1) (fun s => F0 s.1 ∧ F1 s.2)
      (fun x bs => ∃ b0 b1, bs = b0 ++ b1 ∧ wire0 x.1 b0 ∧ wire1 x.2 b1) := by
  constructor
  rintro s b e n t x s' ⟨hs0, hs1⟩ hi
  obtain ⟨n0, g0, g1, g2⟩ := pair_item.1 hi
  obtain ⟨a1, a2, a3⟩ := h0.item hs0 g0
  obtain ⟨g3, g4⟩ := (tryDecode_at a1).1 g1
  obtain ⟨b1, b2, b3⟩ := h1.item hs1 ⟨g4, g2⟩
  rw [List.length_drop] at b1
  refine ⟨by omega, ⟨b.take n0, (b.drop n0).take (n - n0), ?_, a2, b2⟩, fun h => ⟨a3 h, b3 h⟩⟩
  rw [← List.take_add]
  congr 1
  omega

theorem keeps_andThen {again again1 : Bool} {σ0 α0 σ1 α1 : Type} {D0 : Decoder σ0 α0} {D1 : Decoder σ1 α1}
    {f : α0 → σ1} {F0 : σ0 → Prop} {F1 : α0 → σ1 → Prop} {wire0 : α0 → Bytes → Prop}
    {wire1 : α0 → α1 → Bytes → Prop} (h0 : Keeps again D0 F0 wire0) (hf : ∀ k, F1 k (f k))
    (h1 : ∀ k, Keeps again1 D1 (F1 k) (wire1 k)) :
    Keeps again (andThenDecoder D0 D1 f) (fun s => F0 s.1 ∧ s.2 = none)
      (fun x bs => ∃ k b0 b1, bs = b0 ++ b1 ∧ wire0 k b0 ∧ wire1 k x b1) := by
  constructor
  rintro ⟨s0, s1⟩ b e n t x s' ⟨hs0, rfl⟩ hi
  rw [item_busy rfl] at hi
  obtain ⟨hd, ht, hfin⟩ := hi
  obtain ⟨n0, t0, y, s0', t1, g0, g1, rfl⟩ := andThen_none_idle hd ht
  obtain ⟨g2, rfl⟩ := andThen_fin.1 hfin
  obtain ⟨a1, a2, a3⟩ := h0.item hs0 g0
  obtain ⟨g3, g4⟩ := (tryDecode_at a1).1 g1
  obtain ⟨b1, b2, b3⟩ := (h1 y).item (hf y) ⟨g4, Prod.ext g2 rfl⟩
  rw [List.length_drop] at b1
  refine ⟨by omega, ⟨y, b.take n0, (b.drop n0).take (n - n0), ?_, a2, b2⟩, fun h => ⟨a3 h, rfl⟩⟩
  rw [← List.take_add]
  congr 1
  omega

theorem keeps_captured {ε : Type} {C : ε → Decoder σ α} {v : ε} {again : Bool} {F : σ → Prop}
    {wire : α → Bytes → Prop} (h : Keeps again (C v) F wire) :
    Keeps again (capturedDecoder C) (fun s => s.1 = v ∧ F s.2) wire := by
  constructor
  rintro ⟨_, s⟩ b e n t x s' ⟨rfl, hs⟩ hi
  obtain ⟨h1, _, h2⟩ := item_captured.1 hi
  obtain ⟨h3, h4, h5⟩ := h.item hs h1
  exact ⟨h3, h4, fun ha => ⟨h2, h5 ha⟩⟩

/-! ## The family -/

theorem lossless_streamable {delim again : Bool} {D : Decoder τ α} {sD : τ} {dom enc}
    (h : Lossless delim again D sD dom enc) : Streamable (fun _ => True) delim false D sD := by
  induction h with
  | copyable b => exact .copyable _ _ _
  | bytes b => exact .bytes _ _ _
  | remaining => exact .remaining _
  | number f g k _ => exact .number _ _ _ _
  | null => exact .null _ _
  | monolithic enc parse hp _ => exact .monolithic _ _ hp
  | utf8 _ ih => exact .utf8 ih
  | mapErr f _ ih => exact .mapErr f ih
  | map f g _ _ ih => exact .map g ih
  | tryMap f g _ _ ih => exact .tryMap g ih
  | mapTry f g _ _ ih => exact .map g ih
  | tryMapTry f g _ _ ih => exact .tryMap g ih
  | present _ ih => exact .omittable _ ih
  | absent enc hs _ => exact .omittable _ (streamable_lax hs)
  | maxBytes n _ ih => exact .maxBytes n trivial ih
  | length n hn _ ih => exact .length _ n hn ih
  | peekable _ ih => exact .peekable ih
  | maybeEos _ ih => exact .maybeEos ih
  | collect _ ih => exact .collect trivial (.inr trivial) ih
  | collectN n _ ih => exact .collectN _ n ih
  | pair _ _ ih0 ih1 => exact .pair ih0 ih1
  | header key choose _ _ _ ih0 ih1 => exact .andThen choose ih0 ih1
  | captured F v _ ih => exact .captured F v ih
  | narrow _ _ ih => exact ih
  | weaken _ _ hd _ ih => exact streamable_le ih hd

theorem row_enc {dom : α → Prop} {enc : α → Except ErrorKind Bytes} {xs : List α} {b : Bytes}
    (h : Row (fun x b => dom x ∧ enc x = .ok b) xs b) :
    (∀ x ∈ xs, dom x ∧ ∃ b, enc x = .ok b) ∧ (xs.flatMap fun x => bytesOf (enc x)) = b := by
  induction h with
  | nil => simp
  | cons h1 _ ih =>
    refine ⟨?_, ?_⟩
    · intro y hy
      rcases List.mem_cons.1 hy with rfl | hy
      · exact ⟨h1.1, _, h1.2⟩
      · exact ih.1 y hy
    · rw [List.flatMap_cons, bytesOf_ok h1.2, ih.2]

theorem lossless_keeps {delim again : Bool} {D : Decoder τ α} {sD : τ} {dom enc}
    (h : Lossless delim again D sD dom enc) :
    ∃ F, F sD ∧ Keeps again D F (fun x b => dom x ∧ enc x = .ok b) := by
  induction h with
  | copyable b => exact ⟨_, ⟨rfl, rfl⟩, (keeps_copyable b.length).mono (fun h => ⟨by simp only [h.1, h.2], by rw [h.1]⟩) id⟩
  | bytes b => exact ⟨_, ⟨b, rfl, rfl⟩, (keeps_bytes b.length).mono (fun h => ⟨by simp only [h.1, h.2], by rw [h.1]⟩) id⟩
  | remaining => exact ⟨fun s => s = .new, rfl, keeps_remaining.mono (fun h => ⟨trivial, by rw [h]⟩) id⟩
  | number f g k hg =>
    exact ⟨_, ⟨rfl, by simp [fixInit]⟩, (keeps_number g k).mono (fun h => ⟨trivial, by rw [h.1, hg _ h.2]⟩) id⟩
  | null => exact ⟨_, trivial, keeps_null.mono (fun h => ⟨trivial, by rw [h]⟩) id⟩
  | monolithic enc parse hp hx =>
    exact ⟨fun s => s = .new, rfl, (keeps_monolithic hp).mono (fun h => ⟨trivial, hx _ _ h⟩) id⟩
  | utf8 _ ih =>
    obtain ⟨F, h1, h2⟩ := ih
    refine ⟨F, h1, keeps_map h2 rfl rfl ?_⟩
    intro t y s' hf
    obtain ⟨a, u, h3, h4⟩ := step_ok hf
    split at h4 <;> cases h4
    next h5 =>
    have h6 := fromUtf8_some.1 h5
    subst h6
    exact ⟨_, h3, fun b hb => hb⟩
  | mapErr f _ ih =>
    obtain ⟨F, h1, h2⟩ := ih
    exact ⟨F, h1, keeps_mapErr f h2⟩
  | map f g hg _ ih =>
    obtain ⟨F, h1, h2⟩ := ih
    refine ⟨F, h1, keeps_map h2 rfl rfl ?_⟩
    intro t y s' hf
    obtain ⟨a, u, h3, h4⟩ := step_ok hf
    cases h4
    exact ⟨a, h3, fun b hb => by simp only [hg a hb.1]; exact hb⟩
  | tryMap f g hg _ ih =>
    obtain ⟨F, h1, h2⟩ := ih
    refine ⟨F, h1, keeps_map h2 rfl rfl ?_⟩
    intro t y s' hf
    obtain ⟨a, u, h3, h4⟩ := step_ok hf
    split at h4 <;> cases h4
    next h5 => exact ⟨a, h3, fun b hb => by simp only [hg a y hb.1 h5]; exact hb⟩
  | mapTry f g hg _ ih =>
    obtain ⟨F, h1, h2⟩ := ih
    refine ⟨F, h1, keeps_map h2 rfl rfl ?_⟩
    intro t y s' hf
    obtain ⟨a, u, h3, h4⟩ := step_ok hf
    cases h4
    exact ⟨a, h3, fun b hb => ⟨⟨a, hg a hb.1, hb.1⟩, by simp only [hg a hb.1]; exact hb.2⟩⟩
  | tryMapTry f g hg _ ih =>
    obtain ⟨F, h1, h2⟩ := ih
    refine ⟨F, h1, keeps_map h2 rfl rfl ?_⟩
    intro t y s' hf
    obtain ⟨a, u, h3, h4⟩ := step_ok hf
    split at h4 <;> cases h4
    next h5 =>
    exact ⟨a, h3, fun b hb => ⟨⟨a, hg a y hb.1 h5, hb.1⟩, by simp only [hg a y hb.1 h5]; exact hb.2⟩⟩
  | present _ ih =>
    obtain ⟨F, h1, h2⟩ := ih
    refine ⟨_, ⟨h1, rfl⟩, (keeps_present h2).mono ?_ id⟩
    rintro o b ⟨x, rfl, h3, h4⟩
    exact ⟨⟨x, rfl, h3⟩, h4⟩
  | absent enc _ he => exact ⟨fun s => s.doOmit = true, rfl, (keeps_absent _).mono (fun h => ⟨h.1, by rw [h.1, h.2, he]⟩) id⟩
  | maxBytes n _ ih =>
    obtain ⟨F, h1, h2⟩ := ih
    exact ⟨_, ⟨h1, rfl, rfl⟩, (keeps_maxBytes n h2).mono (fun h => ⟨⟨h.1.1, _, h.1.2, h.2⟩, h.1.2⟩) id⟩
  | length n hn _ ih =>
    obtain ⟨F, h1, h2⟩ := ih
    exact ⟨_, ⟨h1, rfl, rfl⟩, (keeps_length n h2).mono (fun h => ⟨⟨h.1.1, _, h.1.2, h.2⟩, h.1.2⟩) id⟩
  | peekable hl ih =>
    obtain ⟨F, h1, h2⟩ := ih
    exact ⟨_, ⟨⟨h1, streamable_splits (lossless_streamable hl)⟩, rfl⟩, keeps_peekable h2⟩
  | maybeEos _ ih =>
    obtain ⟨F, h1, h2⟩ := ih
    exact ⟨_, ⟨h1, rfl⟩, keeps_maybeEos h2⟩
  | collect _ ih =>
    obtain ⟨F, h1, h2⟩ := ih
    exact ⟨_, ⟨h1, rfl, rfl⟩, (keeps_collect h2).mono (fun h => ⟨(row_enc h).1, by simp only [(row_enc h).2]⟩) id⟩
  | collectN n _ ih =>
    obtain ⟨F, h1, h2⟩ := ih
    exact ⟨_, ⟨h1, rfl, rfl⟩, (keeps_collectN n h2).mono
      (fun h => ⟨⟨(row_enc h.1).1, h.2⟩, by simp only [(row_enc h.1).2]⟩) id⟩
  | pair _ _ ih0 ih1 =>
    obtain ⟨F0, h1, h2⟩ := ih0
    obtain ⟨F1, h3, h4⟩ := ih1
    refine ⟨_, ⟨h1, h3⟩, (keeps_pair h2 h4).mono ?_ id⟩
    rintro x b ⟨b0, b1, rfl, ⟨h5, h6⟩, h7, h8⟩
    exact ⟨⟨h5, h7⟩, by simp [h6, h8, Except.bind]⟩
  | header key choose _ _ hk ih0 ih1 =>
    obtain ⟨F0, h1, h2⟩ := ih0
    refine ⟨_, ⟨h1, rfl⟩, (keeps_andThen h2 (F1 := fun k => (ih1 k).choose) (fun k => (ih1 k).choose_spec.1)
      fun k => (ih1 k).choose_spec.2).mono ?_ id⟩
    rintro x b ⟨k, b0, b1, rfl, ⟨h5, h6⟩, h7, h8⟩
    have := hk k x h5 h7
    subst this
    exact ⟨⟨h5, h7⟩, by simp [h6, h8, Except.bind]⟩
  | captured C v _ ih =>
    obtain ⟨F, h1, h2⟩ := ih
    exact ⟨_, ⟨rfl, h1⟩, keeps_captured h2⟩
  | narrow _ hd ih =>
    obtain ⟨F, h1, h2⟩ := ih
    exact ⟨F, h1, h2.mono (fun h => ⟨hd _ _ h.1 h.2, h.2⟩) id⟩
  | weaken _ hd _ ha ih =>
    obtain ⟨F, h1, h2⟩ := ih
    exact ⟨F, h1, h2.mono (fun h => ⟨(hd _ h.1).1, by rw [(hd _ h.1).2]; exact h.2⟩) ha⟩

/-! ## Numbers -/

theorem digits_ofDigits (bs : Bytes) : digits bs.length (ofDigits bs) = bs := by
  induction bs with
  | nil => rfl
  | cons b bs ih =>
    have := b.toNat_lt
    have h1 : (b.toNat + 256 * ofDigits bs) % 256 = b.toNat := by omega
    have h2 : (b.toNat + 256 * ofDigits bs) / 256 = ofDigits bs := by omega
    rw [List.length_cons, digits_succ, ofDigits, h1, h2, ih, UInt8.ofNat_toNat]

theorem layout_stored (be : Bool) (bs : Bytes) : layout be bs.length (stored be bs) = bs := by
  cases be with
  | false => exact digits_ofDigits bs
  | true =>
    have := digits_ofDigits bs.reverse
    rw [List.length_reverse] at this
    simp [layout, stored, this]

theorem lossless_number {E : SizedEncoder (BytesEncoderState Bytes) α} {D : Decoder CopyableState α}
    {k : Nat} {be : Bool} {val : α → Nat} (h : NumberCodec E D k be val) :
    Lossless true true D (fixInit k) (fun x => val x < 256 ^ k)
      (fun x => if val x < 256 ^ k then .ok (layout be k (val x)) else .error .invalidInput) := by
  obtain ⟨⟨f, g, rfl, rfl, h1, h2⟩, h3⟩ := isNumber h
  have key := Lossless.number (fun x => if val x < 256 ^ k then .ok (layout be k (val x))
      else .error .invalidInput) g k fun bs hb => by
    subst hb
    simp only [h2 bs rfl, stored_lt be bs, if_true, layout_stored]
  refine .narrow key fun x b _ hb => ?_
  split at hb
  · assumption
  · cases hb

/-! ## Relays -/

theorem relays_keep {D : Decoder τ α} {sD : τ} {I F : τ → Prop} {q : Bool} {wire : α → Bytes → Prop}
    (hI : Joins true true q D I) (hF : Keeps true D F wire) (h0 : I sD) (h1 : F sD) {stream : Bytes} {e : Eos}
    (he : EosSane e stream.length) {s : τ} {pos : Nat} {items : List α}
    (hr : Relays D stream e sD s pos items) :
    I s ∧ F s ∧ pos ≤ stream.length ∧ Row wire items (stream.take pos) := by
  induction hr with
  | new => exact ⟨h0, h1, by simp, .nil⟩
  | @next s s' pos n items x chunks _ hc hf ih =>
    obtain ⟨a1, a2, a3, a4⟩ := ih
    have hsane : EosSane e (stream.drop pos).length := sane_drop he (by simp)
    obtain ⟨t, ht⟩ := joins_feed hI hc (.inl ⟨rfl, rfl⟩) a1 hsane hf
    obtain ⟨b1, b2, b3⟩ := hF.item a2 ht
    rw [List.length_drop] at b1
    refine ⟨hI.again a1 ht, b3 rfl, by omega, ?_⟩
    rw [List.take_add]
    exact a4.snoc b2

end Bytecodec
