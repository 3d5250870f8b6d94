import Verif.Spec.Receive
import Verif.Lemmas.Feed
import Verif.Lemmas.Stall
import Verif.Lemmas.Pipeline
import Verif.Lemmas.Stripped
/-!
# Receivers agree on what a byte stream means
-/
namespace Bytecodec

open Spec

variable {σ α : Type}

/-! ## The meaning is unique -/

theorem Means.length_zero {D : Decoder σ α} {e : Eos} {s₀ s : σ} {stream rest : Bytes}
    (h : Means D e s₀ stream [] s rest) : s = s₀ ∧ rest = stream := by
  generalize hl : ([] : List α) = l at h
  cases h with
  | new => exact ⟨rfl, rfl⟩
  | item => simp at hl

theorem Means.snoc {D : Decoder σ α} {e : Eos} {s₀ s : σ} {stream rest : Bytes} {items : List α} {x : α}
    (h : Means D e s₀ stream (items ++ [x]) s rest) :
    ∃ s1 rest1 n, Means D e s₀ stream items s1 rest1 ∧ feed D s1 [(rest1, e)] = some (n, x, s) ∧
      rest = rest1.drop n := by
  generalize hl : items ++ [x] = l at h
  cases h with
  | new => simp at hl
  | item h1 h2 =>
    obtain ⟨rfl, hx⟩ := List.append_inj' hl rfl
    cases hx
    exact ⟨_, _, _, h1, h2, rfl⟩

/-- Of two beginnings of the stream the shorter one is the beginning of the longer one. -/
theorem Means.unique {D : Decoder σ α} {e : Eos} {s₀ : σ} {stream : Bytes} :
    ∀ {items items' : List α} {s s' : σ} {rest rest' : Bytes}, Means D e s₀ stream items s rest →
      Means D e s₀ stream items' s' rest' → items.length = items'.length →
      items = items' ∧ s = s' ∧ rest = rest' := by
  intro items items' s s' rest rest' h
  induction h generalizing items' s' rest' with
  | new =>
    intro h' hl
    cases items' with
    | nil => exact ⟨rfl, (Means.length_zero h').1.symm, (Means.length_zero h').2.symm⟩
    | cons => simp at hl
  | @item items s s1 rest n x h1 h2 ih =>
    intro h' hl
    rcases List.eq_nil_or_concat items' with rfl | ⟨l, y, rfl⟩
    · simp at hl
    · rw [List.concat_eq_append] at h' hl ⊢
      obtain ⟨u, r, m, g1, g2, rfl⟩ := Means.snoc h'
      obtain ⟨rfl, rfl, rfl⟩ := ih g1 (by simpa using hl)
      rw [h2] at g2
      cases g2
      exact ⟨rfl, rfl, rfl⟩

theorem Means.begin {D : Decoder σ α} {e : Eos} {s₀ : σ} {stream : Bytes} {items : List α} {s : σ} {rest : Bytes}
    (h : Means D e s₀ stream items s rest) :
    ∀ k ≤ items.length, ∃ s1 rest1, Means D e s₀ stream (items.take k) s1 rest1 := by
  induction h with
  | new => intro k hk; exact ⟨s₀, stream, by simpa using Means.new⟩
  | @item items s s1 rest n x h1 h2 ih =>
    intro k hk
    by_cases hk' : k ≤ items.length
    · rw [List.take_append_of_le_length hk']
      exact ih k hk'
    · rw [List.take_of_length_le (by simp at hk ⊢; omega)]
      exact ⟨_, _, .item h1 h2⟩

theorem Means.prefix {D : Decoder σ α} {e : Eos} {s₀ : σ} {stream : Bytes} {items items' : List α} {s s' : σ}
    {rest rest' : Bytes} (h : Means D e s₀ stream items s rest) (h' : Means D e s₀ stream items' s' rest')
    (hl : items.length ≤ items'.length) : items <+: items' := by
  obtain ⟨s1, r1, h1⟩ := Means.begin h' items.length hl
  obtain ⟨h2, _⟩ := Means.unique h h1 (by simp; omega)
  exact ⟨items'.drop items.length, by conv => lhs; lhs; rw [h2]
                                      exact List.take_append_drop _ _⟩

/-! ## Any run follows the meaning -/

theorem offer_sane {stream : Bytes} {e : Eos} {pos : Nat} {c : Bytes} {ec : Eos} (he : EosSane e stream.length)
    (h : Offer stream e pos c ec) : EosSane ec c.length := by
  obtain ⟨rest, hr, rfl | rfl⟩ := h
  · exact EosSane.newFalse
  · have hlen := congrArg List.length hr
    rw [List.length_drop, List.length_append] at hlen
    intro n hn
    rcases e with ⟨m | _ | _⟩ <;> simp only [eosShift, ByteCount.finite.injEq, reduceCtorEq] at hn
    have := he m rfl
    omega

/-- What holds along every run: the items so far are those the stream means, and the next item is the same
whether what is left is decoded from here, or from the start of the item. -/
structure Tracks (p q : Bool) (D : Decoder σ α) (stream : Bytes) (e : Eos) (s₀ : σ) (s : σ) (pos : Nat)
    (items : List α) (s1 : σ) (p1 : Nat) : Prop where
  means : Means D e s₀ stream items s1 (stream.drop p1)
  le : p1 ≤ pos
  reach : Reach D s₀ s
  whole : Lost true q D s1
  good : Good p D s1
  wholeNow : D.isIdle s = false → Lost true q D s
  fwd : ∀ {n t x s'}, Item D s1 (stream.drop p1) e n t x s' →
    pos - p1 ≤ n ∧ Item D s (stream.drop pos) e (n - (pos - p1)) t x s' ∧ (D.isIdle s = false → Good p D s)
  bwd : ∀ {m t x s'}, Item D s (stream.drop pos) e m t x s' →
    Item D s1 (stream.drop p1) e (pos - p1 + m) t x s'

section

variable {p q : Bool} {D : Decoder σ α} {stream : Bytes} {e : Eos} {s₀ : σ}

theorem offer_cases {pos : Nat} {c : Bytes} {ec : Eos} (h : Offer stream e pos c ec) :
    ∃ rest, stream.drop pos = c ++ rest ∧ (ec.isReached = false ∧ Earlier ec e rest.length ∨
      ec.isReached = true ∧ ec = e ∧ rest = []) := by
  obtain ⟨rest, hr, hec⟩ := h
  refine ⟨rest, hr, ?_⟩
  cases hre : ec.isReached with
  | false => exact .inl ⟨rfl, hec⟩
  | true =>
    right
    have he' : ec = eosShift e rest.length := by
      rcases hec with h | h
      · rw [h] at hre; simp [Eos.new, Eos.isReached] at hre
      · exact h
    rw [he'] at hre
    obtain ⟨h0, h1⟩ := eosShift_reached hre
    exact ⟨rfl, he'.trans h1, List.eq_nil_of_length_eq_zero h0⟩

/-- A decoder that is going to deliver an item accepts whatever comes next in the stream. -/
theorem item_going {s : σ} {pos : Nat} {c : Bytes} {ec : Eos} {n : Nat} {t s' : σ} {x : α} (hg : Good p D s)
    (hi : D.isIdle s = false) (ho : Offer stream e pos c ec) (h : Item D s (stream.drop pos) e n t x s') :
    (Item D s c ec n t x s' ∧ n ≤ c.length) ∨
    (c.length ≤ n ∧ ∃ s1, D.decode s c ec = (.ok c.length, s1) ∧ D.isIdle s1 = false ∧ Good p D s1 ∧
      Item D s1 (stream.drop (pos + c.length)) e (n - c.length) t x s') := by
  obtain ⟨rest, hr, hc⟩ := offer_cases ho
  have hd : stream.drop (pos + c.length) = rest := by rw [← List.drop_drop, hr, List.drop_left]
  rw [hr] at h
  rcases hc with ⟨hre, hea⟩ | ⟨_, rfl, rfl⟩
  · rcases (good_splits p D).split hg h hea hre with k | ⟨_, k2, u, k3, k4, k5⟩
    · exact .inl ⟨k, (good_splits p D).bound hg k⟩
    · obtain ⟨k3, k6⟩ := (tryDecode_ret_iff hi).1 k3
      exact .inr ⟨k2, u, k3, k6, k4, by rw [hd]; exact k5⟩
  · rw [List.append_nil] at h
    exact .inl ⟨h, (good_splits p D).bound hg h⟩

theorem Tracks.decode (he : EosSane e stream.length) {s s' : σ} {pos n : Nat} {items : List α}
    {s1 : σ} {p1 : Nat} {c : Bytes} {ec : Eos} (h : Tracks p q D stream e s₀ s pos items s1 p1)
    (hi : D.isIdle s = false) (ho : Offer stream e pos c ec) (hd : D.decode s c ec = (.ok n, s')) :
    Tracks p q D stream e s₀ s' (pos + n) items s1 p1 := by
  have hsane := offer_sane he ho
  have hre : Reach D s₀ s' := by
    have := Reach.decode c ec h.reach hsane
    rwa [hd] at this
  have hle := h.le
  refine ⟨h.means, by omega, hre, h.whole, h.good, ?_, ?_, ?_⟩
  · intro hi'
    exact (lost_stalls _ _ _).joins.part (h.wholeNow hi) ((tryDecode_ret_iff hi).2 ⟨hd, hi'⟩)
  · intro m t x u hit
    obtain ⟨k1, k2, k3⟩ := h.fwd hit
    rcases item_going (k3 hi) hi ho k2 with ⟨k4, k5⟩ | ⟨k4, v, k5, k6, k7, k8⟩
    · obtain ⟨g1, g2, g3⟩ := (item_busy hi).1 k4
      rw [hd] at g1
      cases g1
      refine ⟨by omega, ?_, fun h => by rw [g2] at h; cases h⟩
      exact (item_quiet g2).2 ⟨by omega, rfl, g3⟩
    · rw [hd] at k5
      cases k5
      refine ⟨by omega, ?_, fun _ => k7⟩
      have : m - (pos + c.length - p1) = m - (pos - p1) - c.length := by omega
      rw [this]
      exact k8
  · intro m t x u hit
    obtain ⟨rest, hr, hc⟩ := offer_cases ho
    have hsane' : EosSane e (c ++ rest).length := by
      rw [← hr]
      exact he.mono (by rw [List.length_drop]; omega)
    cases hi' : D.isIdle s' with
    | false =>
      have hn : n = c.length := by
        by_cases hn : n = c.length
        · exact hn
        · exact ((lost_stalls _ _ _).stall (h.wholeNow hi) ((tryDecode_ret_iff hi).2 ⟨hd, hi'⟩) hn |>.item hit).elim
      subst hn
      have hdr : stream.drop (pos + c.length) = rest := by rw [← List.drop_drop, hr, List.drop_left]
      rw [hdr] at hit
      have hret := (tryDecode_ret_iff hi).2 ⟨hd, hi'⟩
      have : pos + c.length - p1 + m = pos - p1 + (c.length + m) := by omega
      rw [this]
      apply h.bwd
      rw [hr]
      rcases hc with ⟨hre, hea⟩ | ⟨hre, rfl, rfl⟩
      · exact (lost_stalls _ _ _).joins.join (h.wholeNow hi) hret hit hea hre hsane' (.inl rfl)
      · exact ((lost_stalls _ _ _).joins.closed rfl (h.wholeNow hi) hre hret hit).elim
    | true =>
      obtain ⟨rfl, rfl, hf⟩ := (item_quiet hi').1 hit
      have hit' := (item_busy hi).2 ⟨hd, hi', hf⟩
      have : pos + n - p1 + 0 = pos - p1 + n := by omega
      rw [this]
      apply h.bwd
      rw [hr]
      rcases hc with ⟨hre, hea⟩ | ⟨_, rfl, rfl⟩
      · exact (lost_stalls _ _ _).joins.extend (h.wholeNow hi) hit' hea hre hsane'
      · rw [List.append_nil]; exact hit'

theorem Tracks.finish {s s' : σ} {pos : Nat} {items : List α} {x : α}
    {s1 : σ} {p1 : Nat} (h : Tracks p q D stream e s₀ s pos items s1 p1)
    (hi : D.isIdle s = true) (hf : D.finish s = (.ok x, s')) :
    Tracks p q D stream e s₀ s' pos (items ++ [x]) s' pos := by
  have hit := h.bwd ((item_quiet (b := stream.drop pos) (e := e) hi).2 ⟨rfl, rfl, hf⟩)
  have hle := h.le
  refine ⟨?_, Nat.le_refl _, ?_, ?_, ?_, ?_, ?_, ?_⟩
  · have := Means.item h.means (feed_one.2 ⟨_, hit⟩)
    rw [List.drop_drop, show p1 + (pos - p1 + 0) = pos by omega] at this
    exact this
  · have := Reach.finish h.reach
    rwa [hf] at this
  · exact (lost_stalls _ _ _).joins.again h.whole hit
  · exact (good_splits _ _).again h.good hit
  · intro _
    exact (lost_stalls _ _ _).joins.again h.whole hit
  · intro n t y u hit'
    refine ⟨by omega, by simpa using hit', fun _ => (good_splits _ _).again h.good hit⟩
  · intro m t y u hit'
    simpa using hit'

theorem decRun_tracks (hw : Lost true q D s₀) (hg : Good p D s₀)
    (he : EosSane e stream.length) {s : σ} {pos : Nat} {items : List α} (h : DecRun D stream e s₀ s pos items) :
    ∃ s1 p1, Tracks p q D stream e s₀ s pos items s1 p1 := by
  induction h with
  | new =>
    refine ⟨s₀, 0, .new, Nat.le_refl _, .refl, hw, hg, fun _ => hw, ?_, ?_⟩
    · intro n t x s' h; exact ⟨by omega, by simpa using h, fun _ => hg⟩
    · intro m t x s' h; simpa using h
  | decode _ hi ho hd ih =>
    obtain ⟨s1, p1, ih⟩ := ih
    exact ⟨s1, p1, ih.decode he hi ho hd⟩
  | finish _ hi hf ih =>
    obtain ⟨s1, p1, ih⟩ := ih
    exact ⟨_, _, ih.finish hi hf⟩

/-- The item that comes next, seen from where the receiver is now. -/
theorem Tracks.next {s : σ} {pos : Nat} {items : List α} {s1 : σ} {p1 : Nat}
    (h : Tracks p q D stream e s₀ s pos items s1 p1) {x : α} {u : σ} {rest : Bytes}
    (hm : Means D e s₀ stream (items ++ [x]) u rest) :
    ∃ n t, Item D s (stream.drop pos) e n t x u ∧ (D.isIdle s = false → Good p D s) := by
  obtain ⟨s2, r2, n, g1, g2, rfl⟩ := Means.snoc hm
  obtain ⟨_, rfl, rfl⟩ := Means.unique h.means g1 rfl
  obtain ⟨t, ht⟩ := feed_one.1 g2
  obtain ⟨_, h2, h3⟩ := h.fwd ht
  exact ⟨_, t, h2, h3⟩

end

/-- A run of a decoder with limits is a run of the decoder without them. -/
theorem decRun_retained {τ : Type} {D : Decoder σ α} {stream : Bytes} {e : Eos} {s₀ : σ} {D' : Decoder τ α} {s₀' : τ} {R : σ → τ → Prop} (hk : Retains D D' R)
    (hr : R s₀ s₀') {s : σ} {pos : Nat} {items : List α} (h : DecRun D stream e s₀ s pos items) :
    ∃ s', DecRun D' stream e s₀' s' pos items ∧ R s s' := by
  induction h with
  | new => exact ⟨_, .new, hr⟩
  | decode _ hi ho hd ih =>
    obtain ⟨u, h1, h2⟩ := ih
    obtain ⟨v, h3, h4⟩ := hk.decode h2 _ _ _ _ hd
    exact ⟨v, .decode h1 (by rw [← hk.idle h2, hi]) ho h3, h4⟩
  | finish _ hi hf ih =>
    obtain ⟨u, h1, h2⟩ := ih
    obtain ⟨v, h3, h4⟩ := hk.finish h2 _ _ hf
    exact ⟨v, .finish h1 (by rw [← hk.idle h2, hi]) h3, h4⟩

/-! ## Receivers with a read buffer -/

/-- What holds of a receiver. -/
structure ReceiverInv (D : Decoder σ α) (s₀ : σ) (stream : Bytes) (cap : Nat) (t : Receiver σ α) (pos : Nat) : Prop where
  run : DecRun D stream (Eos.new true) s₀ t.dec pos t.got
  bound : pos ≤ stream.length
  bytes : stream.drop pos = t.rbuf.content ++ t.unread
  r : t.rbuf.Inv
  cap : t.rbuf.inner.length = cap
  reach : Reach D s₀ t.dec
  eos : t.rbuf.state = .eos → t.unread = []

section

variable {D : Decoder σ α} {s₀ : σ} {stream : Bytes} {cap : Nat}

theorem ReceiverInv.offer {t : Receiver σ α} {pos : Nat} (h : ReceiverInv D s₀ stream cap t pos) :
    Offer stream (Eos.new true) pos t.rbuf.content (Eos.new t.rbuf.state.isEos) := by
  refine ⟨t.unread, h.bytes, ?_⟩
  cases hs : t.rbuf.state with
  | eos => right; rw [h.eos hs]; rfl
  | _ => left; rfl

theorem ReceiverInv.fill {t : Receiver σ α} {pos : Nat} (h : ReceiverInv D s₀ stream cap t pos) {ρ : Type} {R : Reader ρ}
    {r r' : ρ} {res : Res Unit} {b' : ReadBuf} {log : List ReadRes} {unread' : Bytes} (hR : HonestReader R)
    (hf : t.rbuf.fill (loggedReader R) (r, []) = (res, b', (r', log)))
    (hw : t.unread = delivered log ++ unread') (hz : .data [] ∈ log → unread' = []) :
    ReceiverInv D s₀ stream cap { t with rbuf := b', unread := unread' } pos := by
  obtain ⟨as, h1, h2, h3, h4, _, h6, _⟩ := fill_spec hR t.rbuf (r, []) h.r
  rw [hf] at h1 h2 h3 h4 h6
  simp only [List.nil_append] at h1 h2 h3 h4 h6
  subst h1
  refine ⟨h.run, h.bound, ?_, h3, ?_, h.reach, ?_⟩
  · rw [h.bytes, hw, h2]
    simp only [List.append_assoc]
  · rw [h4, h.cap]
  · simp only [h6]
    intro he
    cases hl : log.getLast? with
    | none =>
      rw [hl] at he
      have g2 := h.eos he
      rw [g2] at hw
      exact (List.append_eq_nil_iff.mp hw.symm).2
    | some a =>
      have ha : a ∈ log := List.mem_of_getLast? hl
      rw [hl] at he
      simp only [Option.map_some, Option.getD_some] at he
      have : a = .data [] := by
        cases a with
        | data bs =>
          cases bs with
          | nil => rfl
          | cons x xs => cases he
        | error k => cases k <;> cases he
      exact hz (this ▸ ha)

theorem ReceiverInv.sane (hcap : cap < 2 ^ 64) {t : Receiver σ α} {pos : Nat} (h : ReceiverInv D s₀ stream cap t pos) :
    EosSane (Eos.new t.rbuf.state.isEos) t.rbuf.content.length := by
  refine sane_new _ ?_
  rw [t.rbuf.content_length h.r]
  have h1 := h.r.cap
  have h2 := h.cap
  simp only [ReadBuf.len]
  omega

theorem ReceiverInv.decode (hS : SafeFrom D s₀) (hcap : cap < 2 ^ 64) {t : Receiver σ α} {pos : Nat}
    (h : ReceiverInv D s₀ stream cap t pos) {s' : σ} {n : Nat} (hi : D.isIdle t.dec = false)
    (hq : D.decode t.dec t.rbuf.content (Eos.new t.rbuf.state.isEos) = (.ok n, s')) :
    decodeFromReadBuf D t.dec t.rbuf = (.ok (), s', t.rbuf.consume n) ∧
    ReceiverInv D s₀ stream cap { t with dec := s', rbuf := t.rbuf.consume n } (pos + n) := by
  refine ⟨by rw [decodeFromReadBuf_eq h.r, hq]; rfl, ?_⟩
  have hsane := h.sane hcap
  have hs := (hS _ h.reach).1 t.rbuf.content _ hsane
  have hre := Reach.decode t.rbuf.content _ h.reach hsane
  rw [hq] at hs hre
  have hn := hs.2 n rfl
  have hn' : n ≤ t.rbuf.len := by rwa [t.rbuf.content_length h.r] at hn
  obtain ⟨c1, c2, c3, _⟩ := t.rbuf.consume_spec h.r hn'
  refine ⟨.decode h.run hi h.offer hq, ?_, ?_, c1, ?_, hre, ?_⟩
  · have h1 := congrArg List.length h.bytes
    have h2 := h.bound
    simp only [List.length_drop, List.length_append] at h1
    omega
  · rw [← List.drop_drop, h.bytes, List.drop_append_of_le_length hn, c2]
  · rw [c3, h.cap]
  · simp only [ReadBuf.consume_state]
    exact h.eos

theorem ReceiverInv.finish {t : Receiver σ α} {pos : Nat} (h : ReceiverInv D s₀ stream cap t pos) {s' : σ} {x : α}
    (hi : D.isIdle t.dec = true) (hf : D.finish t.dec = (.ok x, s')) :
    ReceiverInv D s₀ stream cap { t with dec := s', got := t.got ++ [x] } pos := by
  refine ⟨.finish h.run hi hf, h.bound, h.bytes, h.r, h.cap, ?_, h.eos⟩
  have := Reach.finish h.reach
  rwa [hf] at this

theorem ReceiverInv.step (hS : SafeFrom D s₀) (hcap : cap < 2 ^ 64) {t u : Receiver σ α} {pos : Nat}
    (h : ReceiverInv D s₀ stream cap t pos) (hst : ReceiveStep D t u) : ∃ pos', ReceiverInv D s₀ stream cap u pos' := by
  cases hst with
  | fill hR hf hw hz => exact ⟨_, h.fill hR hf hw hz⟩
  | decode hi hd =>
    rcases hq : D.decode t.dec t.rbuf.content (Eos.new t.rbuf.state.isEos) with ⟨r, v⟩
    rw [decodeFromReadBuf_eq h.r, hq] at hd
    cases r with
    | ok n =>
      simp only [Res.step] at hd
      cases hd
      exact ⟨_, (h.decode hS hcap hi hq).2⟩
    | _ => simp only [Res.step] at hd; cases hd
  | finish hi hf => exact ⟨_, h.finish hi hf⟩

theorem ReceiverInv.steps (hS : SafeFrom D s₀) (hcap : cap < 2 ^ 64) {t u : Receiver σ α} {pos : Nat}
    (h : ReceiverInv D s₀ stream cap t pos) (hst : ReceiveSteps D t u) : ∃ pos', ReceiverInv D s₀ stream cap u pos' := by
  induction hst with
  | refl => exact ⟨_, h⟩
  | step _ hs ih =>
    obtain ⟨_, ih⟩ := ih
    exact ih.step hS hcap hs

theorem receiver_inv (hS : SafeFrom D s₀) {store : Bytes} (hcap : store.length < 2 ^ 64) {t : Receiver σ α}
    (h : ReceiveSteps D (.new s₀ store stream) t) : ∃ pos, ReceiverInv D s₀ stream store.length t pos := by
  refine ReceiverInv.steps hS hcap (pos := 0) ⟨.new, Nat.zero_le _, ?_, ?_, rfl, .refl, ?_⟩ h
  · simp [Receiver.new, ReadBuf.new, ReadBuf.content]
  · exact ⟨Nat.le_refl _, by simp [Receiver.new, ReadBuf.new], fun _ => rfl⟩
  · intro h; cases h

theorem receive_trans {t u v : Receiver σ α} (h1 : ReceiveSteps D t u) (h2 : ReceiveSteps D u v) :
    ReceiveSteps D t v := by
  induction h2 with
  | refl => exact h1
  | step _ hst ih => exact .step ih hst

/-- One read that fills the buffer. -/
theorem fill_full {b : ReadBuf} {bytes : Bytes} {r : List Bytes} (hne : bytes ≠ [])
    (hl : b.tail + bytes.length = b.inner.length) :
    b.fill (loggedReader scriptReader) (bytes :: r, []) =
      (.ok (), ⟨splice b.inner b.tail bytes, b.head, b.inner.length, .normal⟩, (r, [.data bytes])) := by
  obtain ⟨x, xs, rfl⟩ : ∃ x xs, bytes = x :: xs := by
    cases bytes with
    | nil => exact absurd rfl hne
    | cons x xs => exact ⟨x, xs, rfl⟩
  have hpos : 0 < (x :: xs).length := by simp
  have hnf : ¬ b.isFull = true := by simp only [ReadBuf.isFull, beq_iff_eq]; omega
  have ht : (x :: xs).take (b.inner.length - b.tail) = x :: xs := List.take_of_length_le (by omega)
  have hrd : (loggedReader scriptReader).read ((x :: xs) :: r, []) (b.inner.length - b.tail) =
      (.data (x :: xs), (r, [.data (x :: xs)])) := by
    simp only [loggedReader, scriptReader, ht]
    rfl
  rw [ReadBuf.fill, dif_neg hnf, dif_neg (by omega), hrd]
  simp only
  rw [ReadBuf.fill, dif_pos (by
    simp only [ReadBuf.isFull, beq_iff_eq]
    rw [ht, splice_len (by omega)]
    exact hl), ht, hl]

/-- One read that does not fill the buffer, and then "would block". -/
theorem fill_short {b : ReadBuf} {bytes : Bytes} (hne : bytes ≠ [])
    (hl : b.tail + bytes.length < b.inner.length) :
    b.fill (loggedReader scriptReader) ([bytes], []) =
      (.ok (), ⟨splice b.inner b.tail bytes, b.head, b.tail + bytes.length, .wouldBlock⟩,
        ([], [.data bytes, .error .wouldBlock])) := by
  obtain ⟨x, xs, rfl⟩ : ∃ x xs, bytes = x :: xs := by
    cases bytes with
    | nil => exact absurd rfl hne
    | cons x xs => exact ⟨x, xs, rfl⟩
  have hpos : 0 < (x :: xs).length := by simp
  have hnf : ¬ b.isFull = true := by simp only [ReadBuf.isFull, beq_iff_eq]; omega
  have ht : (x :: xs).take (b.inner.length - b.tail) = x :: xs := List.take_of_length_le (by omega)
  have hrd : (loggedReader scriptReader).read ([x :: xs], []) (b.inner.length - b.tail) =
      (.data (x :: xs), ([], [.data (x :: xs)])) := by
    simp only [loggedReader, scriptReader, ht]
    rfl
  have hsl : (splice b.inner b.tail (x :: xs)).length = b.inner.length := splice_len (by omega)
  rw [ReadBuf.fill, dif_neg hnf, dif_neg (by omega), hrd]
  simp only
  rw [ht, ReadBuf.fill, dif_neg (by simp only [ReadBuf.isFull, beq_iff_eq]; omega), dif_neg (by simp only; omega)]
  rfl

/-- From every situation the receiver can go on to the next item. -/
theorem receiver_delivers {p q : Bool} (hw : Lost true q D s₀) (hg : Good p D s₀)
    (hS : SafeFrom D s₀) (hcap : cap < 2 ^ 64) (hc0 : 0 < cap) (hl : stream.length < 2 ^ 64) {x : α} {items : List α}
    {u : σ} {rest : Bytes} (hm : Means D (Eos.new true) s₀ stream (items ++ [x]) u rest) :
    ∀ (m : Nat) {t : Receiver σ α} {pos : Nat}, ReceiverInv D s₀ stream cap t pos → t.got = items →
      stream.length - pos + t.unread.length ≤ m →
      ∃ v, ReceiveSteps D t v ∧ v.got = items ++ [x] := by
  have hsane : EosSane (Eos.new true) stream.length := sane_new true hl
  intro m
  induction m using Nat.strongRecOn with
  | ind m ih =>
  intro t pos h hgot hm'
  have fin : ∀ {t' : Receiver σ α} {pos' : Nat}, ReceiverInv D s₀ stream cap t' pos' → t'.got = items →
      D.isIdle t'.dec = true → ∃ v, ReceiveSteps D t' v ∧ v.got = items ++ [x] := by
    intro t' pos' h' hg' hi
    obtain ⟨s1, p1, hT⟩ := decRun_tracks hw hg hsane h'.run
    rw [hg'] at hT
    obtain ⟨n, y, hit, _⟩ := hT.next hm
    obtain ⟨_, _, hf⟩ := (item_quiet hi).1 hit
    exact ⟨_, .step .refl (.finish hi hf), by rw [hg']⟩
  cases hi : D.isIdle t.dec with
  | true => exact fin h hgot hi
  | false =>
  -- one call of `decode`
  have dec : ∀ {t' : Receiver σ α} {pos' : Nat}, ReceiverInv D s₀ stream cap t' pos' → t'.got = items →
      D.isIdle t'.dec = false → ∃ n s', D.decode t'.dec t'.rbuf.content (Eos.new t'.rbuf.state.isEos) = (.ok n, s') ∧
        (D.isIdle s' = false → n = t'.rbuf.content.length ∧ t'.rbuf.state ≠ .eos) := by
    intro t' pos' h' hg' hi'
    obtain ⟨s1, p1, hT⟩ := decRun_tracks hw hg hsane h'.run
    rw [hg'] at hT
    obtain ⟨n, y, hit, hgd⟩ := hT.next hm
    rcases item_going (hgd hi') hi' h'.offer hit with ⟨k, _⟩ | ⟨_, s', k1, k2, k3, k4⟩
    · obtain ⟨g1, g2, _⟩ := (item_busy hi').1 k
      exact ⟨_, _, g1, fun h => by rw [g2] at h; cases h⟩
    · refine ⟨_, _, k1, fun _ => ⟨rfl, fun heos => ?_⟩⟩
      have hun := h'.eos heos
      have hb := h'.bytes
      rw [hun, List.append_nil] at hb
      rw [← List.drop_drop, hb, List.drop_length] at k4
      rw [heos] at k1
      exact (lost_stalls _ _ _).joins.closed rfl (hT.wholeNow hi') rfl ((tryDecode_ret_iff hi').2 ⟨k1, k2⟩) k4
  by_cases hcont : t.rbuf.content = []
  · have htail := ReadBuf.content_nil h.r hcont
    have hrc := h.cap
    have hroom : t.rbuf.tail < t.rbuf.inner.length := by omega
    by_cases hun : t.unread = []
    · -- the end of the stream
      have hst : ReceiveStep D t { t with rbuf := { t.rbuf with state := .eos }, unread := [] } :=
        .fill scriptReader_honest (fill_eos hroom) (by rw [hun]; rfl) (fun _ => rfl)
      have h' := h.fill scriptReader_honest (fill_eos hroom) (unread' := []) (by rw [hun]; rfl) (fun _ => rfl)
      obtain ⟨n, s', hd, hd2⟩ := dec h' hgot hi
      obtain ⟨e1, h2⟩ := h'.decode hS hcap hi hd
      have hi2 : D.isIdle s' = true := by
        cases hx : D.isIdle s' with
        | true => rfl
        | false => exact absurd rfl (hd2 hx).2
      obtain ⟨v, v1, v2⟩ := fin h2 hgot hi2
      exact ⟨v, receive_trans (.step (.step .refl hst) (.decode hi e1)) v1, v2⟩
    · obtain ⟨b', res, r', log, f1, f2, f3⟩ := fill_some h.r hroom hun
      have hst : ReceiveStep D t { t with rbuf := b', unread := t.unread.drop (t.rbuf.inner.length - t.rbuf.tail) } :=
        .fill scriptReader_honest f1 f2 (fun h => absurd h f3)
      have h' := h.fill scriptReader_honest f1 f2 (fun h => absurd h f3)
      have hne : 0 < t.unread.length := List.length_pos_iff.mpr hun
      obtain ⟨v, v1, v2⟩ := ih (m - 1) (by omega) h' hgot (by
        simp only [List.length_drop]
        omega)
      exact ⟨v, receive_trans (.step .refl hst) v1, v2⟩
  · obtain ⟨n, s', hd, hd2⟩ := dec h hgot hi
    obtain ⟨e1, h2⟩ := h.decode hS hcap hi hd
    have hst : ReceiveStep D t _ := .decode hi e1
    cases hi2 : D.isIdle s' with
    | true =>
      obtain ⟨v, v1, v2⟩ := fin h2 hgot hi2
      exact ⟨v, receive_trans (.step .refl hst) v1, v2⟩
    | false =>
      have hn := (hd2 hi2).1
      have hne : 0 < t.rbuf.content.length := List.length_pos_iff.mpr hcont
      have hb := h2.bound
      obtain ⟨v, v1, v2⟩ := ih (m - 1) (by omega) h2 hgot (by
        simp only
        omega)
      exact ⟨v, receive_trans (.step .refl hst) v1, v2⟩

end

end Bytecodec
