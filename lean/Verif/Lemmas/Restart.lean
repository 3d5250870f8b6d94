import Verif.Spec.Restart
import Verif.Lemmas.Receive
import Verif.Lemmas.Reuse
/-!
# Receivers that crash and start again
-/
namespace Bytecodec

open Spec

variable {σ α : Type} {D : Decoder σ α} {e : Eos} {s₀ : σ} {stream : Bytes}

theorem Same.trans {s t u : σ} (h : Same D s t) (h' : Same D t u) : Same D s u :=
  ⟨h.1.trans h'.1, h.2.1.trans h'.2.1, fun c => (h.2.2 c).trans (h'.2.2 c)⟩

theorem Same.symm {s t : σ} (h : Same D s t) : Same D t s :=
  ⟨h.1.symm, h.2.1.symm, fun c => (h.2.2 c).symm⟩

/-- States that cannot be told apart yield the same item. -/
theorem same_item {s t : σ} (h : Same D s t) {b : Bytes} {n : Nat} {x : α} {s' : σ}
    (hf : feed D s [(b, e)] = some (n, x, s')) : ∃ t', feed D t [(b, e)] = some (n, x, t') ∧ Same D s' t' := by
  obtain ⟨u, hu⟩ := feed_one.1 hf
  cases hi : D.isIdle s with
  | true =>
    obtain ⟨rfl, rfl, hfin⟩ := (item_quiet hi).1 hu
    have hi' : D.isIdle t = true := by rw [← h.1, hi]
    obtain ⟨h1, h2⟩ := (bisim_same D).finish h
    rw [hfin] at h1 h2
    refine ⟨_, feed_one.2 ⟨_, (item_quiet hi').2 ⟨rfl, rfl, ?_⟩⟩, h2⟩
    rw [show D.finish t = ((D.finish t).1, (D.finish t).2) from rfl, ← h1]
  | false =>
    obtain ⟨hd, hi1, hfin⟩ := (item_busy hi).1 hu
    have hi' : D.isIdle t = false := by rw [← h.1, hi]
    obtain ⟨h1, h2⟩ := (bisim_same D).decode h b e
    rw [hd] at h1 h2
    obtain ⟨h3, h4⟩ := (bisim_same D).finish h2
    rw [hfin] at h3 h4
    refine ⟨_, feed_one.2 ⟨_, (item_busy hi').2 ⟨?_, by rw [← h2.1]; exact hi1, ?_⟩⟩, h4⟩
    · rw [show D.decode t b e = ((D.decode t b e).1, (D.decode t b e).2) from rfl, ← h1]
    · rw [show D.finish (D.decode t b e).2 = ((D.finish (D.decode t b e).2).1, (D.finish (D.decode t b e).2).2) from rfl, ← h3]

/-- After an item from a new decoder, it is as new. -/
theorem item_asNew (hA : AsNew D s₀) {b : Bytes} {n : Nat} {x : α} {s' : σ}
    (hf : feed D s₀ [(b, e)] = some (n, x, s')) : Same D s' s₀ := by
  obtain ⟨u, hu⟩ := feed_one.1 hf
  cases hi : D.isIdle s₀ with
  | true =>
    obtain ⟨rfl, rfl, hfin⟩ := (item_quiet hi).1 hu
    exact hA _ _ _ .new hfin
  | false =>
    obtain ⟨hd, hi1, hfin⟩ := (item_busy hi).1 hu
    exact hA _ _ _ (.decode .new (fun _ => rfl) hd) hfin

theorem Means.asNew (hA : AsNew D s₀) {items : List α} {s : σ} {rest : Bytes}
    (h : Means D e s₀ stream items s rest) : Same D s s₀ := by
  induction h with
  | new => exact ⟨rfl, rfl, fun _ => rfl⟩
  | item _ hf ih =>
    obtain ⟨t', h1, h2⟩ := same_item ih hf
    exact Same.trans h2 (item_asNew hA h1)

/-- A new decoder that starts where the other one has stopped goes on in the same way. -/
theorem Means.append (hA : AsNew D s₀) {xs : List α} {s1 : σ} {r1 : Bytes} (h : Means D e s₀ stream xs s1 r1)
    {ys : List α} {s2 : σ} {r2 : Bytes} (h' : Means D e s₀ r1 ys s2 r2) :
    ∃ s, Means D e s₀ stream (xs ++ ys) s r2 ∧ Same D s s2 := by
  induction h' with
  | new => exact ⟨s1, by simpa using h, Means.asNew hA h⟩
  | item _ hf ih =>
    obtain ⟨s, g1, g2⟩ := ih
    obtain ⟨t', g3, g4⟩ := same_item (Same.symm g2) hf
    exact ⟨t', by rw [← List.append_assoc]; exact .item g1 g3, Same.symm g4⟩

theorem Means.split (hA : AsNew D s₀) {xs : List α} {s1 : σ} {r1 : Bytes} (h : Means D e s₀ stream xs s1 r1)
    {l : List α} {s : σ} {r2 : Bytes} (h' : Means D e s₀ stream l s r2) :
    ∀ {ys : List α}, l = xs ++ ys → ∃ s2, Means D e s₀ r1 ys s2 r2 ∧ Same D s s2 := by
  induction h' with
  | new =>
    intro ys hl
    obtain ⟨rfl, rfl⟩ := List.append_eq_nil_iff.mp hl.symm
    obtain ⟨rfl, rfl⟩ := Means.length_zero h
    exact ⟨_, .new, ⟨rfl, rfl, fun _ => rfl⟩⟩
  | @item items s s' rest n x hm hf ih =>
    intro ys hl
    rcases List.eq_nil_or_concat ys with rfl | ⟨ys', y, rfl⟩
    · rw [List.append_nil] at hl
      obtain ⟨_, rfl, rfl⟩ := Means.unique (Means.item hm hf) h (by rw [hl])
      exact ⟨_, .new, Means.asNew hA h⟩
    · rw [List.concat_eq_append] at hl ⊢
      rw [← List.append_assoc] at hl
      obtain ⟨hl', hx⟩ := List.append_inj' hl rfl
      cases hx
      obtain ⟨s2, g1, g2⟩ := ih hl'
      obtain ⟨t', g3, g4⟩ := same_item g2 hf
      exact ⟨t', .item g1 g3, g4⟩

/-- What holds of a receiver with a record. -/
structure JournalInv (D : Decoder σ α) (s₀ : σ) (stream : Bytes) (t : Journal σ α) (store : Bytes) (m₀ : Nat)
    (before : List α) : Prop where
  ne : store ≠ []
  cap : store.length < 2 ^ 64
  le₀ : m₀ ≤ stream.length
  means₀ : ∃ s1, Means D (Eos.new true) s₀ stream before s1 (stream.drop m₀)
  run : ReceiveSteps D (.new s₀ store (stream.drop m₀)) t.rcv
  saved : t.saved = before ++ t.rcv.got
  le : t.mark ≤ stream.length
  means : ∃ s2, Means D (Eos.new true) s₀ stream t.saved s2 (stream.drop t.mark)

section

variable {p q : Bool} (hw : Lost true q D s₀) (hg : Good p D s₀) (hS : SafeFrom D s₀) (hA : AsNew D s₀)
  (hl : stream.length < 2 ^ 64)

include hw hg hS hA hl

theorem JournalInv.step {t u : Journal σ α} {store : Bytes} {m₀ : Nat} {before : List α}
    (h : JournalInv D s₀ stream t store m₀ before) (hst : JournalStep D s₀ stream t u) :
    ∃ store m₀ before, JournalInv D s₀ stream u store m₀ before := by
  cases hst with
  | work hr he => exact ⟨_, _, _, h.ne, h.cap, h.le₀, h.means₀, .step h.run hr, by rw [he]; exact h.saved, h.le, h.means⟩
  | @take r x hr he =>
    have hrun := ReceiveSteps.step h.run hr
    have hsaved : t.saved ++ [x] = before ++ r.got := by rw [he, h.saved, List.append_assoc]
    have hlen : (stream.drop m₀).length < 2 ^ 64 := by rw [List.length_drop]; omega
    cases hr with
    | fill => simp at he
    | decode => simp at he
    | @finish s' y hi hf =>
      have hxy : y = x := by simpa using he
      subst hxy
      obtain ⟨pos, hI⟩ := receiver_inv hS h.cap h.run
      obtain ⟨s1, p1, hT⟩ := decRun_tracks hw hg (sane_new true hlen) hI.run
      have hm := (hT.finish hi hf).means
      obtain ⟨s0, h0⟩ := h.means₀
      obtain ⟨s3, h3, _⟩ := Means.append hA h0 hm
      have hb := hI.bound
      have hbytes := congrArg List.length hI.bytes
      simp only [List.length_drop, List.length_append] at hb hbytes
      rw [t.rcv.rbuf.content_length hI.r] at hbytes
      have hle₀ := h.le₀
      have hused : Receiver.used stream ({ t.rcv with dec := s', got := t.rcv.got ++ [y] } : Receiver σ α) = m₀ + pos := by
        simp only [Receiver.used]
        omega
      refine ⟨_, _, _, h.ne, h.cap, h.le₀, h.means₀, hrun, hsaved, ?_, s3, ?_⟩
      · simp only [hused]; omega
      · simp only [hused, hsaved]
        rw [List.drop_drop] at h3
        exact h3
  | crash store hne hc => exact ⟨store, t.mark, t.saved, hne, hc, h.le, h.means, .refl, by simp [Receiver.new], h.le, h.means⟩

theorem journal_inv {store : Bytes} (hne : store ≠ []) (hc : store.length < 2 ^ 64) {t : Journal σ α}
    (h : JournalSteps D s₀ stream (.new s₀ store stream) t) :
    ∃ store m₀ before, JournalInv D s₀ stream t store m₀ before := by
  generalize hj : Journal.new s₀ store stream = j at h
  induction h with
  | refl =>
    subst hj
    exact ⟨store, 0, [], hne, hc, Nat.zero_le _, ⟨s₀, .new⟩, .refl, rfl, Nat.zero_le _, ⟨s₀, .new⟩⟩
  | step _ hst ih =>
    obtain ⟨_, _, _, hI⟩ := ih
    exact hI.step hw hg hS hA hl hst

end

theorem journal_trans {t u v : Journal σ α} (h1 : JournalSteps D s₀ stream t u) (h2 : JournalSteps D s₀ stream u v) :
    JournalSteps D s₀ stream t v := by
  induction h2 with
  | refl => exact h1
  | step _ hst ih => exact .step ih hst

/-- Whatever the receiver does is noted. -/
theorem journal_lift {r r' : Receiver σ α} (h : ReceiveSteps D r r') {before : List α} {t : Journal σ α}
    (hr : t.rcv = r) (hs : t.saved = before ++ r.got) :
    ∃ u, JournalSteps D s₀ stream t u ∧ u.rcv = r' ∧ u.saved = before ++ r'.got := by
  induction h with
  | refl => exact ⟨t, .refl, hr, hs⟩
  | @step _ _ _ hst ih =>
    obtain ⟨u, h1, rfl, h3⟩ := ih
    have hcases : ∀ {v}, ReceiveStep D u.rcv v → v.got = u.rcv.got ∨ ∃ x, v.got = u.rcv.got ++ [x] := by
      intro v hv
      cases hv with
      | fill => exact .inl rfl
      | decode => exact .inl rfl
      | finish => exact .inr ⟨_, rfl⟩
    rcases hcases hst with hc | ⟨x, hc⟩
    · exact ⟨_, .step h1 (.work hst hc), rfl, by rw [hc]; exact h3⟩
    · exact ⟨_, .step h1 (.take hst hc), rfl, by rw [hc, ← List.append_assoc, ← h3]⟩

/-! ## With limits -/

/-- What a receiver with limits does, one without them can do. -/
theorem receive_retained {τ : Type} {D' : Decoder τ α} {R : σ → τ → Prop} (hk : Retains D D' R)
    {r r' : Receiver σ α} (h : ReceiveStep D r r') {s' : τ} (hr : R r.dec s') :
    ∃ u', R r'.dec u' ∧ ReceiveStep D' ⟨r.rbuf, s', r.unread, r.got⟩ ⟨r'.rbuf, u', r'.unread, r'.got⟩ := by
  cases h with
  | fill hR hf hw hz => exact ⟨s', hr, .fill (t := ⟨r.rbuf, s', r.unread, r.got⟩) hR hf hw hz⟩
  | @decode t b' hi hd =>
    by_cases hb : r.rbuf.tail < r.rbuf.head ∨ r.rbuf.inner.length < r.rbuf.tail
    · rw [decodeFromReadBuf, if_pos hb] at hd; cases hd
    · rw [decodeFromReadBuf, if_neg hb] at hd
      rcases hq : D.decode r.dec ((r.rbuf.inner.take r.rbuf.tail).drop r.rbuf.head) (Eos.new r.rbuf.state.isEos) with ⟨v, w⟩
      rw [hq] at hd
      cases v with
      | ok n =>
        simp only [Res.step] at hd
        cases hd
        obtain ⟨w', h3, h4⟩ := hk.decode hr _ _ _ _ hq
        refine ⟨w', h4, .decode (t := ⟨r.rbuf, s', r.unread, r.got⟩) (by rw [← hi]; exact (hk.idle hr).symm) ?_⟩
        rw [decodeFromReadBuf, if_neg hb, h3]
        rfl
      | _ => simp only [Res.step] at hd; cases hd
  | finish hi hf =>
    obtain ⟨w', h3, h4⟩ := hk.finish hr _ _ hf
    exact ⟨w', h4, .finish (t := ⟨r.rbuf, s', r.unread, r.got⟩) (by rw [← hi]; exact (hk.idle hr).symm) h3⟩

theorem journal_retained {τ : Type} {D' : Decoder τ α} {s₀' : τ} {R : σ → τ → Prop} (hk : Retains D D' R)
    (hr : R s₀ s₀') {store : Bytes} {t : Journal σ α} (h : JournalSteps D s₀ stream (.new s₀ store stream) t) :
    ∃ s', R t.rcv.dec s' ∧ JournalSteps D' s₀' stream (.new s₀' store stream)
      ⟨⟨t.rcv.rbuf, s', t.rcv.unread, t.rcv.got⟩, t.saved, t.mark⟩ := by
  generalize hj : Journal.new s₀ store stream = j at h
  induction h with
  | refl => subst hj; exact ⟨s₀', hr, .refl⟩
  | step _ hst ih =>
    obtain ⟨s', h1, h2⟩ := ih
    cases hst with
    | work hs he =>
      obtain ⟨u', h3, h4⟩ := receive_retained hk hs h1
      exact ⟨u', h3, .step h2 (.work h4 he)⟩
    | take hs he =>
      obtain ⟨u', h3, h4⟩ := receive_retained hk hs h1
      exact ⟨u', h3, .step h2 (.take h4 he)⟩
    | crash store hne hc => exact ⟨s₀', hr, .step h2 (.crash store hne hc)⟩

/-! ## Sending again over a new connection -/

/-- All the messages can be handed to the pipe. -/
theorem pipe_send {τ : Type} {strict : Bool} {E : Encoder τ α} {sE : τ} {sD : σ} {dom : α → Prop}
    {enc : α → Except ErrorKind Bytes} {wstore rstore : Bytes} (hE : Emits strict E sE dom enc) (hS : SafeFrom D sD)
    (hr : rstore.length < 2 ^ 64) (hw : 0 < wstore.length) (l : List α) (hd : ∀ x ∈ l, dom x ∧ ∃ b, enc x = .ok b) :
    ∃ p, PipeSteps E D dom (.new sE sD wstore rstore) p ∧ p.sent = l ∧ p.got = [] ∧ E.isIdle p.enc = true ∧
      p.closed = false := by
  induction hn : l.length generalizing l with
  | zero =>
    cases l with
    | nil =>
      obtain ⟨_, _, hI⟩ := pipe_inv (wstore := wstore) (E := E) hE hS hr .refl
      obtain ⟨q, h1, h2, h3, h4, _, h5⟩ := pipe_drain hE hS hr hw _ hI (Nat.le_refl _)
      exact ⟨q, h1, h2, h3, h4, h5⟩
    | cons => simp at hn
  | succ n ih =>
    rcases List.eq_nil_or_concat l with rfl | ⟨l', x, rfl⟩
    · simp at hn
    · rw [List.concat_eq_append] at hd hn ⊢
      obtain ⟨p, h1, h2, h3, h4, h5⟩ := ih l' (fun x hx => hd x (List.mem_append_left _ hx)) (by simpa using hn)
      obtain ⟨hx, b, hb⟩ := hd x (by simp)
      obtain ⟨_, _, hI⟩ := pipe_inv hE hS hr h1
      have hst : E.start p.enc x = (.ok (), (E.start p.enc x).2) := by
        rw [← hE.accepts hI.sends h4 hx hb]
      have hp := PipeSteps.step h1 (.start x h5 h4 hx hst)
      obtain ⟨_, _, hI'⟩ := pipe_inv hE hS hr hp
      obtain ⟨q, g1, g2, g3, g4, _, g5⟩ := pipe_drain hE hS hr hw _ hI' (Nat.le_refl _)
      exact ⟨q, pipe_trans hp g1, by rw [g2]; simp only [h2], by rw [g3]; exact h3, g4, g5.trans h5⟩

end Bytecodec
