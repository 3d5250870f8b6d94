import Verif.Lemmas.SplitSeq
/-!
# The caller's loop and the splitting law
-/
namespace Bytecodec

open Spec

variable {σ α β : Type}

theorem feed_idle {D : Decoder σ α} {s : σ} (h : D.isIdle s = true) (cs : List (Bytes × Eos)) :
    feed D s cs = match D.finish s with
      | (.ok x, s') => some (0, x, s')
      | _ => none := by
  rw [feed.eq_def, if_pos h]
  rcases D.finish s with ⟨r, s'⟩
  cases r <;> rfl

theorem feed_item {D : Decoder σ α} {s t s' : σ} {b : Bytes} {e : Eos} {n : Nat} {x : α}
    (h : Item D s b e n t x s') (rest : List (Bytes × Eos)) :
    feed D s ((b, e) :: rest) = some (n, x, s') := by
  cases hs : D.isIdle s with
  | true =>
    rw [item_quiet hs] at h
    obtain ⟨rfl, rfl, h⟩ := h
    rw [feed_idle hs, h]
  | false =>
    rw [item_busy hs] at h
    rw [feed, if_neg (by simp [hs])]
    simp only
    rw [h.1]
    simp only
    rw [if_pos (.inl h.2.1), feed_idle h.2.1, h.2.2]
    simp

theorem feed_part {D : Decoder σ α} {s s1 : σ} {b : Bytes} {e : Eos}
    (h : tryDecode D s 0 b e = .ret (.ok b.length) s1) (rest : List (Bytes × Eos)) :
    feed D s ((b, e) :: rest) = (feed D s1 rest).map fun (m, x, t) => (b.length + m, x, t) := by
  have hs := tryDecode_ret_busy h
  rw [tryDecode_ret_iff hs] at h
  rw [feed, if_neg (by simp [hs])]
  simp only
  rw [h.1]
  simp only
  rw [if_pos (.inr trivial)]

/-- One chunk: the loop succeeds iff it decodes an item. -/
theorem feed_one {D : Decoder σ α} {s s' : σ} {b : Bytes} {e : Eos} {n : Nat} {x : α} :
    feed D s [(b, e)] = some (n, x, s') ↔ ∃ t, Item D s b e n t x s' := by
  constructor
  · intro h
    cases hs : D.isIdle s with
    | true =>
      rw [feed_idle hs] at h
      refine ⟨s, (item_quiet hs).2 ?_⟩
      split at h <;> cases h
      next hf => exact ⟨rfl, rfl, hf⟩
    | false =>
      rw [feed, if_neg (by simp [hs])] at h
      simp only at h
      split at h
      · next m t hd =>
        split at h
        · cases ht : D.isIdle t with
          | false =>
            rw [feed, if_neg (by simp [ht])] at h
            simp at h
          | true =>
            rw [feed_idle ht] at h
            split at h
            · next hf =>
              cases h
              exact ⟨t, (item_busy hs).2 ⟨hd, ht, hf⟩⟩
            · cases h
        · cases h
      · cases h
  · rintro ⟨t, h⟩
    exact feed_item h []

theorem eosShift_reached {e : Eos} {k : Nat} (h : (eosShift e k).isReached = true) :
    k = 0 ∧ eosShift e k = e := by
  obtain ⟨c⟩ := e
  cases c with
  | finite n =>
    simp only [eosShift, Eos.isReached] at h ⊢
    have : n + k = 0 := by simpa using h
    have hk : k = 0 := by omega
    subst hk
    exact ⟨rfl, rfl⟩
  | _ => simp [eosShift, Eos.isReached] at h

theorem splits_feed {p : Bool} {D : Decoder σ α} {I : σ → Prop} (hI : Splits p D I)
    {cs : List (Bytes × Eos)} {b : Bytes} {e : Eos} (hc : Schedule cs b e) :
    ∀ {s n t x s'}, I s → Item D s b e n t x s' → feed D s cs = some (n, x, s') := by
  induction hc with
  | last b e => intro s n t x s' _ h; exact feed_item h []
  | @cons cs rest e c ec he _ ih =>
    intro s n t x s' hs h
    cases hr : ec.isReached with
    | true =>
      have he' : ec = eosShift e rest.length := by
        rcases he with h | h
        · rw [h] at hr; simp [Eos.new, Eos.isReached] at hr
        · exact h
      rw [he'] at hr
      obtain ⟨h0, h1⟩ := eosShift_reached hr
      have h0 : rest = [] := List.eq_nil_of_length_eq_zero h0
      subst h0
      rw [he', h1]
      simp only [List.append_nil] at h
      exact feed_item h _
    | false =>
      rcases hI.split hs h he hr with k | ⟨_, k2, u, k3, k4, k5⟩
      · exact feed_item k _
      · rw [feed_part k3, ih k4 k5]
        simp
        omega

end Bytecodec
