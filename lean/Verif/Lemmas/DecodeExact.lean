import Verif.Lemmas.Exact
/-!
# Lemmas: `decode_exact`
-/
namespace Bytecodec
open Spec

variable {σ α ρ : Type}

/-- `decode_exact` asks for nothing: one call with an empty buffer. -/
theorem decodeExact_quiet {D : Decoder σ α} {R : Reader ρ} {s s1 : σ} {r : ρ}
    (hq : D.requiring s = .finite 0) (hd : D.decode s [] (Eos.new false) = (.ok 0, s1)) :
    decodeExact D R s r =
      if D.isIdle s1 then some ((D.finish s1).1, (D.finish s1).2, r) else decodeExact D R s1 r := by
  rw [decodeExact, hq]
  simp only [Nat.zero_min, ne_eq, not_true_eq_false, if_false, decide_false, Bool.false_and]
  rw [if_neg (by simp), hd]
  simp

/-- The number of bytes `decode_exact` asks its reader for. -/
def readSize : ByteCount → Nat
  | .finite n => min n 1024
  | .infinite => 1024
  | .unknown => 1

theorem readSize_le (c : ByteCount) : readSize c ≤ 1024 := by
  cases c <;> simp only [readSize] <;> omega

/-- One round of `decode_exact`. -/
theorem decodeExact_eq (D : Decoder σ α) (R : Reader ρ) (s : σ) (r : ρ) :
    decodeExact D R s r =
      match (if readSize (D.requiring s) ≠ 0 then R.read r (readSize (D.requiring s)) else (.data [], r)) with
      | (.error k, r') => some (.err (ErrorKind.ofIo k), s, r')
      | (.data bs, r') =>
        if 1024 < bs.length then some (.panic, s, r')
        else
          match D.decode s bs (Eos.new (readSize (D.requiring s) ≠ 0 && bs.isEmpty)) with
          | (.ok consumed, s') =>
            if consumed ≠ bs.length then some (.err .inconsistentState, s', r')
            else if D.isIdle s' then some ((D.finish s').1, (D.finish s').2, r')
            else decodeExact D R s' r'
          | (.err k, s') => some (.err k, s', r')
          | (.panic, s') => some (.panic, s', r')
          | (.capacity, s') => some (.capacity, s', r')
          | (.diverge, s') => some (.diverge, s', r') := by
  rw [decodeExact]
  cases D.requiring s <;> rfl

/-- `decode_exact` reads some bytes. -/
theorem decodeExact_read {D : Decoder σ α} {R : Reader ρ} {s s1 : σ} {r r' : ρ} {bs : Bytes}
    (h0 : readSize (D.requiring s) ≠ 0) (hr : R.read r (readSize (D.requiring s)) = (.data bs, r'))
    (hl : bs.length ≤ readSize (D.requiring s))
    (hd : D.decode s bs (Eos.new bs.isEmpty) = (.ok bs.length, s1)) :
    decodeExact D R s r =
      if D.isIdle s1 then some ((D.finish s1).1, (D.finish s1).2, r') else decodeExact D R s1 r' := by
  have h1 := readSize_le (D.requiring s)
  have : (decide (readSize (D.requiring s) ≠ 0) && bs.isEmpty) = bs.isEmpty := by simp [h0]
  rw [decodeExact_eq, if_pos h0, hr]
  simp only
  rw [if_neg (by omega), this, hd]
  simp

theorem decodeExact_item {w p : Bool} {D : Decoder σ α} {F M : σ → Prop} (h : Steady w p D F M)
    {R : Reader ρ} {rest : ρ → Bytes} (hR : Delivers R rest) : ∀ k {s r c tail e n t x s'},
    2 * (rest r).length + (if D.requiring s = .finite 0 then 1 else 0) < k →
    M s → Item D s c e n t x s' → rest r = c ++ tail → (p = false → e = Eos.new true ∧ tail = []) →
    ∃ r', decodeExact D R s r = some (.ok x, s', r') ∧ rest r' = c.drop n ++ tail := by
  intro k
  induction k with
  | zero => intro s r c tail e n t x s' hk; omega
  | succ k ih =>
    intro s r c tail e n t x s' hk hm hi hrest hp
    cases hs : D.isIdle s with
    | true =>
      have hi' := hi
      rw [item_quiet hs] at hi'
      obtain ⟨rfl, rfl, hf⟩ := hi'
      have hF := h.idle hm hs
      refine ⟨r, ?_, by simpa using hrest⟩
      rw [decodeExact_quiet (h.againQuiet hF hs hf).2 (h.calm hF hs hf (.inl rfl)), if_pos hs, hf]
    | false =>
      have hbound := h.bound hm hi
      by_cases hq : D.requiring s = .finite 0
      · rcases (good_splits p D).split (a := []) (b := c) (e1 := Eos.new false) (h.good hm)
          (by simpa using hi) (.inl rfl) rfl with h1 | ⟨_, _, s1, h3, _, h5⟩
        · have hn := h.bound hm h1
          obtain rfl : n = 0 := by simpa using hn
          rw [item_busy hs] at h1
          refine ⟨r, ?_, by simpa using hrest⟩
          rw [decodeExact_quiet hq h1.1, if_pos h1.2.1, h1.2.2]
        · have hst := h.item_step (a := []) (b := c) hm (by simpa using hi) (.inl rfl) rfl h3
          rw [tryDecode_ret_iff hs] at h3
          rw [decodeExact_quiet hq h3.1, if_neg (by simp [h3.2])]
          rw [if_pos hq] at hk
          exact ih (by rw [if_neg hst.2]; omega) hst.1 h5 hrest hp
      · have hneed := h.item_need hm hi
        have h0 : readSize (D.requiring s) ≠ 0 := by
          cases hD : D.requiring s with
          | finite m =>
            rw [hD] at hq
            have : m ≠ 0 := fun hc => hq (by rw [hc])
            simp only [readSize]
            omega
          | infinite => simp [readSize]
          | unknown => simp [readSize]
        obtain ⟨bs, hb1, hb2, hb3, hb4⟩ := hR.read r (readSize (D.requiring s)) (by omega)
        have hread : R.read r (readSize (D.requiring s)) = (.data bs, (R.read r (readSize (D.requiring s))).2) := Prod.ext hb1 rfl
        generalize (R.read r (readSize (D.requiring s))).2 = r' at hb3 hread
        -- the bytes read belong to the item
        have hle : bs.length ≤ n := by
          rcases hneed with ⟨m, g1, g2⟩ | ⟨g1, g2⟩
          · rw [g1] at hb2
            simp only [readSize] at hb2
            omega
          · have hl := congrArg List.length (hrest.symm.trans hb3)
            rw [(hp g1).2] at hl
            simp only [List.length_append, List.length_nil] at hl
            omega
        obtain ⟨c', rfl⟩ : ∃ c', c = bs ++ c' := by
          refine ⟨c.drop bs.length, ?_⟩
          have := congrArg (List.take bs.length) (hrest.symm.trans hb3)
          rw [List.take_append_of_le_length (by omega), List.take_append_of_le_length (Nat.le_refl _),
            List.take_length] at this
          conv => rhs; lhs; rw [← this]
          exact (List.take_append_drop _ _).symm
        have hrest' : rest r' = c' ++ tail := by
          have := hrest.symm.trans hb3
          rw [List.append_assoc] at this
          exact (List.append_cancel_left this).symm
        cases bs with
        | nil =>
          have hc := hb4 rfl
          rw [hrest, List.nil_append] at hc
          obtain ⟨rfl, rfl⟩ := List.append_eq_nil_iff.1 hc
          have hpf : p = false := by
            cases p with
            | false => rfl
            | true =>
              rcases hneed with ⟨m, g1, g2⟩ | ⟨g1, g2⟩
              · simp only [List.nil_append, List.length_nil] at hbound
                rw [g1] at hq
                exact absurd (by omega : m = 0) (fun h => hq (by rw [h]))
              · cases g1
          obtain ⟨rfl, _⟩ := hp hpf
          obtain rfl : n = 0 := by simpa using hbound
          rw [item_busy hs] at hi
          refine ⟨r', ?_, by simpa using hrest'⟩
          rw [decodeExact_read h0 hread hb2 hi.1, if_pos hi.2.1, hi.2.2]
        | cons b0 bs =>
          rcases (good_splits p D).split (e1 := Eos.new false) (h.good hm) hi (.inl rfl) rfl with
            h1 | ⟨_, h2, s1, h3, _, h5⟩
          · have hn := h.bound hm h1
            obtain rfl : n = (b0 :: bs).length := by omega
            rw [item_busy hs] at h1
            refine ⟨r', ?_, by rw [List.drop_left]; exact hrest'⟩
            rw [decodeExact_read h0 hread hb2 h1.1, if_pos h1.2.1, h1.2.2]
          · have hst := h.item_step hm hi (.inl rfl) rfl h3
            rw [tryDecode_ret_iff hs] at h3
            rw [decodeExact_read h0 hread hb2 h3.1, if_neg (by simp [h3.2])]
            have hl := congrArg List.length hb3
            simp only [List.length_append, List.length_cons] at hl
            obtain ⟨r'', g1, g2⟩ := ih (r := r') (by split <;> omega) hst.1 h5 hrest' hp
            refine ⟨r'', g1, ?_⟩
            rw [g2, List.drop_append, List.drop_eq_nil_of_le hle, List.nil_append]

end Bytecodec

namespace Bytecodec
open Spec
variable {σ α ρ : Type}

/-- What `decode_exact` reads in one round. -/
def exactRead (R : Reader ρ) (c : ByteCount) (r : ρ) : ReadRes × ρ :=
  if readSize c ≠ 0 then R.read r (readSize c) else (.data [], r)

/-- Induction over the rounds of a terminating `decode_exact`. -/
theorem decodeExact_induct {D : Decoder σ α} {R : Reader ρ} {P : σ → ρ → Res α → σ → ρ → Prop}
    (hread : ∀ {s r k r'}, exactRead R (D.requiring s) r = (.error k, r') →
      P s r (.err (ErrorKind.ofIo k)) s r')
    (hstop : ∀ {s r bs r' y s'}, exactRead R (D.requiring s) r = (.data bs, r') →
      (∀ x, y ≠ .ok x) → (1024 < bs.length ∨ ∃ z,
        D.decode s bs (Eos.new (readSize (D.requiring s) ≠ 0 && bs.isEmpty)) = (z, s') ∧ z ≠ .ok bs.length) →
      P s r y s' r')
    (hdone : ∀ {s r bs r' s'}, exactRead R (D.requiring s) r = (.data bs, r') → bs.length ≤ 1024 →
      D.decode s bs (Eos.new (readSize (D.requiring s) ≠ 0 && bs.isEmpty)) = (.ok bs.length, s') →
      D.isIdle s' = true → P s r (D.finish s').1 (D.finish s').2 r')
    (hnext : ∀ {s r bs r' s' y t q}, exactRead R (D.requiring s) r = (.data bs, r') → bs.length ≤ 1024 →
      D.decode s bs (Eos.new (readSize (D.requiring s) ≠ 0 && bs.isEmpty)) = (.ok bs.length, s') →
      D.isIdle s' = false → P s' r' y t q → P s r y t q) :
    ∀ {s r y t q}, decodeExact D R s r = some (y, t, q) → P s r y t q := by
  have key := decodeExact.partial_correctness D R
    (motive := fun s r y => P s r y.1 y.2.1 y.2.2) ?_
  · intro s r y t q h; exact key s r _ h
  · intro loop ih s r y h
    have h : (match exactRead R (D.requiring s) r with
      | (.error k, r') => some (.err (ErrorKind.ofIo k), s, r')
      | (.data bs, r') =>
        if 1024 < bs.length then some (.panic, s, r')
        else
          match D.decode s bs (Eos.new (readSize (D.requiring s) ≠ 0 && bs.isEmpty)) with
          | (.ok consumed, s') =>
            if consumed ≠ bs.length then some (.err .inconsistentState, s', r')
            else if D.isIdle s' then some ((D.finish s').1, (D.finish s').2, r')
            else loop s' r'
          | (.err k, s') => some (.err k, s', r')
          | (.panic, s') => some (.panic, s', r')
          | (.capacity, s') => some (.capacity, s', r')
          | (.diverge, s') => some (.diverge, s', r')) = some y := by
      rw [← h]
      cases D.requiring s <;> rfl
    split at h
    · next hr => cases h; exact hread hr
    · next bs r' hr =>
      split at h
      · cases h; exact hstop hr (by simp) (.inl (by assumption))
      · split at h
        · next hd =>
          split at h
          · next hc => cases h; exact hstop hr (by simp) (.inr ⟨_, hd, by simpa using hc⟩)
          · next hc =>
            have hc := Decidable.of_not_not hc
            subst hc
            split at h
            · next hi => cases h; exact hdone hr (by omega) hd hi
            · next hi => exact hnext hr (by omega) hd (by simpa using hi) (ih _ _ _ h)
        all_goals next hd => cases h; exact hstop hr (by simp) (.inr ⟨_, hd, by simp⟩)

/-- A `decode_exact` that makes no progress runs forever. -/
theorem decodeExact_hang {D : Decoder σ α} {R : Reader ρ} {J : σ → ρ → Prop}
    (hJ : ∀ {s r}, J s r → ∃ bs r' s', exactRead R (D.requiring s) r = (.data bs, r') ∧ bs.length ≤ 1024 ∧
      D.decode s bs (Eos.new (readSize (D.requiring s) ≠ 0 && bs.isEmpty)) = (.ok bs.length, s') ∧
      D.isIdle s' = false ∧ J s' r') {s : σ} {r : ρ} (h : J s r) : decodeExact D R s r = none := by
  cases hx : decodeExact D R s r with
  | none => rfl
  | some y =>
    obtain ⟨y, t, q⟩ := y
    exfalso
    refine decodeExact_induct (D := D) (R := R) (P := fun s r _ _ _ => J s r → False) ?_ ?_ ?_ ?_ hx h
    · intro s r k r' h1 hj
      obtain ⟨bs, r1, s1, g1, g2, g3, g4, g5⟩ := hJ hj
      rw [g1] at h1
      cases h1
    · intro s r bs r' y s' h1 _ h2 hj
      obtain ⟨bs1, r1, s1, g1, g2, g3, g4, g5⟩ := hJ hj
      rw [g1] at h1
      cases h1
      rcases h2 with h2 | ⟨z, h2, h3⟩
      · omega
      · rw [g3] at h2
        cases h2
        exact h3 rfl
    · intro s r bs r' s' h1 _ h2 h3 hj
      obtain ⟨bs1, r1, s1, g1, g2, g3, g4, g5⟩ := hJ hj
      rw [g1] at h1
      cases h1
      rw [g3] at h2
      cases h2
      rw [g4] at h3
      cases h3
    · intro s r bs r' s' y t q h1 _ h2 _ ih hj
      obtain ⟨bs1, r1, s1, g1, g2, g3, g4, g5⟩ := hJ hj
      rw [g1] at h1
      cases h1
      rw [g3] at h2
      cases h2
      exact ih g5

end Bytecodec
