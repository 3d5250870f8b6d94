import Verif.Spec.Progress
import Verif.Lemmas.Tally
/-!
# Lemmas: progress
-/
namespace Bytecodec

open Spec

variable {σ α : Type}

theorem setExpected_ok {s s' : LengthState σ} {m : Nat} (h : s.setExpectedBytes m = (.ok (), s')) :
    s.remaining = s.expected ∧ s' = ⟨s.inner, m, m⟩ := by
  simp only [LengthState.setExpectedBytes] at h
  split at h
  · next hq => cases h; exact ⟨hq, rfl⟩
  · cases h

theorem setMax_ok {s s' : MaxBytesState σ} {m : Nat} (h : s.setMaxBytes m = (.ok (), s')) :
    s.consumed ≤ m ∧ s' = ⟨s.inner, s.consumed, m⟩ := by
  simp only [MaxBytesState.setMaxBytes] at h
  split at h
  · next hq => cases h; exact ⟨hq, rfl⟩
  · cases h

/-! ## `length` -/

theorem lengthRun_inv {D : Decoder σ α} {s : LengthState σ} {n c : Nat} (h : LengthRun D s n c) :
    s.expected = n ∧ s.remaining + c = n := by
  induction h with
  | new i n => exact ⟨rfl, rfl⟩
  | set _ hs ih =>
    obtain ⟨h1, rfl⟩ := setExpected_ok hs
    exact ⟨rfl, by simp only; omega⟩
  | @decoded s s' n c k b e _ hd ih =>
    rcases length_cases D s b e with ⟨h, _⟩ | ⟨h, _⟩ | ⟨_, r, i', _, ⟨m', _, hm, h⟩ | ⟨m', _, _, h⟩ | ⟨hr, h⟩⟩ <;>
      rw [h] at hd
    · cases hd
    · cases hd
    · cases hd
      exact ⟨ih.1, by simp only; omega⟩
    · cases hd
    · exact absurd (congrArg Prod.fst hd) (hr k)
  | @failed s s' n c r b e _ hd hr ih =>
    rcases length_cases D s b e with ⟨h, _⟩ | ⟨h, _⟩ | ⟨_, r', i', _, ⟨m', _, hm, h⟩ | ⟨m', _, _, h⟩ | ⟨hr', h⟩⟩ <;>
      rw [h] at hd <;> cases hd
    · exact ih
    · exact ih
    · exact absurd rfl (hr _)
    · exact ih
    · exact ih
  | @finish s n c _ ih =>
    rcases length_finish D s with ⟨h0, h⟩ | ⟨h0, h⟩ <;> rw [h]
    · rw [if_pos (by omega)]
      exact ⟨ih.1, ih.1⟩
    · rw [if_neg (by omega)]
      exact ih

theorem lengthEncRun_inv {E : Encoder σ α} {s : LengthState σ} {n c : Nat} (h : LengthEncRun E s n c) :
    s.expected = n ∧ s.remaining + c = n := by
  induction h with
  | new i n => exact ⟨rfl, rfl⟩
  | set _ hs ih =>
    obtain ⟨h1, rfl⟩ := setExpected_ok hs
    exact ⟨rfl, by simp only; omega⟩
  | @start s n c x _ ih =>
    simp only [lengthEncoder]
    split
    · next hq =>
      generalize E.start s.inner x = p
      obtain ⟨r, i⟩ := p
      cases r <;> exact ⟨ih.1, by simp only [Res.step]; omega⟩
    · exact ih
  | @encoded s s' n c cap e out _ hd ih =>
    simp only [lengthEncoder] at hd
    split at hd
    · cases hd
    · revert hd
      generalize E.encode s.inner (if cap < s.remaining then cap else s.remaining)
        (if cap < s.remaining then e else Eos.new true) = p
      obtain ⟨r, i⟩ := p
      cases r with
      | ok bs =>
        simp only [Res.step]
        intro hd
        split at hd
        · cases hd
        · split at hd
          · cases hd
          · cases hd
            exact ⟨ih.1, by simp only; omega⟩
      | _ => intro hd; cases hd

/-! ## `max_bytes` -/

theorem maxRun_inv {D : Decoder σ α} {s : MaxBytesState σ} {n c : Nat} (h : MaxRun D s n c) :
    s.max = n ∧ s.consumed = c := by
  induction h with
  | new i n => exact ⟨rfl, rfl⟩
  | set _ hs ih =>
    obtain ⟨h1, rfl⟩ := setMax_ok hs
    exact ⟨rfl, ih.2⟩
  | @decoded s s' n c k b e _ hd ih =>
    rcases maxBytes_cases D s b e with ⟨h, _⟩ | ⟨h, _⟩ | ⟨_, _, _, h⟩ <;> rw [h] at hd
    · cases hd
    · cases hd
    · cases hp : (D.decode s.inner b e).1 <;> rw [hp] at hd <;> cases hd
      exact ⟨ih.1, by rw [← ih.2]⟩
  | @failed s s' n c r b e _ hd hr ih =>
    rcases maxBytes_cases D s b e with ⟨h, _⟩ | ⟨h, _⟩ | ⟨_, _, _, h⟩ <;> rw [h] at hd
    · cases hd; exact ih
    · cases hd; exact ih
    · cases hp : (D.decode s.inner b e).1 <;> rw [hp] at hd <;> cases hd
      · exact absurd rfl (hr _)
      all_goals exact ih
  | @finish s n c _ ih => rw [maxBytes_finish]; exact ⟨ih.1, rfl⟩

theorem maxEncRun_inv {E : Encoder σ α} {s : MaxBytesState σ} {n c : Nat} (h : MaxEncRun E s n c) :
    s.max = n ∧ s.consumed = c ∧ c ≤ n := by
  induction h with
  | new i n => exact ⟨rfl, rfl, Nat.zero_le _⟩
  | set _ hs ih =>
    obtain ⟨h1, rfl⟩ := setMax_ok hs
    exact ⟨rfl, ih.2.1, by omega⟩
  | @start s n c x _ ih =>
    simp only [maxBytesEncoder]
    generalize E.start s.inner x = p
    obtain ⟨r, i⟩ := p
    cases r <;> exact ih
  | @encoded s s' n c cap e out _ hd ih =>
    simp only [maxBytesEncoder] at hd
    revert hd
    generalize E.encode s.inner cap e = p
    obtain ⟨r, i⟩ := p
    cases r with
    | ok bs =>
      simp only [Res.step]
      intro hd
      split at hd
      · cases hd
      · split at hd
        · next hi => cases hd; rw [if_pos (show (maxBytesEncoder E).isIdle ⟨i, 0, s.max⟩ = true from hi)]; exact ⟨ih.1, rfl, Nat.zero_le _⟩
        · next hi =>
          cases hd
          rw [if_neg (show ¬ (maxBytesEncoder E).isIdle ⟨i, s.consumed + out.length, s.max⟩ = true from hi)]
          exact ⟨ih.1, by rw [ih.2.1], by omega⟩
    | _ => intro hd; cases hd

/-! ## `collect` and `collectn` -/

theorem noting_tryDecode (D : Decoder σ α) (s : σ × List α) (o : Nat) (b : Bytes) (e : Eos) :
    (∃ r s', tryDecode (noting D) s o b e = .ret r (s', s.2)) ∨
    (∃ o' s', tryDecode (noting D) s o b e = .next o' (s', s.2)) := by
  obtain ⟨s, l⟩ := s
  rw [tryDecode]
  by_cases hi : D.isIdle s = true
  · rw [if_pos (show (noting D).isIdle (s, l) = true from hi)]
    exact .inr ⟨_, _, rfl⟩
  · rw [if_neg (show ¬ (noting D).isIdle (s, l) = true from hi)]
    split
    · exact .inl ⟨_, _, rfl⟩
    · have h1 : (noting D).decode (s, l) (List.drop o b) e =
          ((D.decode s (List.drop o b) e).1, (D.decode s (List.drop o b) e).2, l) := rfl
      rw [h1]
      generalize D.decode s (List.drop o b) e = p
      obtain ⟨r, s'⟩ := p
      cases r with
      | ok n =>
        simp only
        generalize (noting D).isIdle (s', l) = x
        cases x with
        | true => exact .inr ⟨_, _, rfl⟩
        | false => exact .inl ⟨_, _, rfl⟩
      | _ => exact .inl ⟨_, _, rfl⟩

theorem noting_finish (D : Decoder σ α) (s : σ × List α) :
    (∃ x s', (noting D).finish s = (.ok x, s', s.2 ++ [x])) ∨
    (∃ r s', (noting D).finish s = (r, s', s.2) ∧ ∀ x, r ≠ .ok x) := by
  simp only [noting]
  generalize D.finish s.1 = p
  obtain ⟨r, s'⟩ := p
  cases r with
  | ok x => exact .inl ⟨_, _, rfl⟩
  | _ => exact .inr ⟨_, _, rfl, by simp⟩

/-- What the two loops add to the collected items, the inner decoder has delivered. -/
theorem collectLoop_noting (D : Decoder σ α) (b : Bytes) (e : Eos) (j : Nat) :
    ∀ (o : Nat) (s : σ × List α) (items : List α) (x : LoopExit (σ × List α) α),
    collectLoop (noting D) b e o s items = some x → j ≤ s.2.length → items = s.2.drop j →
    match x with
    | .done _ s' items' => j ≤ s'.2.length ∧ items' = s'.2.drop j
    | .ret _ s' items' => j ≤ s'.2.length ∧ items' = s'.2.drop j := by
  apply collectLoop.partial_correctness (noting D) b e
  intro loop ih o s items x heq hj hi
  split at heq
  · rcases noting_tryDecode D s o b e with ⟨r, s', h⟩ | ⟨o', s', h⟩ <;> rw [h] at heq
    · cases heq; exact ⟨hj, hi⟩
    · simp only at heq
      rcases noting_finish D (s', s.2) with ⟨y, s'', h⟩ | ⟨r, s'', h, hr⟩ <;> rw [h] at heq
      · refine ih _ _ _ _ heq (by simp; omega) ?_
        rw [hi, List.drop_append_of_le_length hj]
      · cases r with
        | ok y => exact absurd rfl (hr y)
        | _ => cases heq; exact ⟨hj, hi⟩
  · cases heq; exact ⟨hj, hi⟩

theorem collectRun_inv {D : Decoder σ α} {s : CollectState (σ × List α) α} {j : Nat} (h : CollectRun D s j) :
    j ≤ s.inner.2.length ∧ s.items = s.inner.2.drop j := by
  induction h with
  | new i => exact ⟨Nat.le_refl _, rfl⟩
  | @decode s j b e _ ih =>
    simp only [collectDecoder]
    split
    · exact ih
    · cases hl : collectLoop (noting D) b e 0 s.inner s.items with
      | none => exact ih
      | some x =>
        have := collectLoop_noting D b e j _ _ _ _ hl ih.1 ih.2
        cases x <;> exact this
  | @taken s s' j xs _ hf ih =>
    simp only [collectDecoder] at hf
    split at hf
    · cases hf; exact ⟨Nat.le_refl _, by simp⟩
    · cases hf
  | @refused s s' j r _ hf hr ih =>
    simp only [collectDecoder] at hf
    split at hf
    · cases hf; exact absurd rfl (hr _)
    · cases hf; exact ih

theorem collectNLoop_noting (D : Decoder σ α) (b : Bytes) (e : Eos) (j i : Nat) :
    ∀ (k o : Nat) (s : σ × List α) (items : List α) (n : Nat),
    j ≤ s.2.length → items = s.2.drop j → i ≤ s.2.length → k + (s.2.length - i) = n →
    match collectNLoop (noting D) b e k o s items with
    | .done _ s' items' k' =>
      j ≤ s'.2.length ∧ items' = s'.2.drop j ∧ i ≤ s'.2.length ∧ k' + (s'.2.length - i) = n
    | .ret _ s' items' k' =>
      j ≤ s'.2.length ∧ items' = s'.2.drop j ∧ i ≤ s'.2.length ∧ k' + (s'.2.length - i) = n := by
  intro k
  induction k with
  | zero => intro o s items n h1 h2 h3 h4; exact ⟨h1, h2, h3, h4⟩
  | succ k ih =>
    intro o s items n h1 h2 h3 h4
    simp only [collectNLoop]
    split
    · next _ _ _ hx =>
      split at hx
      · rcases noting_tryDecode D s o b e with ⟨r, s', h⟩ | ⟨o', s', h⟩ <;> rw [h] at hx
        · cases hx
        · simp only at hx
          rcases noting_finish D (s', s.2) with ⟨y, s'', h⟩ | ⟨r, s'', h, hr⟩ <;> rw [h] at hx
          · simp only at hx
            have := ih o' (s'', s.2 ++ [y]) (items ++ [y]) n (by simp; omega)
              (by rw [h2, List.drop_append_of_le_length h1]) (by simp; omega) (by simp; omega)
            rw [hx] at this
            exact this
          · cases r with
            | ok y => exact absurd rfl (hr y)
            | _ => cases hx
      · cases hx; exact ⟨h1, h2, h3, h4⟩
    · next _ _ _ hx =>
      split at hx
      · rcases noting_tryDecode D s o b e with ⟨r, s', h⟩ | ⟨o', s', h⟩ <;> rw [h] at hx
        · cases hx; exact ⟨h1, h2, h3, h4⟩
        · simp only at hx
          rcases noting_finish D (s', s.2) with ⟨y, s'', h⟩ | ⟨r, s'', h, hr⟩ <;> rw [h] at hx
          · simp only at hx
            have := ih o' (s'', s.2 ++ [y]) (items ++ [y]) n (by simp; omega)
              (by rw [h2, List.drop_append_of_le_length h1]) (by simp; omega) (by simp; omega)
            rw [hx] at this
            exact this
          · cases r with
            | ok y => exact absurd rfl (hr y)
            | _ => cases hx; exact ⟨h1, h2, h3, h4⟩
      · cases hx

theorem collectNRun_inv {D : Decoder σ α} {s : CollectNState (σ × List α) α} {n i j : Nat}
    (h : CollectNRun D s n i j) :
    j ≤ s.inner.2.length ∧ s.items = s.inner.2.drop j ∧ i ≤ s.inner.2.length ∧
      s.remaining + (s.inner.2.length - i) = n := by
  induction h with
  | new i n => exact ⟨Nat.le_refl _, rfl, Nat.le_refl _, rfl⟩
  | @set s n i j m _ ih => exact ⟨ih.1, ih.2.1, Nat.le_refl _, by simp [CollectNState.setRemainingItems]⟩
  | @decode s n i j b e _ ih =>
    have := collectNLoop_noting D b e j i s.remaining 0 s.inner s.items n ih.1 ih.2.1 ih.2.2.1 ih.2.2.2
    simp only [collectNDecoder]
    generalize collectNLoop (noting D) b e s.remaining 0 s.inner s.items = p at this
    cases p with
    | ret r i items k => exact this
    | done o i items k => simp only; split <;> exact this
  | @taken s s' n i j xs _ hf ih =>
    simp only [collectNDecoder] at hf
    split at hf
    · cases hf; exact ⟨Nat.le_refl _, by simp, ih.2.2.1, ih.2.2.2⟩
    · cases hf
  | @refused s s' n i j r _ hf hr ih =>
    simp only [collectNDecoder] at hf
    split at hf
    · cases hf; exact absurd rfl (hr _)
    · cases hf; exact ih

end Bytecodec
