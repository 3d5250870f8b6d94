import Verif.Lemmas.CodesIo
/-!
# Lemmas for C35: `repeat` over items some of which may have empty encodings
-/
namespace Bytecodec

open Spec

variable {σ α β : Type} {strict : Bool} {E : Encoder σ α} {P : σ → Bytes → Prop} {dom : α → Prop}
  {enc : α → Except ErrorKind Bytes}

/-- What the items to come are encoded to. -/
def flatEnc (enc : α → Except ErrorKind Bytes) (xs : List α) : Bytes := xs.flatMap fun x => bytesOf (enc x)

/-- The bytes left in a `Repeat` over any items, and the number of items left. -/
def RepAny (E : Encoder σ α) (P : σ → Bytes → Prop) (dom : α → Prop) (enc : α → Except ErrorKind Bytes)
    (s : RepeatState σ α) (bs : Bytes) (k : Nat) : Prop :=
  match s.items with
  | none => bs = [] ∧ k = 0 ∧ P s.inner [] ∧ E.isIdle s.inner = true
  | some xs => ∃ p, P s.inner p ∧ (p = [] → E.isIdle s.inner = true) ∧
      (∀ x ∈ xs, dom x ∧ ∃ b, enc x = .ok b) ∧ bs = p ++ flatEnc enc xs ∧ k = xs.length

theorem startNext_any (h : Codes strict E P dom enc) : ∀ (xs : List α) {s : σ} {p : Bytes}, P s p →
    (∀ x ∈ xs, dom x ∧ ∃ b, enc x = .ok b) →
    (∃ s', p = [] ∧ flatEnc enc xs = [] ∧ startNext E s xs = .exhausted s' ∧ P s' [] ∧ E.isIdle s' = true) ∨
    ∃ s' p' rest, startNext E s xs = .busy s' rest ∧ P s' p' ∧ E.isIdle s' = false ∧
      (∀ x ∈ rest, dom x ∧ ∃ b, enc x = .ok b) ∧ p ++ flatEnc enc xs = p' ++ flatEnc enc rest ∧
      (s' = s ∧ p' = p ∧ rest = xs ∨ rest.length < xs.length) := by
  intro xs
  induction xs with
  | nil =>
    intro s p hp _
    cases hi : E.isIdle s with
    | true =>
      have := h.idle hp hi
      subst this
      exact .inl ⟨s, rfl, rfl, by simp [startNext, hi], hp, hi⟩
    | false => exact .inr ⟨s, p, [], by simp [startNext, hi], hp, hi, by simp, rfl, .inl ⟨rfl, rfl, rfl⟩⟩
  | cons x xs ih =>
    intro s p hp hx
    cases hi : E.isIdle s with
    | false => exact .inr ⟨s, p, x :: xs, by simp [startNext, hi], hp, hi, hx, rfl, .inl ⟨rfl, rfl, rfl⟩⟩
    | true =>
      have := h.idle hp hi
      subst this
      obtain ⟨hd, b, hb⟩ := hx x (by simp)
      obtain ⟨s', h1, h2⟩ := h.startOk hp hi hd hb
      have hfl : flatEnc enc (x :: xs) = b ++ flatEnc enc xs := by simp [flatEnc, hb, bytesOf]
      have hsn : startNext E s (x :: xs) = startNext E s' xs := by simp [startNext, hi, h1]
      rw [hsn, hfl]
      rcases ih h2 (fun y hy => hx y (by simp [hy])) with ⟨t, q1, q2, q3, q4, q5⟩ | ⟨t, p', rest, q1, q2, q3, q4, q5, q6⟩
      · exact .inl ⟨t, rfl, by rw [q1, q2]; rfl, q3, q4, q5⟩
      · refine .inr ⟨t, p', rest, q1, q2, q3, q4, by rw [← q5, List.nil_append], .inr ?_⟩
        rcases q6 with ⟨_, _, rfl⟩ | q6
        · simp
        · simp only [List.length_cons]; omega

theorem repeatLoop_any (h : Codes strict E P dom enc) {cap : Nat} {e : Eos} :
    ∀ (n : Nat) (out : Bytes) (s : σ) (p : Bytes) (xs : List α), cap - out.length ≤ n → out.length ≤ cap →
    P s p → (∀ x ∈ xs, dom x ∧ ∃ b, enc x = .ok b) →
    (e.isReached = true → out.length + (p ++ flatEnc enc xs).length ≤ cap) →
    ∃ bs q k s', repeatLoop E cap e out s (some xs) = (.ok (out ++ bs), s') ∧ p ++ flatEnc enc xs = bs ++ q ∧
      RepAny E P dom enc s' q k ∧ k ≤ xs.length ∧
      (out.length < cap → (p = [] → E.isIdle s = true) → bs ≠ [] ∨ s'.items = none ∨ k < xs.length) := by
  intro n
  induction n with
  | zero =>
    intro out s p xs hn ho hp hx he
    rw [repeatLoop]
    simp only [Option.getD_some]
    rcases startNext_any h xs hp hx with ⟨s', rfl, q2, q3, q4, q5⟩ | ⟨s', p', rest, q1, q2, q3, q4, q5, q6⟩
    · exact ⟨[], [], 0, ⟨s', none⟩, by simp [q3], by simp [q2], ⟨rfl, rfl, q4, q5⟩, by omega, fun _ _ => .inr (.inl rfl)⟩
    · simp only [q1, if_neg (show ¬ cap < out.length by omega)]
      rw [q5] at he ⊢
      have h0 : cap - out.length = 0 := by omega
      obtain ⟨s'', h1, h2, h3⟩ := h.step (cap := cap - out.length) (e := e) q2
        (by intro hr; have := he hr; simp only [List.length_append] at this; omega)
      rw [h0] at h1 h2 h3
      simp only [h0, h1, List.take_zero, List.length_nil, if_true, Option.map_some]
      rw [List.drop_zero] at h2
      refine ⟨[], p' ++ flatEnc enc rest, rest.length, ⟨s'', some rest⟩, by simp, rfl, ⟨p', h2, ?_, q4, rfl, rfl⟩, ?_,
        fun h => by omega⟩
      · rintro rfl; exact h3.2 (by simp)
      · rcases q6 with ⟨_, _, rfl⟩ | q6 <;> omega
  | succ n ih =>
    intro out s p xs hn ho hp hx he
    rw [repeatLoop]
    simp only [Option.getD_some]
    rcases startNext_any h xs hp hx with ⟨s', rfl, q2, q3, q4, q5⟩ | ⟨s', p', rest, q1, q2, q3, q4, q5, q6⟩
    · exact ⟨[], [], 0, ⟨s', none⟩, by simp [q3], by simp [q2], ⟨rfl, rfl, q4, q5⟩, by omega, fun _ _ => .inr (.inl rfl)⟩
    · simp only [q1, if_neg (show ¬ cap < out.length by omega)]
      rw [q5] at he ⊢
      obtain ⟨s'', h1, h2, h3⟩ := h.step (cap := cap - out.length) (e := e) q2
        (by intro hr; have := he hr; simp only [List.length_append] at this; omega)
      have hle : rest.length ≤ xs.length := by rcases q6 with ⟨_, _, rfl⟩ | q6 <;> omega
      simp only [h1, Option.map_some]
      by_cases h0 : (p'.take (cap - out.length)).length = 0
      · rw [if_pos h0]
        have hd : p'.drop (cap - out.length) = p' := by
          have := List.take_append_drop (cap - out.length) p'
          rwa [List.length_eq_zero_iff.1 h0, List.nil_append] at this
        rw [hd] at h2
        refine ⟨[], p' ++ flatEnc enc rest, rest.length, ⟨s'', some rest⟩, by simp, rfl,
          ⟨p', h2, ?_, q4, rfl, rfl⟩, hle, fun hc hz => ?_⟩
        · rintro rfl; exact h3.2 (by simp)
        · rw [List.length_take] at h0
          have hp0 : p' = [] := List.length_eq_zero_iff.1 (by omega)
          rcases q6 with ⟨rfl, rfl, rfl⟩ | q6
          · rw [hz hp0] at q3; cases q3
          · exact .inr (.inr q6)
      · rw [if_neg h0]
        rw [List.length_take] at h0
        obtain ⟨bs, q, k, t, r1, r2, r3, r4, _⟩ := ih (out ++ p'.take (cap - out.length)) s'' (p'.drop (cap - out.length)) rest
          (by simp only [List.length_append, List.length_take]; omega)
          (by simp only [List.length_append, List.length_take]; omega) h2 q4
          (by
            intro hr
            have := he hr
            simp only [List.length_append, List.length_take, List.length_drop] at this ⊢
            omega)
        refine ⟨p'.take (cap - out.length) ++ bs, q, k, t, by rw [r1, List.append_assoc], ?_, r3, by omega, fun _ _ => .inl ?_⟩
        · rw [List.append_assoc, ← r2, ← List.append_assoc, List.take_append_drop]
        · intro h'
          have := congrArg List.length h'
          simp only [List.length_append, List.length_take, List.length_nil] at this
          omega

theorem repAny_encode (h : Codes strict E P dom enc) {s : RepeatState σ α} {w : Bytes} {k cap : Nat} {e : Eos}
    (hs : RepAny E P dom enc s w k) (he : e.isReached = true → w.length ≤ cap) :
    ∃ bs q k' s', (repeatEncoder E).encode s cap e = (.ok bs, s') ∧ w = bs ++ q ∧ RepAny E P dom enc s' q k' ∧
      (0 < cap → s'.items = none ∨ q.length + k' < w.length + k) ∧ q.length + k' ≤ w.length + k ∧
      (s.items = none → s'.items = none) := by
  obtain ⟨i, items⟩ := s
  cases items with
  | none =>
    obtain ⟨rfl, rfl, h1, h2⟩ := hs
    exact ⟨[], [], 0, ⟨i, none⟩, repeatLoop_none h h2, rfl, ⟨rfl, rfl, h1, h2⟩, fun _ => .inl rfl, by simp, id⟩
  | some xs =>
    obtain ⟨p, h1, h2, h3, rfl, rfl⟩ := hs
    obtain ⟨bs, q, k, t, r1, r2, r3, r4, r5⟩ := repeatLoop_any h (cap := cap) (e := e) cap [] i p xs (by simp) (by simp) h1 h3
      (by simpa using he)
    refine ⟨bs, q, k, t, r1, r2, r3, fun hc => ?_, ?_, fun h => (by cases h)⟩
    · rcases r5 (by simpa using hc) h2 with h' | h' | h'
      · right
        have := List.length_pos_iff.2 h'
        rw [r2, List.length_append]; omega
      · exact .inl h'
      · right; rw [r2, List.length_append]; omega
    · rw [r2, List.length_append]; omega

theorem repAny_drain (h : Codes strict E P dom enc) {s₀ s : RepeatState σ α} {w out : Bytes} {k n : Nat}
    (hs : RepAny E P dom enc s₀ w k) (hd : DrainIn (repeatEncoder E) w.length s₀ n s out) :
    ∃ q k', w = out ++ q ∧ RepAny E P dom enc s q k' ∧ (s.items = none ∨ q.length + k' + n ≤ w.length + k) := by
  induction hd with
  | new => exact ⟨w, k, rfl, hs, .inr (by omega)⟩
  | @encode n s s' out bs cap e _ he henc ih =>
    obtain ⟨q, k', h1, h2, h3⟩ := ih
    have hlen : w.length - out.length = q.length := by rw [h1, List.length_append]; omega
    obtain ⟨bs', q', k'', t, r1, r2, r3, r4, r5, r6⟩ := repAny_encode h (cap := cap) (e := e) h2 (by intro hr; have := he hr; omega)
    rw [henc] at r1
    cases r1
    refine ⟨q', k'', by rw [h1, r2, List.append_assoc], r3, ?_⟩
    rcases h3 with h3 | h3
    · exact .inl (r6 h3)
    · split
      · right; omega
      · rcases r4 (by omega) with h4 | h4
        · exact .inl h4
        · right; omega

end Bytecodec
