import Verif.Lemmas.Writes
/-!
# Encoders for a single item: `Length`, `Last`, and items that are too long for `MaxBytes`
-/
namespace Bytecodec

open Spec

variable {σ α β : Type}

/-! ## `Length` -/

theorem length_encode_exact {strict : Bool} {E : Encoder σ α} {P dom enc} (h : Codes strict E P dom enc)
    {i : σ} {rest : Bytes} {x cap : Nat} {e : Eos} (hp : P i rest)
    (he : e.isReached = true → rest.length ≤ cap) :
    ∃ i', (lengthEncoder E).encode ⟨i, x, rest.length⟩ cap e =
        (.ok (rest.take cap), ⟨i', x, (rest.drop cap).length⟩) ∧ P i' (rest.drop cap) := by
  simp only [lengthEncoder]
  rw [if_neg (by rintro ⟨h1, h2⟩; have := he h2; omega)]
  by_cases hc : cap < rest.length
  · simp only [if_pos hc]
    obtain ⟨i', h1, h2, h3⟩ := h.step (cap := cap) (e := e) hp he
    simp only [h1, Res.step, List.length_take, List.length_drop]
    rw [if_neg (by omega), if_neg (by rw [h3]; omega)]
    refine ⟨i', ?_, h2⟩
    rw [show min cap rest.length = cap by omega]
  · simp only [if_neg hc]
    obtain ⟨i', h1, h2, h3⟩ := h.step (cap := rest.length) (e := Eos.new true) hp (fun _ => Nat.le_refl _)
    simp only [h1, Res.step, List.length_take, List.length_drop]
    rw [if_neg (by omega), if_neg (by simp)]
    rw [List.take_of_length_le (Nat.le_refl _), List.take_of_length_le (by omega), List.drop_of_length_le (by omega)]
    rw [List.drop_of_length_le (Nat.le_refl _)] at h2
    refine ⟨i', ?_, h2⟩
    simp
    omega

theorem length_encode_long {strict : Bool} {E : Encoder σ α} {P dom enc} (h : Codes strict E P dom enc)
    {i : σ} {rest : Bytes} {x r cap : Nat} {e : Eos} (hp : P i rest) (hr : r < rest.length) :
    (cap < r → e.isReached = false → ∃ i', (lengthEncoder E).encode ⟨i, x, r⟩ cap e =
        (.ok (rest.take cap), ⟨i', x, r - cap⟩) ∧ P i' (rest.drop cap)) ∧
    (strict = true → r ≤ cap → ((lengthEncoder E).encode ⟨i, x, r⟩ cap e).1 = .err .unexpectedEos) := by
  simp only [lengthEncoder]
  constructor
  · intro hc he
    rw [if_neg (by simp [he])]
    simp only [if_pos hc]
    obtain ⟨i', h1, h2, h3⟩ := h.step (cap := cap) (e := e) hp (by simp [he])
    simp only [h1, Res.step, List.length_take]
    rw [if_neg (by omega), if_neg (by rw [h3]; omega)]
    refine ⟨i', ?_, h2⟩
    rw [show min cap rest.length = cap by omega]
  · intro hs hc
    rw [if_neg (by omega)]
    simp only [if_neg (show ¬ cap < r by omega)]
    have := h.full hs (cap := r) (e := Eos.new true) hp rfl (by omega)
    rcases hq : E.encode i r (Eos.new true) with ⟨q, s'⟩
    rw [hq] at this
    simp only at this
    subst this
    rfl

theorem length_encode_short {strict : Bool} {E : Encoder σ α} {P dom enc} (h : Codes strict E P dom enc)
    {i : σ} {rest : Bytes} {x r cap : Nat} {e : Eos} (hp : P i rest) (hr : rest.length < r)
    (he : e.isReached = true → r ≤ cap) :
    (cap < rest.length → ∃ i', (lengthEncoder E).encode ⟨i, x, r⟩ cap e =
        (.ok (rest.take cap), ⟨i', x, r - cap⟩) ∧ P i' (rest.drop cap)) ∧
    (rest.length ≤ cap → ((lengthEncoder E).encode ⟨i, x, r⟩ cap e).1 = .err .invalidInput) := by
  simp only [lengthEncoder]
  rw [if_neg (by rintro ⟨h1, h2⟩; have := he h2; omega)]
  constructor
  · intro hc
    simp only [if_pos (show cap < r by omega)]
    obtain ⟨i', h1, h2, h3⟩ := h.step (cap := cap) (e := e) hp (by intro hr'; have := he hr'; omega)
    simp only [h1, Res.step, List.length_take]
    rw [if_neg (by omega), if_neg (by rw [h3]; omega)]
    refine ⟨i', ?_, h2⟩
    rw [show min cap rest.length = cap by omega]
  · intro hc
    obtain ⟨i', h1, h2, h3⟩ := h.step (cap := if cap < r then cap else r)
      (e := if cap < r then e else Eos.new true) hp (by split <;> intro _ <;> omega)
    simp only [h1, Res.step, List.length_take]
    rw [if_neg (by split <;> omega), if_pos ⟨h3.2 (by split <;> omega), by split <;> omega⟩]

theorem length_drain_exact {strict : Bool} {E : Encoder σ α} {P dom enc} (h : Codes strict E P dom enc)
    {i : σ} {b : Bytes} {x : Nat} (hp : P i b) {s : LengthState σ} {out : Bytes}
    (hd : Drain (lengthEncoder E).toEncoder b.length ⟨i, x, b.length⟩ s out) :
    ∃ rest, b = out ++ rest ∧ P s.inner rest ∧ s.remaining = rest.length ∧ s.expected = x := by
  induction hd with
  | new => exact ⟨b, rfl, hp, rfl, rfl⟩
  | @encode s s' out bs cap e _ he hs ih =>
    obtain ⟨rest, rfl, h1, h2, h3⟩ := ih
    obtain ⟨si, sx, sr⟩ := s
    simp only at h1 h2 h3
    subst h2 h3
    obtain ⟨i', q1, q2⟩ := length_encode_exact (x := sx) h (cap := cap) (e := e) h1 (by simpa using he)
    rw [q1] at hs
    cases hs
    exact ⟨rest.drop cap, by rw [List.append_assoc, List.take_append_drop], q2, rfl, rfl⟩

theorem length_drain_long {E : Encoder σ α} {P dom enc} (h : Codes true E P dom enc)
    {i : σ} {b : Bytes} {x n : Nat} (hp : P i b) (hn : n < b.length) {s : LengthState σ} {out : Bytes}
    (hd : Drain (lengthEncoder E).toEncoder n ⟨i, x, n⟩ s out) :
    ∃ rest, b = out ++ rest ∧ P s.inner rest ∧ s.remaining + out.length = n ∧ s.expected = x ∧
      (out = [] ∨ 0 < s.remaining) := by
  induction hd with
  | new => exact ⟨b, rfl, hp, rfl, rfl, .inl rfl⟩
  | @encode s s' out bs cap e _ he hs ih =>
    obtain ⟨rest, rfl, h1, h2, h3, h4⟩ := ih
    obtain ⟨si, sx, sr⟩ := s
    simp only [List.length_append] at h1 h2 h3 hn
    subst h3
    obtain ⟨q1, q2⟩ := length_encode_long (x := sx) (r := sr) h (cap := cap) (e := e) h1 (by omega)
    by_cases hc : sr ≤ cap
    · have := q2 rfl hc
      rw [hs] at this
      cases this
    · have hr : e.isReached = false := by
        cases hr : e.isReached with
        | false => rfl
        | true => have := he hr; omega
      obtain ⟨i', q3, q4⟩ := q1 (by omega) hr
      rw [q3] at hs
      cases hs
      refine ⟨rest.drop cap, by rw [List.append_assoc, List.take_append_drop], q4, ?_, rfl, ?_⟩
      · simp only [List.length_append, List.length_take]; omega
      · right; show 0 < sr - cap; omega

theorem length_drain_short {strict : Bool} {E : Encoder σ α} {P dom enc} (h : Codes strict E P dom enc)
    {i : σ} {b : Bytes} {x n : Nat} (hp : P i b) (hn : b.length < n) {s : LengthState σ} {out : Bytes}
    (hd : Drain (lengthEncoder E).toEncoder n ⟨i, x, n⟩ s out) :
    ∃ rest, b = out ++ rest ∧ P s.inner rest ∧ s.remaining + out.length = n ∧ s.expected = x ∧
      (out = [] ∨ rest ≠ []) := by
  induction hd with
  | new => exact ⟨b, rfl, hp, rfl, rfl, .inl rfl⟩
  | @encode s s' out bs cap e _ he hs ih =>
    obtain ⟨rest, rfl, h1, h2, h3, h4⟩ := ih
    obtain ⟨si, sx, sr⟩ := s
    simp only [List.length_append] at h1 h2 h3 hn
    subst h3
    obtain ⟨q1, q2⟩ := length_encode_short (x := sx) (r := sr) h (cap := cap) (e := e) h1 (by omega)
      (by intro hr; have := he hr; omega)
    by_cases hc : rest.length ≤ cap
    · have := q2 hc
      rw [hs] at this
      cases this
    · obtain ⟨i', q3, q4⟩ := q1 (by omega)
      rw [q3] at hs
      cases hs
      refine ⟨rest.drop cap, by rw [List.append_assoc, List.take_append_drop], q4, ?_, rfl, .inr ?_⟩
      · simp only [List.length_append, List.length_take]; omega
      · intro hnil
        have := congrArg List.length hnil
        simp at this
        omega

/-! ## `MaxBytes` and an item that is too long -/

theorem max_encode_long {strict : Bool} {E : Encoder σ α} {P dom enc} (h : Codes strict E P dom enc)
    {i : σ} {rest : Bytes} {c m cap : Nat} {e : Eos} (hp : P i rest) (hl : m < c + rest.length)
    (he : e.isReached = true → rest.length ≤ cap) :
    (c + cap ≤ m → ∃ i', (maxBytesEncoder E).encode ⟨i, c, m⟩ cap e =
        (.ok (rest.take cap), ⟨i', c + cap, m⟩) ∧ P i' (rest.drop cap)) ∧
    (m < c + cap → ((maxBytesEncoder E).encode ⟨i, c, m⟩ cap e).1 = .err .invalidInput) := by
  obtain ⟨i', h1, h2, h3⟩ := h.step (cap := cap) (e := e) hp he
  simp only [maxBytesEncoder, h1, Res.step, List.length_take]
  constructor
  · intro hc
    rw [if_neg (by omega), if_neg (by rw [h3]; omega)]
    refine ⟨i', ?_, h2⟩
    rw [show min cap rest.length = cap by omega]
  · intro hc
    rw [if_pos (by omega)]

theorem max_drain_long {strict : Bool} {E : Encoder σ α} {P dom enc} (h : Codes strict E P dom enc)
    {i : σ} {b : Bytes} {m : Nat} (hp : P i b) (hm : m < b.length) {s : MaxBytesState σ} {out : Bytes}
    (hd : Drain (maxBytesEncoder E) b.length ⟨i, 0, m⟩ s out) :
    ∃ rest, b = out ++ rest ∧ P s.inner rest ∧ s.consumed = out.length ∧ s.max = m ∧ out.length ≤ m := by
  induction hd with
  | new => exact ⟨b, rfl, hp, rfl, rfl, Nat.zero_le _⟩
  | @encode s s' out bs cap e _ he hs ih =>
    obtain ⟨rest, rfl, h1, h2, h3, h4⟩ := ih
    obtain ⟨si, sc, sm⟩ := s
    simp only [List.length_append] at h1 h2 h3 hm
    subst h2 h3
    obtain ⟨q1, q2⟩ := max_encode_long h (cap := cap) (e := e) h1 hm (by simpa using he)
    by_cases hc : out.length + cap ≤ sm
    · obtain ⟨i', q3, q4⟩ := q1 hc
      rw [q3] at hs
      cases hs
      refine ⟨rest.drop cap, by rw [List.append_assoc, List.take_append_drop], q4, ?_, rfl, ?_⟩
      · simp only [List.length_append, List.length_take]; omega
      · simp only [List.length_append, List.length_take]; omega
    · have := q2 (by omega)
      rw [hs] at this
      cases this

/-! ## `Last` -/

/-- The bytes a `Last` still has to emit: those of the inner encoder, then those of the last item. -/
def LastLeft (E : Encoder σ α) (P : σ → Bytes → Prop) (dom : α → Prop) (enc : α → Except ErrorKind Bytes)
    (s : LastState σ α) (bs : Bytes) : Prop :=
  match s.item with
  | none => P s.inner bs
  | some x => ∃ p b, P s.inner p ∧ (p = [] → E.isIdle s.inner = true) ∧ dom x ∧ enc x = .ok b ∧ bs = p ++ b

theorem last_encode {strict : Bool} {E : Encoder σ α} {P dom enc} (h : Codes strict E P dom enc)
    {s : LastState σ α} {rest : Bytes} {cap : Nat} {e : Eos} (hp : LastLeft E P dom enc s rest)
    (he : e.isReached = true → rest.length ≤ cap) :
    ∃ bs rest' s', (lastEncoder E).encode s cap e = (.ok bs, s') ∧ rest = bs ++ rest' ∧ bs.length ≤ cap ∧
      LastLeft E P dom enc s' rest' ∧
      (0 < cap → (lastEncoder E).isIdle s = false → bs ≠ [] ∨ (lastEncoder E).isIdle s' = true) := by
  obtain ⟨i, item⟩ := s
  cases item with
  | none =>
    simp only [LastLeft] at hp
    obtain ⟨i', h1, h2, h3⟩ := h.step (cap := cap) (e := e) hp he
    refine ⟨rest.take cap, rest.drop cap, ⟨i', none⟩, ?_, (List.take_append_drop _ _).symm, ?_, h2, ?_⟩
    · simp only [lastEncoder, h1, Res.step]
      split <;> rfl
    · simp; omega
    · intro hc _
      by_cases hl : rest.length ≤ cap
      · right; simp [lastEncoder, h3.2 hl]
      · left
        intro hn
        have := congrArg List.length hn
        rw [List.length_take, List.length_nil] at this
        omega
  | some x =>
    obtain ⟨p, b, h1, h2, h3, h4, rfl⟩ := hp
    simp only at h1 h2
    by_cases hi : E.isIdle i = true
    · have := h.idle h1 hi
      subst this
      obtain ⟨i1, q1, q2⟩ := h.startOk h1 hi h3 h4
      obtain ⟨i', q3, q4, q5⟩ := h.step (cap := cap) (e := e) q2 (by simpa using he)
      refine ⟨b.take cap, b.drop cap, ⟨i', none⟩, ?_, by simp, by simp; omega, q4, ?_⟩
      · simp only [lastEncoder, hi, if_true, q1, Res.step, q3]
      · intro hc _
        by_cases hl : b.length ≤ cap
        · right; simp [lastEncoder, q5.2 hl]
        · left
          intro hn
          have := congrArg List.length hn
          rw [List.length_take, List.length_nil] at this
          omega
    · have hpne : p ≠ [] := fun hn => hi (h2 hn)
      obtain ⟨i', q3, q4, q5⟩ := h.step (cap := cap) (e := e) h1
        (by intro hr; have := he hr; simp only [List.length_append] at this; omega)
      refine ⟨p.take cap, p.drop cap ++ b, ⟨i', some x⟩, ?_, ?_, by simp; omega, ?_, ?_⟩
      · simp only [lastEncoder, if_neg hi, q3, Res.step]
      · rw [← List.append_assoc, List.take_append_drop]
      · exact ⟨p.drop cap, b, q4, codes_busy h q4 q5, h3, h4, rfl⟩
      · intro hc _
        left
        intro hn
        have := congrArg List.length hn
        have hpl : 0 < p.length := List.length_pos_iff.2 hpne
        rw [List.length_take, List.length_nil] at this
        omega

theorem last_idle {strict : Bool} {E : Encoder σ α} {P dom enc} (h : Codes strict E P dom enc)
    {s : LastState σ α} {rest : Bytes} (hp : LastLeft E P dom enc s rest)
    (hi : (lastEncoder E).isIdle s = true) : rest = [] := by
  obtain ⟨i, item⟩ := s
  cases item with
  | none => exact h.idle hp (by simpa [lastEncoder] using hi)
  | some x => simp [lastEncoder] at hi

theorem last_drain {strict : Bool} {E : Encoder σ α} {P dom enc} (h : Codes strict E P dom enc)
    {s₀ s : LastState σ α} {total out : Bytes} (hp : LastLeft E P dom enc s₀ total)
    (hd : Drain (lastEncoder E) total.length s₀ s out) :
    ∃ rest, total = out ++ rest ∧ LastLeft E P dom enc s rest := by
  induction hd with
  | new => exact ⟨total, rfl, hp⟩
  | @encode s s' out bs cap e _ he hs ih =>
    obtain ⟨rest, rfl, h1⟩ := ih
    obtain ⟨bs', rest', s'', q1, rfl, _, q3, _⟩ := last_encode h (cap := cap) (e := e) h1 (by simpa using he)
    rw [q1] at hs
    cases hs
    exact ⟨rest', by simp, q3⟩

end Bytecodec
