import Verif.Lemmas.Codes
/-!
# Lawful encoders: draining an encoder, and the combinators that do
-/
namespace Bytecodec

open Spec

variable {σ α β ω : Type}

/-! ## Writers -/

/-- `sink w` is what the writer has accepted so far. -/
structure Sink (W : Writer ω) (sink : ω → Bytes) : Prop where
  wrote : ∀ {w b n w'}, W.write w b = (.wrote n, w') → n ≤ b.length ∧ sink w' = sink w ++ b.take n
  error : ∀ {w b k w'}, W.write w b = (.error k, w') → sink w' = sink w

/-- The call of `write` that made `write_all` fail with `k` and left the writer in state `w'`. -/
def FailedWrite (W : Writer ω) (k : ErrorKind) (w' : ω) : Prop :=
  ∃ w b, b ≠ [] ∧ ((∃ io, W.write w b = (.error io, w') ∧ k = ErrorKind.ofIo io) ∨
    W.write w b = (.wrote 0, w') ∧ k = .other)

theorem sink_vec : Sink vecWriter id :=
  ⟨by rintro w b n w' h; simp only [vecWriter, Prod.mk.injEq, WriteRes.wrote.injEq] at h; simp [← h.1, ← h.2],
    by rintro w b k w' h; simp [vecWriter] at h⟩

theorem vec_never_fails {k : ErrorKind} {w' : Bytes} : ¬ FailedWrite vecWriter k w' := by
  rintro ⟨w, b, hb, ⟨io, h, _⟩ | ⟨h, _⟩⟩
  · simp [vecWriter] at h
  · simp [vecWriter] at h
    exact hb h.1

theorem sink_logged {W : Writer ω} (hW : HonestWriter W) : Sink (loggedWriter W) (fun w => accepted w.2) := by
  constructor
  · rintro ⟨w, l⟩ b n w' h
    simp only [loggedWriter, Prod.mk.injEq] at h
    refine ⟨hW w b n _ (Prod.ext h.1 rfl), ?_⟩
    rw [← h.2, h.1]
    simp [accepted, taken]
  · rintro ⟨w, l⟩ b k w' h
    simp only [loggedWriter, Prod.mk.injEq] at h
    rw [← h.2, h.1]
    simp [accepted, taken]

theorem writeAll_spec {W : Writer ω} {sink : ω → Bytes} (hW : Sink W sink) (w : ω) (buf : Bytes) :
    ∃ res w', writeAll W w buf = (res, w') ∧
      (res = .ok () ∧ sink w' = sink w ++ buf ∨
        ∃ k pre, res = .err k ∧ (pre <+: buf ∧ pre ≠ buf) ∧ sink w' = sink w ++ pre ∧ FailedWrite W k w') := by
  induction w, buf using writeAll.induct W with
  | case1 w buf h =>
    rw [writeAll, if_pos h]
    simp only [List.isEmpty_iff] at h
    exact ⟨_, _, rfl, .inl ⟨rfl, by simp [h]⟩⟩
  | case2 w buf h k w' hw =>
    rw [writeAll, if_neg h, hw]
    exact ⟨_, _, rfl, .inr ⟨_, [], rfl, ⟨List.nil_prefix, fun hb => h (by rw [← hb]; rfl)⟩, by simp [hW.error hw], w, buf, by simpa using h, .inl ⟨k, hw, rfl⟩⟩⟩
  | case3 w buf h w' hw =>
    rw [writeAll, if_neg h, hw]
    have := (hW.wrote hw).2
    exact ⟨_, _, rfl, .inr ⟨_, [], rfl, ⟨List.nil_prefix, fun hb => h (by rw [← hb]; rfl)⟩, by simpa using this, w, buf, by simpa using h, .inr ⟨hw, rfl⟩⟩⟩
  | case4 w buf h n w' hw h0 hn =>
    have := (hW.wrote hw).1
    omega
  | case5 w buf h n w' hw h0 hn ih =>
    rw [writeAll, if_neg h, hw]
    simp only [if_neg h0, if_neg hn]
    obtain ⟨res, w'', h1, h2⟩ := ih
    have hs := (hW.wrote hw).2
    refine ⟨res, w'', h1, ?_⟩
    rcases h2 with ⟨hr, h2⟩ | ⟨k, pre, hr, hp, h2, h3⟩
    · left
      refine ⟨hr, ?_⟩
      rw [h2, hs, List.append_assoc, List.take_append_drop]
    · right
      refine ⟨k, buf.take n ++ pre, hr, ?_, ?_, h3⟩
      · have := List.prefix_append_right_inj (buf.take n) |>.2 hp.1
        rw [List.take_append_drop] at this
        refine ⟨this, fun he => hp.2 ?_⟩
        have he' : buf.take n ++ pre = buf.take n ++ buf.drop n := by rw [he, List.take_append_drop]
        exact List.append_cancel_left he'
      · rw [h2, hs, List.append_assoc]

/-! ## `encode_all` -/

theorem encodeAll_spec {strict : Bool} {E : Encoder σ α} {P dom enc} (h : Codes strict E P dom enc)
    {W : Writer ω} {sink : ω → Bytes} (hW : Sink W sink) :
    ∀ (n : Nat) (s : σ) (bs : Bytes) (w : ω), bs.length ≤ n → P s bs →
    ∃ res s' w', encodeAll E W s w = some (res, s', w') ∧
      (res = .ok () ∧ E.isIdle s' = true ∧ P s' [] ∧ sink w' = sink w ++ bs ∨
        ∃ k pre, res = .err k ∧ (pre <+: bs ∧ pre ≠ bs) ∧ sink w' = sink w ++ pre ∧ FailedWrite W k w') := by
  intro n
  induction n with
  | zero =>
    intro s bs w hn hp
    have hbs : bs = [] := List.length_eq_zero_iff.1 (by omega)
    subst hbs
    rw [encodeAll]
    by_cases hi : E.isIdle s = true
    · rw [if_pos hi]
      exact ⟨_, _, _, rfl, .inl ⟨rfl, hi, hp, by simp⟩⟩
    · rw [if_neg hi]
      obtain ⟨s', h1, h2, h3⟩ := h.step (cap := 1024) (e := Eos.new false) hp (by simp)
      have hi' : E.isIdle s' = true := h3.2 (by simp)
      rw [h1]
      simp only [List.take_nil, List.length_nil, Nat.not_lt_zero, if_false]
      rw [writeAll, if_pos (show (([] : Bytes).isEmpty = true) from rfl)]
      simp only [hi', Bool.not_true, Bool.false_and, Bool.false_eq_true, if_false]
      rw [encodeAll, if_pos hi']
      exact ⟨_, _, _, rfl, .inl ⟨rfl, hi', by simpa using h2, by simp⟩⟩
  | succ n ih =>
    intro s bs w hn hp
    rw [encodeAll]
    by_cases hi : E.isIdle s = true
    · rw [if_pos hi]
      have := h.idle hp hi
      subst this
      exact ⟨_, _, _, rfl, .inl ⟨rfl, hi, hp, by simp⟩⟩
    · rw [if_neg hi]
      obtain ⟨s', h1, h2, h3⟩ := h.step (cap := 1024) (e := Eos.new false) hp (by simp [Eos.new, Eos.isReached])
      rw [h1]
      simp only
      rw [if_neg (by simp; omega)]
      obtain ⟨res, w', hw, hcase⟩ := writeAll_spec hW w (bs.take 1024)
      rw [hw]
      rcases hcase with ⟨rfl, hs⟩ | ⟨k, pre, rfl, hpre, hs, hf⟩
      · simp only
        by_cases hi' : E.isIdle s' = true
        · simp only [hi', Bool.not_true, Bool.false_and, Bool.false_eq_true, if_false]
          rw [encodeAll, if_pos hi']
          have hl : bs.length ≤ 1024 := h3.1 hi'
          rw [List.drop_of_length_le hl] at h2
          rw [List.take_of_length_le hl] at hs
          exact ⟨_, _, _, rfl, .inl ⟨rfl, hi', h2, hs⟩⟩
        · have hl : ¬ bs.length ≤ 1024 := fun hl => hi' (h3.2 hl)
          have hne : (bs.take 1024).isEmpty = false := by
            rw [List.isEmpty_eq_false_iff_exists_mem]
            cases bs with
            | nil => simp at hl
            | cons x xs => exact ⟨x, by simp⟩
          simp only [hne, Bool.and_false, Bool.false_eq_true, if_false]
          obtain ⟨res, s'', w'', r1, r2⟩ := ih s' (bs.drop 1024) w' (by simp; omega) h2
          refine ⟨res, s'', w'', r1, ?_⟩
          rcases r2 with ⟨hr, q1, q2, q3⟩ | ⟨k, pre, hr, q1, q2, q3⟩
          · left
            refine ⟨hr, q1, q2, ?_⟩
            rw [q3, hs, List.append_assoc, List.take_append_drop]
          · right
            refine ⟨k, bs.take 1024 ++ pre, hr, ?_, ?_, q3⟩
            · have := List.prefix_append_right_inj (bs.take 1024) |>.2 q1.1
              rw [List.take_append_drop] at this
              refine ⟨this, fun he => q1.2 ?_⟩
              have he' : bs.take 1024 ++ pre = bs.take 1024 ++ bs.drop 1024 := by rw [he, List.take_append_drop]
              exact List.append_cancel_left he'
            · rw [q2, hs, List.append_assoc]
      · refine ⟨_, _, _, rfl, .inr ⟨k, pre, rfl, ⟨hpre.1.trans (List.take_prefix _ _), fun he => hpre.2 ?_⟩, hs, hf⟩⟩
        have hl := hpre.1.length_le
        rw [he] at hl ⊢
        rw [List.length_take] at hl
        rw [List.take_of_length_le (by omega)]

/-! ## `encode_into_bytes` -/

theorem encodeIntoBytes_ok {strict : Bool} {E : Encoder σ α} {P dom enc} (h : Codes strict E P dom enc)
    {s : σ} {x : α} {b : Bytes} (hp : P s []) (hi : E.isIdle s = true) (hd : dom x) (hx : enc x = .ok b)
    (hl : b.length < 2 ^ 63) :
    ∃ s', encodeIntoBytes E s x = (.ok b, s') ∧ P s' [] ∧ E.isIdle s' = true := by
  obtain ⟨s1, h1, h2⟩ := h.startOk hp hi hd hx
  simp only [encodeIntoBytes, h1, Res.step]
  rcases h.req h2 with hr | ⟨hr, _⟩
  · obtain ⟨s2, q1, q2, q3⟩ := h.step (cap := b.length) (e := Eos.new true) h2 (fun _ => Nat.le_refl _)
    have hi2 : E.isIdle s2 = true := q3.2 (Nat.le_refl _)
    simp only [hr, if_neg (show ¬ 2 ^ 63 ≤ b.length by omega), q1, hi2, if_true]
    refine ⟨s2, ?_, ?_, hi2⟩
    · simp
    · simpa using q2
  · simp only [hr]
    obtain ⟨res, s2, w', q1, ⟨rfl, q2, q3, q4⟩ | ⟨k, pre, _, _, _, hf⟩⟩ :=
      encodeAll_spec h sink_vec b.length s1 b [] (Nat.le_refl _) h2
    · rw [q1]
      simp only [id, List.nil_append] at q4
      subst q4
      exact ⟨s2, rfl, q3, q2⟩
    · exact absurd hf vec_never_fails

theorem encodeIntoBytes_err {strict : Bool} {E : Encoder σ α} {P dom enc} (h : Codes strict E P dom enc)
    {s : σ} {x : α} {k : ErrorKind} (hp : P s []) (hi : E.isIdle s = true) (hd : dom x)
    (hx : enc x = .error k) : (encodeIntoBytes E s x).1 = .err k := by
  have h1 := h.startErr hp hi hd hx
  rcases hq : E.start s x with ⟨r, s'⟩
  rw [hq] at h1
  simp only at h1
  subst h1
  simp only [encodeIntoBytes, hq, Res.step]

/-! ## `PreEncode` -/

/-- The bytes left in a `PreEncode`; the inner encoder rests. -/
def PreLeft (E : Encoder σ α) (P : σ → Bytes → Prop) (s : PreEncodeState σ) (bs : Bytes) : Prop :=
  BytesLeft id s.preEncoded bs ∧ P s.inner [] ∧ E.isIdle s.inner = true

theorem codes_preEncode {strict : Bool} {E : Encoder σ α} {P dom enc} (h : Codes strict E P dom enc) :
    Codes true (preEncodeEncoder E).toEncoder (PreLeft E P)
      (fun x => dom x ∧ (bytesOf (enc x)).length < 2 ^ 63) enc where
  step := by
    rintro ⟨i, p⟩ bs cap e ⟨hb, hp, hi⟩ he
    obtain ⟨p', h1, h2, h3⟩ := (codes_bytes (id : Bytes → Bytes) true).step hb he
    refine ⟨⟨i, p'⟩, ?_, ⟨h2, hp, hi⟩, h3⟩
    simp only [preEncodeEncoder, h1, Res.step]
  full := by
    rintro _ ⟨i, p⟩ bs cap e ⟨hb, hp, hi⟩ he hc
    have h1 := (codes_bytes (id : Bytes → Bytes) true).full rfl hb he hc
    simp only at h1
    rcases hq : (bytesEncoder (id : Bytes → Bytes)).encode p cap e with ⟨r, s'⟩
    rw [hq] at h1
    simp only at h1
    subst h1
    simp only [preEncodeEncoder, hq, Res.step]
  idle := fun hb hi => (codes_bytes (id : Bytes → Bytes) true).idle hb.1 hi
  startOk := by
    rintro ⟨i, p⟩ x b ⟨hb, hp, hi⟩ hidle ⟨hd, hl⟩ hx
    rw [hx] at hl
    simp only [bytesOf] at hl
    obtain ⟨i', h1, h2, h3⟩ := encodeIntoBytes_ok h hp hi hd hx hl
    obtain ⟨p', q1, q2⟩ := (codes_bytes (id : Bytes → Bytes) true).startOk (x := b) hb hidle trivial rfl
    simp only at h1
    refine ⟨⟨i', p'⟩, ?_, ⟨q2, h2, h3⟩⟩
    simp only [preEncodeEncoder, h1, q1, Res.step]
  startErr := by
    rintro ⟨i, p⟩ x k ⟨hb, hp, hi⟩ hidle ⟨hd, hl⟩ hx
    have h1 := encodeIntoBytes_err h hp hi hd hx
    simp only at h1
    rcases hq : encodeIntoBytes E i x with ⟨r, s'⟩
    rw [hq] at h1
    simp only at h1
    subst h1
    simp only [preEncodeEncoder, hq, Res.step]
  req := fun hb => (codes_bytes (id : Bytes → Bytes) true).req hb.1

theorem exact_preEncode (E : Encoder σ α) (P) : Exact (preEncodeEncoder E) (PreLeft E P) :=
  ⟨fun hb => (exact_bytes (id : Bytes → Bytes)).exact hb.1, fun hb => (exact_bytes (id : Bytes → Bytes)).fin hb.1⟩

/-! ## `Repeat` -/

/-- The bytes left in a `Repeat`: those of the item in progress, then those of the items to come. -/
def RepLeft (E : Encoder σ α) (P : σ → Bytes → Prop) (dom : α → Prop) (enc : α → Except ErrorKind Bytes)
    (s : RepeatState σ α) (bs : Bytes) : Prop :=
  match s.items with
  | none => bs = [] ∧ P s.inner [] ∧ E.isIdle s.inner = true
  | some xs => ∃ p, P s.inner p ∧ (p = [] → E.isIdle s.inner = true) ∧
      (∀ x ∈ xs, dom x ∧ ∃ b, enc x = .ok b ∧ b ≠ []) ∧
      bs = p ++ xs.flatMap fun x => bytesOf (enc x)

theorem startNext_codes {strict : Bool} {E : Encoder σ α} {P dom enc} (h : Codes strict E P dom enc)
    {s : σ} {p : Bytes} {xs : List α} (hp : P s p) (hz : p = [] → E.isIdle s = true)
    (hx : ∀ x ∈ xs, dom x ∧ ∃ b, enc x = .ok b ∧ b ≠ []) :
    (p = [] ∧ xs = [] ∧ startNext E s xs = .exhausted s) ∨
    ∃ s' p' rest, startNext E s xs = .busy s' rest ∧ P s' p' ∧ p' ≠ [] ∧
      (∀ x ∈ rest, dom x ∧ ∃ b, enc x = .ok b ∧ b ≠ []) ∧
      p ++ xs.flatMap (fun x => bytesOf (enc x)) = p' ++ rest.flatMap fun x => bytesOf (enc x) := by
  have hbusy : ∀ {s p}, P s p → p ≠ [] → E.isIdle s = false := by
    intro s p hp hne
    cases hi : E.isIdle s with
    | false => rfl
    | true => exact absurd (h.idle hp hi) hne
  by_cases hpe : p = []
  · subst hpe
    have hi := hz rfl
    cases xs with
    | nil => exact .inl ⟨rfl, rfl, by simp [startNext, hi]⟩
    | cons x xs =>
      right
      obtain ⟨hd, b, hb, hne⟩ := hx x (by simp)
      obtain ⟨s', h1, h2⟩ := h.startOk hp hi hd hb
      have hn := hbusy h2 hne
      refine ⟨s', b, xs, ?_, h2, hne, fun y hy => hx y (by simp [hy]), by simp [hb, bytesOf]⟩
      cases xs with
      | nil => simp [startNext, hi, h1, hn]
      | cons y ys => simp [startNext, hi, h1, hn]
  · right
    have hn := hbusy hp hpe
    refine ⟨s, p, xs, ?_, hp, hpe, hx, rfl⟩
    cases xs with
    | nil => simp [startNext, hn]
    | cons y ys => simp [startNext, hn]

/-- What the inner encoder does with a non-empty rest. -/
theorem codes_busy {strict : Bool} {E : Encoder σ α} {P dom enc} (h : Codes strict E P dom enc)
    {s' : σ} {p : Bytes} {cap : Nat} (h2 : P s' (p.drop cap)) (h3 : E.isIdle s' = true ↔ p.length ≤ cap) :
    p.drop cap = [] → E.isIdle s' = true := by
  intro hd
  exact h3.2 (by simpa using hd)

theorem repeatLoop_codes {strict : Bool} {E : Encoder σ α} {P dom enc} (h : Codes strict E P dom enc)
    {cap : Nat} {e : Eos} :
    ∀ (n : Nat) (out : Bytes) (s : σ) (p : Bytes) (xs : List α), cap - out.length ≤ n → out.length ≤ cap →
    P s p → (p = [] → E.isIdle s = true) → (∀ x ∈ xs, dom x ∧ ∃ b, enc x = .ok b ∧ b ≠ []) →
    (e.isReached = true → out.length + (p ++ xs.flatMap fun x => bytesOf (enc x)).length ≤ cap) →
    ∃ s', repeatLoop E cap e out s (some xs) =
        (.ok ((out ++ (p ++ xs.flatMap fun x => bytesOf (enc x))).take cap), s') ∧
      RepLeft E P dom enc s' ((out ++ (p ++ xs.flatMap fun x => bytesOf (enc x))).drop cap) ∧
      (s'.items.isNone = true ↔ out.length + (p ++ xs.flatMap fun x => bytesOf (enc x)).length ≤ cap) := by
  intro n
  induction n with
  | zero =>
    intro out s p xs hn ho hp hz hx he
    rw [repeatLoop]
    simp only [Option.getD_some]
    have hoc : out.length = cap := by omega
    rcases startNext_codes h hp hz hx with ⟨rfl, rfl, q⟩ | ⟨s', p', rest, q, hp', hne, hx', heq⟩
    · simp only [q]
      refine ⟨⟨s, none⟩, ?_, ?_, ?_⟩
      · simp [List.take_of_length_le ho]
      · simp only [RepLeft]
        refine ⟨by simp [List.drop_of_length_le ho], hp, hz rfl⟩
      · simp; omega
    · simp only [q, if_neg (show ¬ cap < out.length by omega)]
      have hpl : 0 < p'.length := List.length_pos_iff.2 hne
      rw [heq] at he ⊢
      simp only [List.length_append] at he
      obtain ⟨s'', h1, h2, h3⟩ := h.step (cap := cap - out.length) (e := e) hp' (by intro hr; have := he hr; omega)
      have h0 : cap - out.length = 0 := by omega
      rw [h0] at h1 h2 h3
      simp only [h0, h1]
      simp only [List.take_zero, List.length_nil, if_true, Option.map_some]
      simp only [List.drop_zero] at h2
      refine ⟨⟨s'', some rest⟩, ?_, ⟨p', h2, fun hp0 => absurd hp0 hne, hx', ?_⟩, ?_⟩
      · rw [← hoc]; simp
      · rw [← hoc]; simp
      · simp; omega
  | succ n ih =>
    intro out s p xs hn ho hp hz hx he
    rw [repeatLoop]
    simp only [Option.getD_some]
    rcases startNext_codes h hp hz hx with ⟨rfl, rfl, q⟩ | ⟨s', p', rest, q, hp', hne, hx', heq⟩
    · simp only [q]
      refine ⟨⟨s, none⟩, ?_, ?_, ?_⟩
      · simp [List.take_of_length_le ho]
      · simp only [RepLeft]
        refine ⟨by simp [List.drop_of_length_le ho], hp, hz rfl⟩
      · simp; omega
    · simp only [q, if_neg (show ¬ cap < out.length by omega)]
      have hpl : 0 < p'.length := List.length_pos_iff.2 hne
      rw [heq] at he ⊢
      obtain ⟨s'', h1, h2, h3⟩ := h.step (cap := cap - out.length) (e := e) hp'
        (by intro hr; have := he hr; simp only [List.length_append] at this; omega)
      simp only [h1, Option.map_some]
      by_cases h0 : cap - out.length = 0
      · have hoc : out.length = cap := by omega
        rw [h0] at h1 h2 h3
        simp only [h0, List.take_zero, List.length_nil, if_true]
        simp only [List.drop_zero] at h2
        refine ⟨⟨s'', some rest⟩, ?_, ⟨p', h2, fun hp0 => absurd hp0 hne, hx', ?_⟩, ?_⟩
        · rw [← hoc]; simp
        · rw [← hoc]; simp
        · simp; omega
      · rw [if_neg (by rw [List.length_take]; omega)]
        have key := ih (out ++ p'.take (cap - out.length)) s'' (p'.drop (cap - out.length)) rest
          (by simp only [List.length_append, List.length_take]; omega)
          (by simp only [List.length_append, List.length_take]; omega)
          h2 (codes_busy h h2 h3) hx'
          (by
            intro hr
            have := he hr
            simp only [List.length_append, List.length_take, List.length_drop] at this ⊢
            omega)
        have e1 : out ++ p'.take (cap - out.length) ++
            (p'.drop (cap - out.length) ++ rest.flatMap fun x => bytesOf (enc x)) =
            out ++ (p' ++ rest.flatMap fun x => bytesOf (enc x)) := by
          rw [List.append_assoc, ← List.append_assoc (p'.take _), List.take_append_drop]
        have e2 : (out ++ p'.take (cap - out.length)).length +
            (p'.drop (cap - out.length) ++ rest.flatMap fun x => bytesOf (enc x)).length =
            out.length + (p' ++ rest.flatMap fun x => bytesOf (enc x)).length := by
          rw [← List.length_append, e1, List.length_append]
        rw [e1, e2] at key
        exact key

theorem repeatLoop_full {E : Encoder σ α} {P dom enc} (h : Codes true E P dom enc)
    {cap : Nat} {e : Eos} (hr : e.isReached = true) :
    ∀ (n : Nat) (out : Bytes) (s : σ) (p : Bytes) (xs : List α), cap - out.length ≤ n → out.length ≤ cap →
    P s p → (p = [] → E.isIdle s = true) → (∀ x ∈ xs, dom x ∧ ∃ b, enc x = .ok b ∧ b ≠ []) →
    cap < out.length + (p ++ xs.flatMap fun x => bytesOf (enc x)).length →
    (repeatLoop E cap e out s (some xs)).1 = .err .unexpectedEos := by
  intro n
  induction n with
  | zero =>
    intro out s p xs hn ho hp hz hx hc
    rw [repeatLoop]
    simp only [Option.getD_some]
    rcases startNext_codes h hp hz hx with ⟨rfl, rfl, q⟩ | ⟨s', p', rest, q, hp', hne, hx', heq⟩
    · simp at hc; omega
    · simp only [q, if_neg (show ¬ cap < out.length by omega)]
      have hpl : 0 < p'.length := List.length_pos_iff.2 hne
      have := h.full rfl (cap := cap - out.length) hp' hr (by omega)
      rcases hq : E.encode s' (cap - out.length) e with ⟨r, s''⟩
      rw [hq] at this
      simp only at this
      subst this
      rfl
  | succ n ih =>
    intro out s p xs hn ho hp hz hx hc
    rw [repeatLoop]
    simp only [Option.getD_some]
    rcases startNext_codes h hp hz hx with ⟨rfl, rfl, q⟩ | ⟨s', p', rest, q, hp', hne, hx', heq⟩
    · simp at hc; omega
    · simp only [q, if_neg (show ¬ cap < out.length by omega)]
      have hpl : 0 < p'.length := List.length_pos_iff.2 hne
      by_cases hf : p'.length ≤ cap - out.length
      · obtain ⟨s'', h1, h2, h3⟩ := h.step (cap := cap - out.length) (e := e) hp' (fun _ => hf)
        simp only [h1, Option.map_some]
        rw [List.take_of_length_le hf, if_neg (by omega)]
        rw [heq] at hc
        simp only [List.length_append] at hc
        refine ih (out ++ p') s'' (p'.drop (cap - out.length)) rest ?_ ?_ h2 (codes_busy h h2 h3) hx' ?_
        · simp only [List.length_append]; omega
        · simp only [List.length_append]; omega
        · simp only [List.length_append, List.length_drop]; omega
      · have := h.full rfl (cap := cap - out.length) hp' hr (by omega)
        rcases hq : E.encode s' (cap - out.length) e with ⟨r, s''⟩
        rw [hq] at this
        simp only at this
        subst this
        rfl

theorem repeatLoop_none {strict : Bool} {E : Encoder σ α} {P dom enc} (_h : Codes strict E P dom enc)
    {cap : Nat} {e : Eos} {s : σ} (hi : E.isIdle s = true) :
    repeatLoop E cap e [] s none = (.ok [], ⟨s, none⟩) := by
  rw [repeatLoop]
  simp [startNext, hi]

theorem codes_repeat {strict : Bool} {E : Encoder σ α} {P dom enc} (h : Codes strict E P dom enc) :
    Codes strict (repeatEncoder E) (RepLeft E P dom enc)
      (fun xs => ∀ x ∈ xs, dom x ∧ ∃ b, enc x = .ok b ∧ b ≠ [])
      (fun xs => .ok (xs.flatMap fun x => bytesOf (enc x))) where
  step := by
    rintro ⟨i, items⟩ bs cap e hp he
    cases items with
    | none =>
      obtain ⟨rfl, h1, h2⟩ := hp
      refine ⟨⟨i, none⟩, ?_, ?_, ?_⟩
      · simp only [repeatEncoder, repeatLoop_none h h2, List.take_nil]
      · simp only [RepLeft, List.drop_nil]; exact ⟨trivial, h1, h2⟩
      · simp [repeatEncoder]
    | some xs =>
      obtain ⟨p, h1, h2, h3, rfl⟩ := hp
      have := repeatLoop_codes h (cap := cap) (e := e) cap [] i p xs (by simp) (by simp) h1 h2 h3 (by simpa using he)
      simp only [List.nil_append, List.length_nil, Nat.zero_add] at this
      exact this
  full := by
    rintro rfl ⟨i, items⟩ bs cap e hp he hc
    cases items with
    | none =>
      obtain ⟨rfl, _⟩ := hp
      simp at hc
    | some xs =>
      obtain ⟨p, h1, h2, h3, rfl⟩ := hp
      exact repeatLoop_full h he cap [] i p xs (by simp) (by simp) h1 h2 h3 (by simpa using hc)
  idle := by
    rintro ⟨i, items⟩ bs hp hi
    cases items with
    | none => exact hp.1
    | some xs => simp [repeatEncoder] at hi
  startOk := by
    rintro ⟨i, items⟩ xs b hp hi hd hx
    cases items with
    | none =>
      obtain ⟨_, h1, h2⟩ := hp
      cases hx
      exact ⟨⟨i, some xs⟩, rfl, [], h1, fun _ => h2, hd, rfl⟩
    | some xs => simp [repeatEncoder] at hi
  startErr := by
    rintro s x k _ _ _ hx
    cases hx
  req := by
    rintro ⟨i, items⟩ bs hp
    cases items with
    | none =>
      obtain ⟨rfl, _⟩ := hp
      exact .inl rfl
    | some xs => exact .inr ⟨rfl, rfl⟩

/-! ## `MonolithicEncoder` -/

theorem writeAll_chain (w : ChainState) (buf : Bytes) :
    writeAll chainWriter w buf =
      (.ok (), ⟨w.a ++ buf.take w.room, w.room - buf.length, w.b ++ buf.drop w.room⟩) := by
  by_cases hb : buf = []
  · subst hb
    rw [writeAll]
    simp
  have hl : 0 < buf.length := List.length_pos_iff.2 hb
  rw [writeAll, if_neg (by simpa using hb)]
  simp only [chainWriter]
  by_cases h0 : w.room = 0
  · simp only [h0, Nat.min_zero, if_true]
    rw [if_neg (by omega), if_neg (by omega)]
    rw [writeAll, if_pos (by simp)]
    simp
  · simp only [if_neg (show ¬ min buf.length w.room = 0 by omega)]
    rw [if_neg (by omega)]
    by_cases hc : buf.length ≤ w.room
    · rw [writeAll, if_pos (by simp; omega)]
      rw [show min buf.length w.room = buf.length by omega]
      simp [List.take_of_length_le hc, List.drop_of_length_le hc]
    · have hm : min buf.length w.room = w.room := by omega
      simp only [hm]
      have hd : 0 < (buf.drop w.room).length := by simp; omega
      rw [writeAll, if_neg (by rw [List.isEmpty_iff]; intro hn; rw [hn] at hd; simp at hd)]
      simp only [chainWriter, Nat.sub_self, Nat.min_zero, if_true]
      rw [if_neg (by omega), if_neg (by omega)]
      rw [writeAll, if_pos (by simp; omega)]
      simp
      omega

theorem serialize_chain (cs : List Bytes) (w : ChainState) :
    serialize chainWriter w cs =
      (.ok (), ⟨w.a ++ cs.flatten.take w.room, w.room - cs.flatten.length, w.b ++ cs.flatten.drop w.room⟩) := by
  induction cs generalizing w with
  | nil => simp [serialize]
  | cons c cs ih =>
    simp only [serialize, writeAll_chain, Res.step, ih]
    rw [List.flatten_cons, List.take_append, List.drop_append]
    simp
    omega

/-- The bytes left in a `MonolithicEncoder`: those of the pending item, or the rest of its buffer. -/
def MonoLeft (ser : MonolithicSerializer α) (s : MonoEncState α) (bs : Bytes) : Prop :=
  match s.item with
  | some x => BytesLeft id s.buf [] ∧ s.buf.bytes = none ∧ (ser x).2 = .ok () ∧ bs = (ser x).1.flatten
  | none => BytesLeft id s.buf bs

theorem codes_monolithic (ser : MonolithicSerializer α) :
    Codes false (monolithicEncoder ser) (MonoLeft ser) (fun x => (ser x).2 = .ok ())
      (fun x => .ok (ser x).1.flatten) where
  step := by
    rintro ⟨item, buf⟩ bs cap e hp he
    cases item with
    | none =>
      obtain ⟨b', h1, h2, h3⟩ := (codes_bytes (id : Bytes → Bytes) false).step hp he
      refine ⟨⟨none, b'⟩, ?_, h2, ?_⟩
      · simp only [monolithicEncoder, h1, Res.step]
      · simpa [monolithicEncoder] using h3
    | some x =>
      obtain ⟨h0, hn, h1, rfl⟩ := hp
      simp only at hn
      simp only [monolithicEncoder, serialize_chain, Res.step, h1, List.nil_append]
      by_cases hc : (ser x).1.flatten.length ≤ cap
      · rw [if_pos (by simpa using hc)]
        refine ⟨_, rfl, ?_, ?_⟩
        · simp only [MonoLeft]
          rw [List.drop_of_length_le hc]
          exact h0
        · simp only [Option.isNone_none, Bool.true_and]
          simp only [bytesEncoder, hn, Option.isNone_none, true_iff]
          exact hc
      · rw [if_neg (by simpa using hc)]
        simp only [bytesEncoder, hn, Option.isNone_none, if_true]
        refine ⟨_, rfl, ?_, ?_⟩
        · simp [MonoLeft, BytesLeft]
        · simp; simpa using hc
  full := nofun
  idle := by
    rintro ⟨item, buf⟩ bs hp hi
    cases item with
    | some x => simp [monolithicEncoder] at hi
    | none =>
      refine (codes_bytes (id : Bytes → Bytes) false).idle hp ?_
      simpa [monolithicEncoder] using hi
  startOk := by
    rintro ⟨item, buf⟩ x b hp hi hd hx
    cases hx
    cases item with
    | some x => simp [monolithicEncoder] at hi
    | none =>
      refine ⟨⟨some x, buf⟩, ?_, hp, ?_, hd, rfl⟩
      · simp only [monolithicEncoder] at hi ⊢
        rw [if_pos hi]
      · simpa [monolithicEncoder, bytesEncoder] using hi
  startErr := by
    rintro s x k _ _ _ hx
    cases hx
  req := by
    rintro ⟨item, buf⟩ bs hp
    cases item with
    | some x => exact .inr ⟨by simp [monolithicEncoder], by simp [monolithicEncoder]⟩
    | none =>
      left
      simp only [MonoLeft] at hp
      by_cases hi : (bytesEncoder (id : Bytes → Bytes)).isIdle buf = true
      · have := (codes_bytes (id : Bytes → Bytes) false).idle hp hi
        subst this
        simp [monolithicEncoder, hi]
      · have := (exact_bytes (id : Bytes → Bytes)).fin hp
        simp [monolithicEncoder, hi, this]

end Bytecodec
