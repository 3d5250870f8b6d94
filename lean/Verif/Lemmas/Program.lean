import Verif.Lemmas.CodesIo
import Verif.Spec.Program
import Verif.Spec.Streamable
/-!
# Reading and writing programs

The chained reader hands over the bytes of both slices in order; programs that read through `read_exact` cannot
see where the one ends and the other begins.
-/
namespace Bytecodec

open Spec

variable {α π ρ ω : Type}

/-! ## The chained reader -/

/-- std's invariant: the flag is set only when the first slice is empty. -/
def ReadChain.Inv (c : ReadChain) : Prop := c.doneFirst = true → c.first = []

/-- What is left to read. -/
def ReadChain.rest (c : ReadChain) : Bytes := c.first ++ c.second

theorem chain_read {c : ReadChain} (hc : c.Inv) (n : Nat) :
    ∃ bs c', chainReader.read c n = (.data bs, c') ∧ c'.Inv ∧ bs ++ c'.rest = c.rest ∧ bs.length ≤ n ∧
      (bs = [] → n = 0 ∨ c.rest = []) ∧ (c'.second = c.second ∨ c'.first = []) ∧
      c'.second = c.second.drop (c.second.length - c'.second.length) ∧
      c'.second.length ≤ c.second.length ∧ c'.first.length ≤ c.first.length ∧
      (c.first = [] → c'.first = []) := by
  obtain ⟨a, d, b⟩ := c
  simp only [ReadChain.Inv, ReadChain.rest] at *
  simp only [chainReader]
  split
  · next h =>
    simp only [Bool.and_eq_true, Bool.not_eq_true', Bool.or_eq_true, beq_iff_eq] at h
    refine ⟨_, _, rfl, fun hd => ?_, ?_, ?_, ?_, .inl rfl, ?_, Nat.le_refl _, ?_, ?_⟩
    · simp only at hd; rw [h.1] at hd; cases hd
    · simp only [← List.append_assoc, List.take_append_drop]
    · rw [List.length_take]; omega
    · intro he
      rcases h.2 with h2 | h2
      · exact .inl h2
      · left
        cases a with
        | nil => simp at h2
        | cons x xs => cases n with
          | zero => rfl
          | succ n => simp at he
    · simp
    · simp
    · intro h; simp [h]
  · next h =>
    have ha : a = [] := by
      cases d with
      | true => exact hc rfl
      | false =>
        cases a with
        | nil => rfl
        | cons x xs => simp at h
    subst ha
    refine ⟨_, _, rfl, fun _ => rfl, ?_, ?_, ?_, .inr rfl, ?_, ?_, Nat.le_refl _, fun _ => rfl⟩
    · simp
    · rw [List.length_take]; omega
    · intro he
      cases n with
      | zero => exact .inl rfl
      | succ n => cases b with
        | nil => exact .inr rfl
        | cons y ys => simp at he
    · simp only [List.length_drop]
      by_cases hn : n ≤ b.length
      · congr 1; omega
      · rw [List.drop_eq_nil_of_le (by omega), List.drop_eq_nil_of_le (by omega)]
    · simp

/-- What holds between the state of the chain at the beginning and later. -/
structure ReadChain.Later (c c' : ReadChain) : Prop where
  inv : c'.Inv
  only : c'.second = c.second ∨ c'.first = []
  le : c'.second.length ≤ c.second.length
  leFirst : c'.first.length ≤ c.first.length
  empty : c.first = [] → c'.first = []

theorem ReadChain.Later.refl {c : ReadChain} (h : c.Inv) : c.Later c :=
  ⟨h, .inl rfl, Nat.le_refl _, Nat.le_refl _, id⟩

theorem ReadChain.Later.trans {a b c : ReadChain} (h : a.Later b) (k : b.Later c) : a.Later c where
  inv := k.inv
  only := by
    rcases k.only with h1 | h1
    · rcases h.only with h2 | h2
      · exact .inl (h1.trans h2)
      · exact .inr (k.empty h2)
    · exact .inr h1
  le := Nat.le_trans k.le h.le
  leFirst := Nat.le_trans k.leFirst h.leFirst
  empty h' := k.empty (h.empty h')

/-- A program on the chained reader, its reads recorded. -/
theorem run_logged (P : ReadProgram π α) : ∀ p (r : ReadChain × List ReadRes) y,
    P.run (loggedReader chainReader) p r = some y → r.1.Inv →
      r.1.Later y.2.1 ∧ ∃ more, y.2.2 = r.2 ++ more ∧ delivered more ++ y.2.1.rest = r.1.rest := by
  refine ReadProgram.run.partial_correctness P (loggedReader chainReader)
    (fun p r y => r.1.Inv → r.1.Later y.2.1 ∧ ∃ more, y.2.2 = r.2 ++ more ∧ delivered more ++ y.2.1.rest = r.1.rest) ?_
  intro rec ih p r y hr hc
  split at hr
  · cases hr; exact ⟨.refl hc, [], by simp, rfl⟩
  · next n hn =>
    obtain ⟨bs, c', e1, h1, h2, h3, h4, h5, h6, h7, h8, h9⟩ := chain_read hc n
    have hL : r.1.Later c' := ⟨h1, h5, h7, h8, h9⟩
    have := ih _ _ _ hr (by simp only [loggedReader, e1]; exact h1)
    simp only [loggedReader, e1] at this
    obtain ⟨k1, more, k2, k3⟩ := this
    refine ⟨hL.trans k1, .data bs :: more, ?_, ?_⟩
    · rw [k2]; simp
    · simp only [delivered, List.flatMap_cons, ReadRes.bytes, List.append_assoc] at k3 ⊢
      rw [k3, h2]

/-- Recording does not change the run. -/
theorem run_forget (P : ReadProgram π α) (R : Reader ρ) : ∀ p r y, P.run R p r = some y →
    ∀ log, ∃ more, P.run (loggedReader R) p (r, log) = some (y.1, y.2, log ++ more) := by
  refine ReadProgram.run.partial_correctness P R
    (fun p r y => ∀ log, ∃ more, P.run (loggedReader R) p (r, log) = some (y.1, y.2, log ++ more)) ?_
  intro rec ih p r y hr log
  rw [ReadProgram.run]
  split at hr
  · cases hr; exact ⟨[], by simp⟩
  · next n hn =>
    obtain ⟨more, e⟩ := ih _ _ _ hr (log ++ [(R.read r n).1])
    exact ⟨(R.read r n).1 :: more, by simp only [loggedReader] at e ⊢; rw [e]; simp⟩

/-- Nor does forgetting. -/
theorem run_unlog (P : ReadProgram π α) {R : Reader ρ} : ∀ p r y, P.run (loggedReader R) p r = some y →
    ∃ z, P.run R p r.1 = some z := by
  refine ReadProgram.run.partial_correctness P (loggedReader R) (fun p r y => ∃ z, P.run R p r.1 = some z) ?_
  intro rec ih p r y hr
  rw [ReadProgram.run]
  split at hr
  · exact ⟨_, rfl⟩
  · exact ih _ _ _ hr

theorem run_later (P : ReadProgram π α) {p : π} {c : ReadChain} {y} (h : P.run chainReader p c = some y)
    (hc : c.Inv) : c.Later y.2 := by
  obtain ⟨more, e⟩ := run_forget P chainReader p c y h []
  exact (run_logged P p (c, []) _ e hc).1

/-! ## `read_exact` on the chained reader -/

theorem readExact_chain : ∀ (n : Nat) (c : ReadChain) (got : Bytes), c.Inv →
    (readExact chainReader n c got).1 = (nextBytes n c.rest).1.map (got ++ ·) ∧
    (readExact chainReader n c got).2.rest = (nextBytes n c.rest).2 ∧
    c.Later (readExact chainReader n c got).2 := by
  intro n
  induction n using Nat.strongRecOn with
  | ind n ih =>
    intro c got hc
    rw [readExact]
    split
    · next h0 => subst h0; simp only [nextBytes, Nat.zero_le, if_true]; exact ⟨by simp [Except.map], by simp, .refl hc⟩
    · next h0 =>
      obtain ⟨bs, c', e1, h1, h2, h3, h4, h5, h6, h7, h8, h9⟩ := chain_read hc n
      have hL : c.Later c' := ⟨h1, h5, h7, h8, h9⟩
      rw [e1]
      simp only
      have hlen : c.rest.length = bs.length + c'.rest.length := by rw [← h2, List.length_append]
      split
      · next hb =>
        have hbs : bs = [] := List.eq_nil_of_length_eq_zero hb
        have hr : c.rest = [] := (h4 hbs).resolve_left h0
        have hr' : c'.rest = [] := by rw [hbs, List.nil_append] at h2; rw [h2, hr]
        rw [hr]
        simp only [nextBytes, List.length_nil, Nat.le_zero, h0, if_false]
        exact ⟨rfl, hr', hL⟩
      · next hb =>
        obtain ⟨k1, k2, k3⟩ := ih (n - bs.length) (by omega) c' (got ++ bs) h1
        refine ⟨?_, ?_, hL.trans k3⟩
        · rw [k1]
          simp only [nextBytes]
          by_cases hn : n ≤ c.rest.length
          · rw [if_pos (by omega), if_pos hn]
            simp only [Except.map, List.append_assoc, ← h2]
            rw [List.take_append, List.take_of_length_le h3]
          · rw [if_neg (by omega), if_neg hn]; rfl
        · rw [k2]
          simp only [nextBytes]
          by_cases hn : n ≤ c.rest.length
          · rw [if_pos (by omega), if_pos hn, ← h2, List.drop_append, List.drop_eq_nil_of_le h3, List.nil_append]
          · rw [if_neg (by omega), if_neg hn]

theorem map_nil_append {ε : Type} (x : Except ε Bytes) : x.map (([] : Bytes) ++ ·) = x := by
  cases x <;> simp [Except.map]

theorem exact_eval (P : ExactProgram π α) : ∀ p c y, P.run chainReader p c = some y → c.Inv →
    eval P p c.rest = some (y.1, y.2.rest) ∧ c.Later y.2 := by
  refine ExactProgram.run.partial_correctness P chainReader
    (fun p c y => c.Inv → eval P p c.rest = some (y.1, y.2.rest) ∧ c.Later y.2) ?_
  intro rec ih p c y hr hc
  rw [eval]
  split at hr
  · next h => cases hr; rw [h]; exact ⟨rfl, .refl hc⟩
  · next n hn =>
    rw [hn]
    obtain ⟨k1, k2, k3⟩ := readExact_chain n c [] hc
    rw [map_nil_append] at k1
    obtain ⟨m1, m2⟩ := ih _ _ _ hr k3.inv
    rw [k1, k2] at m1
    exact ⟨m1, k3.trans m2⟩

theorem eval_exact (P : ExactProgram π α) : ∀ p b y, eval P p b = some y → ∀ c : ReadChain, c.Inv → c.rest = b →
    ∃ c', P.run chainReader p c = some (y.1, c') := by
  refine eval.partial_correctness P
    (fun p b y => ∀ c : ReadChain, c.Inv → c.rest = b → ∃ c', P.run chainReader p c = some (y.1, c')) ?_
  intro rec ih p b y hr c hc hb
  rw [ExactProgram.run]
  split at hr
  · next h => cases hr; rw [h]; exact ⟨c, rfl⟩
  · next n hn =>
    rw [hn]
    obtain ⟨k1, k2, k3⟩ := readExact_chain n c [] hc
    rw [map_nil_append] at k1
    obtain ⟨c', m⟩ := ih _ _ _ hr (readExact chainReader n c []).2 k3.inv (by rw [k2, hb])
    rw [hb] at k1
    exact ⟨c', by simp only [k1]; exact m⟩

theorem eval_length (P : ExactProgram π α) : ∀ p b y, eval P p b = some y → ∃ d, b = d ++ y.2 := by
  refine eval.partial_correctness P (fun p b y => ∃ d, b = d ++ y.2) ?_
  intro rec ih p b y hr
  split at hr
  · cases hr; exact ⟨[], rfl⟩
  · next n hn =>
    obtain ⟨d, e⟩ := ih _ _ _ hr
    simp only [nextBytes] at e
    split at e
    · next h => exact ⟨b.take n ++ d, by rw [List.append_assoc, ← e, List.take_append_drop]⟩
    · have : y.2 = [] := by
        have := congrArg List.length e
        simp only [List.length_nil, List.length_append] at this
        exact List.eq_nil_of_length_eq_zero (by omega)
      exact ⟨b, by rw [this, List.append_nil]⟩

/-- On the chain of `a` and `b`, a program that reads through `read_exact` does what it does on `a ++ b`. -/
theorem exact_chain (P : ExactProgram π α) (p : π) (a b : Bytes) :
    (P.run chainReader p ⟨a, false, b⟩ = none ↔ eval P p (a ++ b) = none) ∧
    ∀ res rest, eval P p (a ++ b) = some (res, rest) →
      ∃ c, P.run chainReader p ⟨a, false, b⟩ = some (res, c) ∧ c.rest = rest ∧
        (ReadChain.mk a false b).Later c := by
  have hi : (ReadChain.mk a false b).Inv := fun h => by cases h
  constructor
  · constructor
    · intro h
      cases he : eval P p (a ++ b) with
      | none => rfl
      | some y => obtain ⟨c, e⟩ := eval_exact P p _ y he ⟨a, false, b⟩ hi rfl; rw [h] at e; cases e
    · intro h
      cases he : P.run chainReader p ⟨a, false, b⟩ with
      | none => rfl
      | some y =>
        have := (exact_eval P p _ y he hi).1
        simp only [ReadChain.rest] at this
        rw [h] at this; cases this
  · intro res rest h
    obtain ⟨c, e⟩ := eval_exact P p _ _ h ⟨a, false, b⟩ hi rfl
    obtain ⟨k1, k2⟩ := exact_eval P p _ _ e hi
    simp only [ReadChain.rest] at k1
    rw [h] at k1
    simp only [Option.some.injEq, Prod.mk.injEq] at k1
    exact ⟨c, e, k1.2.symm, k2⟩

/-! ## The chained writer -/

/-- Where a text ends up that is written to a slice with `cap` bytes of room and then to a vector. -/
theorem write_logged (P : WriteProgram π) {cap : Nat} : ∀ p (w : ChainState × List (Bytes × WriteRes)) y,
    P.run (loggedWriter chainWriter) p w = some y → (w.1.room = cap - w.1.a.length ∧ w.1.a.length ≤ cap ∧
        (w.1.b ≠ [] → w.1.a.length = cap)) →
      (y.2.1.room = cap - y.2.1.a.length ∧ y.2.1.a.length ≤ cap ∧ (y.2.1.b ≠ [] → y.2.1.a.length = cap)) ∧
      ∃ more, y.2.2 = w.2 ++ more ∧ w.1.a ++ w.1.b ++ accepted more = y.2.1.a ++ y.2.1.b := by
  refine WriteProgram.run.partial_correctness P (loggedWriter chainWriter)
    (fun p w y => (w.1.room = cap - w.1.a.length ∧ w.1.a.length ≤ cap ∧ (w.1.b ≠ [] → w.1.a.length = cap)) →
      (y.2.1.room = cap - y.2.1.a.length ∧ y.2.1.a.length ≤ cap ∧ (y.2.1.b ≠ [] → y.2.1.a.length = cap)) ∧
      ∃ more, y.2.2 = w.2 ++ more ∧ w.1.a ++ w.1.b ++ accepted more = y.2.1.a ++ y.2.1.b) ?_
  intro rec ih p w y hr hw
  split at hr
  · cases hr; exact ⟨hw, [], by simp, by simp [accepted]⟩
  · next buf hb =>
    obtain ⟨⟨a, room, b⟩, log⟩ := w
    simp only at hw
    obtain ⟨w1, w2, w3⟩ := hw
    have key := ih _ _ _ hr
    simp only [loggedWriter, chainWriter] at key
    split at key
    · next h0 =>
      simp only [h0, List.take_zero, List.append_nil, Nat.sub_zero] at key
      have hfull : b ++ buf ≠ [] → a.length = cap := by
        intro h
        by_cases hbe : b = []
        · subst hbe
          simp only [List.nil_append] at h
          have : 0 < buf.length := List.length_pos_iff.2 h
          omega
        · exact w3 hbe
      obtain ⟨k1, more, k2, k3⟩ := key ⟨w1, w2, hfull⟩
      refine ⟨k1, (buf, .wrote buf.length) :: more, ?_, ?_⟩
      · rw [k2]; simp
      · rw [← k3]
        simp [accepted, taken, List.append_assoc]
    · next h0 =>
      have hb0 : b = [] := by
        by_cases hbe : b = []
        · exact hbe
        · have := w3 hbe; omega
      subst hb0
      obtain ⟨k1, more, k2, k3⟩ := key ⟨by simp only [List.length_append, List.length_take]; omega,
        by simp only [List.length_append, List.length_take]; omega, fun h => absurd rfl h⟩
      refine ⟨k1, (buf, .wrote (min buf.length room)) :: more, ?_, ?_⟩
      · rw [k2]; simp
      · rw [← k3]
        simp [accepted, taken, List.append_assoc]

/-- Recording does not change the run. -/
theorem write_forget (P : WriteProgram π) (W : Writer ω) : ∀ p w y, P.run W p w = some y →
    ∀ log, ∃ more, P.run (loggedWriter W) p (w, log) = some (y.1, y.2, log ++ more) := by
  refine WriteProgram.run.partial_correctness P W
    (fun p w y => ∀ log, ∃ more, P.run (loggedWriter W) p (w, log) = some (y.1, y.2, log ++ more)) ?_
  intro rec ih p w y hr log
  rw [WriteProgram.run]
  split at hr
  · cases hr; exact ⟨[], by simp⟩
  · next b hb =>
    obtain ⟨more, e⟩ := ih _ _ _ hr (log ++ [(b, (W.write w b).1)])
    exact ⟨(b, (W.write w b).1) :: more, by simp only [loggedWriter] at e ⊢; rw [e]; simp⟩

/-- Nor does forgetting. -/
theorem write_unlog (P : WriteProgram π) {W : Writer ω} : ∀ p w y, P.run (loggedWriter W) p w = some y →
    ∃ z, P.run W p w.1 = some z := by
  refine WriteProgram.run.partial_correctness P (loggedWriter W) (fun p w y => ∃ z, P.run W p w.1 = some z) ?_
  intro rec ih p w y hr
  rw [WriteProgram.run]
  split at hr
  · exact ⟨_, rfl⟩
  · exact ih _ _ _ hr

theorem write_text {P : WriteProgram π} {res : Res Unit} {p : π} {t : Bytes} (h : WritesText P res p t) :
    ∀ (a : Bytes) (room : Nat) (b : Bytes), (b ≠ [] → room = 0) →
      P.run chainWriter p ⟨a, room, b⟩ =
        some (res, ⟨a ++ t.take room, room - t.length, b ++ t.drop room⟩) := by
  induction h with
  | done hs =>
    intro a room b _
    rw [WriteProgram.run, hs]
    simp
  | @write p c t hs h0 hk ih0 ihk =>
    intro a room b hb
    have hw : chainWriter.write ⟨a, room, b⟩ c =
        if min c.length room = 0 then
          (.wrote c.length, ⟨a ++ c.take (min c.length room), room - min c.length room, b ++ c⟩)
        else (.wrote (min c.length room), ⟨a ++ c.take (min c.length room), room - min c.length room, b⟩) := rfl
    rw [WriteProgram.run, hs]
    simp only [hw]
    by_cases hc : c = []
    · subst hc
      have := ih0 rfl a room b hb
      simpa using this
    have hpos : 0 < c.length := List.length_pos_iff.2 hc
    split
    · next hm =>
      have hr : room = 0 := by omega
      subst hr
      have := ihk c.length hpos (Nat.le_refl _) a 0 (b ++ c) (fun _ => rfl)
      simp only [List.drop_length, List.nil_append, List.take_zero, List.append_nil, Nat.zero_sub, List.drop_zero] at this
      simp only [Nat.min_zero, List.take_zero, List.append_nil, Nat.sub_zero, List.drop_zero, Nat.zero_sub]
      rw [this]
      simp [List.append_assoc]
    · next hm =>
      have hb0 : b = [] := by
        by_cases hbe : b = []
        · exact hbe
        · have := hb hbe; omega
      subst hb0
      have := ihk (min c.length room) (by omega) (Nat.min_le_left _ _) (a ++ c.take (min c.length room))
        (room - min c.length room) [] (fun h => absurd rfl h)
      rw [this]
      simp only [Option.some.injEq, Prod.mk.injEq, ChainState.mk.injEq, true_and, List.nil_append]
      by_cases hlr : c.length ≤ room
      · rw [Nat.min_eq_left hlr]
        refine ⟨?_, ?_, ?_⟩
        · rw [List.drop_length, List.nil_append, List.take_length, List.take_append, List.take_of_length_le hlr,
            List.append_assoc]
        · simp only [List.length_append, List.drop_length, List.length_nil]; omega
        · rw [List.drop_length, List.nil_append, List.drop_append, List.drop_eq_nil_of_le hlr, List.nil_append]
      · rw [Nat.min_eq_right (by omega)]
        refine ⟨?_, ?_, ?_⟩
        · rw [Nat.sub_self, List.take_zero, List.append_nil, List.take_append_of_le_length (by omega)]
        · simp only [List.length_append, List.length_drop]; omega
        · rw [Nat.sub_self, List.drop_zero, List.drop_append_of_le_length (by omega)]

end Bytecodec
