import Verif.Spec.TrackedIo
import Verif.Lemmas.TrackedBuf
/-!
# Failures of blocking readers and writers
-/
namespace Bytecodec

variable {κ σ α ρ ω : Type}

theorem tDecodeExact_notingAll (D : TDecoder κ σ α) (R : TReader κ ρ) :
    ∀ (s : σ) (p : ρ × List (Failed κ)) (q : TRes κ α × σ × ρ × List (Failed κ)),
      tDecodeExact D R.notingAll s p = some q →
      ∃ fs, q.2.2.2 = p.2 ++ fs ∧ tDecodeExact D R s p.1 = some (q.1, q.2.1, q.2.2.1) ∧ ReportsAny fs q.1 := by
  apply tDecodeExact.partial_correctness D R.notingAll
    (motive := fun s p q => ∃ fs, q.2.2.2 = p.2 ++ fs ∧ tDecodeExact D R s p.1 = some (q.1, q.2.1, q.2.2.1) ∧
      ReportsAny fs q.1)
  intro loop ih s p q heq
  rw [tDecodeExact]
  simp only at heq ⊢
  generalize tDecodeExact.match_1 (fun _ => Nat) (D.requiring s) (fun n => min n 1024) (fun _ => 1024) (fun _ => 1) = size
    at heq ⊢
  have hrd : (if size ≠ 0 then R.notingAll.read p size else (.data [], p)) =
      ((if size ≠ 0 then R.read p.1 size else (.data [], p.1)).1, (if size ≠ 0 then R.read p.1 size else (.data [], p.1)).2,
        p.2 ++ (if size ≠ 0 then R.read p.1 size else (.data [], p.1)).1.failures) := by
    by_cases h0 : size ≠ 0
    · simp only [if_pos h0]; rfl
    · simp only [if_neg h0, TReadRes.failures, List.append_nil]
  rw [hrd] at heq
  generalize (if size ≠ 0 then R.read p.1 size else (.data [], p.1)) = a at heq
  obtain ⟨a, r'⟩ := a
  cases a with
  | error k c =>
    cases heq
    exact ⟨[(k, c)], rfl, rfl, .inr ⟨k, c, _, rfl, rfl, (Surfaces.refl _).track _⟩⟩
  | data bs =>
    simp only [TReadRes.failures, List.append_nil] at heq ⊢
    by_cases hb : 1024 < bs.length
    · rw [if_pos hb] at heq ⊢
      cases heq
      exact ⟨[], (List.append_nil _).symm, rfl, .inl rfl⟩
    · rw [if_neg hb] at heq ⊢
      generalize tracked ⟨"io.rs", 45⟩ (D.decode s bs (Eos.new (size ≠ 0 && bs.isEmpty))) = t at heq ⊢
      obtain ⟨a, s'⟩ := t
      cases a with
      | ok n =>
        simp only at heq ⊢
        by_cases hn : n ≠ bs.length
        · rw [if_pos hn] at heq ⊢
          cases heq
          exact ⟨[], (List.append_nil _).symm, rfl, .inl rfl⟩
        · rw [if_neg hn] at heq ⊢
          by_cases hi : D.isIdle s' = true
          · rw [if_pos hi] at heq ⊢
            cases heq
            exact ⟨[], (List.append_nil _).symm, rfl, .inl rfl⟩
          · rw [if_neg hi] at heq ⊢
            exact ih _ _ _ heq
      | _ => cases heq; exact ⟨[], (List.append_nil _).symm, rfl, .inl rfl⟩

theorem tWriteAll_notingAll (zero : κ) (W : TWriter κ ω) (w : ω) (l : List (Failed κ)) (b : Bytes) :
    ∃ fs, tWriteAll zero (W.notingAll zero) (w, l) b =
        ((tWriteAll zero W w b).1, (tWriteAll zero W w b).2, l ++ fs) ∧ ReportsAny fs (tWriteAll zero W w b).1 := by
  induction w, b using tWriteAll.induct (W := W) with
  | case1 w b h => exact ⟨[], by rw [tWriteAll, tWriteAll, if_pos h, if_pos h, List.append_nil], .inl rfl⟩
  | case2 w b h k c w' hw =>
    have e : tWriteAll zero W w b = (.err (.ofIo k c), w') := by rw [tWriteAll, if_neg h, hw]
    rw [e]
    refine ⟨[(k, c)], ?_, .inr ⟨k, c, _, rfl, rfl, Surfaces.refl _⟩⟩
    rw [tWriteAll, if_neg h]
    simp only [TWriter.notingAll, hw]; rfl
  | case3 w b h w' hw =>
    have e : tWriteAll zero W w b = (.err (.ofIo .other zero), w') := by rw [tWriteAll, if_neg h, hw]; rfl
    rw [e]
    refine ⟨[(.other, zero)], ?_, .inr ⟨.other, zero, _, rfl, rfl, Surfaces.refl _⟩⟩
    rw [tWriteAll, if_neg h]
    simp only [TWriter.notingAll, hw]; rfl
  | case4 w b h n w' hw h1 h2 =>
    have e : tWriteAll zero W w b = (.panic, w') := by
      rw [tWriteAll, if_neg h, hw]; simp only [if_neg h1, if_pos h2]
    rw [e]
    refine ⟨[], ?_, .inl rfl⟩
    rw [tWriteAll, if_neg h]
    simp only [TWriter.notingAll, hw, TWriteRes.failuresOr, if_neg h1, if_pos h2]
  | case5 w b h n w' hw h1 h2 ih =>
    have e : tWriteAll zero W w b = tWriteAll zero W w' (b.drop n) := by
      conv => lhs; rw [tWriteAll]
      rw [if_neg h, hw]; simp only [if_neg h1, if_neg h2]
    rw [e]
    obtain ⟨fs, i1, i2⟩ := ih
    refine ⟨fs, ?_, i2⟩
    rw [tWriteAll, if_neg h]
    have e2 : (W.notingAll zero).write (w, l) b = (.wrote n, w', l) := by
      simp only [TWriter.notingAll, hw, TWriteRes.failuresOr, if_neg h1, List.append_nil]
    rw [e2]
    simp only [if_neg h1, if_neg h2]
    exact i1

theorem tEncodeAll_notingAll (zero : κ) (E : TEncoder κ σ α) (W : TWriter κ ω) :
    ∀ (s : σ) (p : ω × List (Failed κ)) (q : TRes κ Unit × σ × ω × List (Failed κ)),
      tEncodeAll zero E (W.notingAll zero) s p = some q →
      ∃ fs, q.2.2.2 = p.2 ++ fs ∧ tEncodeAll zero E W s p.1 = some (q.1, q.2.1, q.2.2.1) ∧ ReportsAny fs q.1 := by
  apply tEncodeAll.partial_correctness zero E (W.notingAll zero)
    (motive := fun s p q => ∃ fs, q.2.2.2 = p.2 ++ fs ∧ tEncodeAll zero E W s p.1 = some (q.1, q.2.1, q.2.2.1) ∧
      ReportsAny fs q.1)
  intro loop ih s p q heq
  rw [tEncodeAll]
  by_cases hi : E.isIdle s = true
  · rw [if_pos hi] at heq ⊢
    cases heq
    exact ⟨[], (List.append_nil _).symm, rfl, .inl rfl⟩
  · rw [if_neg hi] at heq ⊢
    generalize tracked ⟨"io.rs", 98⟩ (E.encode s 1024 (Eos.new false)) = t at heq ⊢
    obtain ⟨a, s'⟩ := t
    cases a with
    | ok bs =>
      simp only at heq ⊢
      by_cases hb : 1024 < bs.length
      · rw [if_pos hb] at heq ⊢
        cases heq
        exact ⟨[], (List.append_nil _).symm, rfl, .inl rfl⟩
      · rw [if_neg hb] at heq ⊢
        obtain ⟨w, l⟩ := p
        obtain ⟨fs, e1, e2⟩ := tWriteAll_notingAll zero W w l bs
        rw [e1] at heq
        rcases hw : tWriteAll zero W w bs with ⟨r, w'⟩
        rw [hw] at heq e2
        cases r with
        | ok u =>
          have hfs : fs = [] := by
            rcases e2 with h | ⟨k, c, x, _, h, _⟩
            · exact h
            · cases h
          subst hfs
          simp only [tracked, List.append_nil] at heq ⊢
          split at heq
          · rename_i hc
            cases heq
            rw [if_pos hc]
            exact ⟨[], (List.append_nil _).symm, rfl, .inl rfl⟩
          · rename_i hc
            rw [if_neg hc]
            exact ih _ _ _ heq
        | err x =>
          cases heq
          refine ⟨fs, rfl, rfl, ?_⟩
          rcases e2 with h | ⟨k, c, x, h, hx, hs⟩
          · exact .inl h
          · cases hx; exact .inr ⟨k, c, _, h, rfl, hs.track _⟩
        | _ =>
          cases heq
          refine ⟨fs, rfl, rfl, ?_⟩
          rcases e2 with h | ⟨k, c, x, h, hx, hs⟩
          · exact .inl h
          · cases hx
    | _ => cases heq; exact ⟨[], (List.append_nil _).symm, rfl, .inl rfl⟩

end Bytecodec
