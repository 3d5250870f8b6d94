import Verif.Spec.Relay
import Verif.Props.Pipeline
/-!
# Lemmas: a relay between two pipes
-/
namespace Bytecodec

open Spec

variable {τ σ α τ' σ' β : Type}

theorem relay_trans {E : Encoder τ α} {D : Decoder σ α} {dom : α → Prop} {E' : Encoder τ' β} {D' : Decoder σ' β}
    {dom' : β → Prop} {f : α → β} {p q r : Relay τ σ α τ' σ' β} (h1 : RelaySteps E D dom E' D' dom' f p q)
    (h2 : RelaySteps E D dom E' D' dom' f q r) : RelaySteps E D dom E' D' dom' f p r := by
  induction h2 with
  | refl => exact h1
  | step _ hst ih => exact .step ih hst

section

variable {E : Encoder τ α} {D : Decoder σ α} {dom : α → Prop} {E' : Encoder τ' β} {D' : Decoder σ' β}
  {dom' : β → Prop} {f : α → β}

/-- Each side of a relay is a pipe, and what was sent on is what was received. -/
theorem relay_pipes {r₀ r : Relay τ σ α τ' σ' β} (h : RelaySteps E D dom E' D' dom' f r₀ r)
    (h₀ : r₀.down.sent = r₀.up.got.map f) :
    PipeSteps E D dom r₀.up r.up ∧ PipeSteps E' D' dom' r₀.down r.down ∧ r.down.sent = r.up.got.map f := by
  induction h with
  | refl => exact ⟨.refl, .refl, h₀⟩
  | step _ hst ih =>
    obtain ⟨h1, h2, h3⟩ := ih
    cases hst with
    | up hs hg => exact ⟨.step h1 hs, h2, by rw [h3]; simp only [hg]⟩
    | down hs hg => exact ⟨h1, .step h2 hs, by simp only [hg]; exact h3⟩
    | forward hi hc hi' hf hd hs =>
      exact ⟨.step h1 (.finish hi hf), .step h2 (.start _ hc hi' hd hs), by simp [h3]⟩

theorem pipeStep_sent {p q : Pipe τ σ α} (h : PipeStep E D dom p q) :
    q.sent = p.sent ∨ p.sent.length < q.sent.length := by
  cases h with
  | start => exact .inr (by simp)
  | _ => exact .inl rfl

theorem pipeSteps_sent {p q : Pipe τ σ α} (h : PipeSteps E D dom p q) : p.sent.length ≤ q.sent.length := by
  induction h with
  | refl => exact Nat.le_refl _
  | step _ hst ih =>
    rcases pipeStep_sent hst with h | h
    · rw [h]; exact ih
    · omega

theorem pipeSteps_got {p q : Pipe τ σ α} (h : PipeSteps E D dom p q) : p.got <+: q.got := by
  induction h with
  | refl => exact List.prefix_refl _
  | step _ hst ih =>
    cases hst with
    | finish => exact ih.trans (List.prefix_append _ _)
    | _ => exact ih

/-- What happens after the relay without a new message can happen while the rest waits. -/
theorem relay_down {p : Pipe τ σ α} {q q' : Pipe τ' σ' β} (h : PipeSteps E' D' dom' q q')
    (hs : q'.sent.length ≤ q.sent.length) : RelaySteps E D dom E' D' dom' f ⟨p, q⟩ ⟨p, q'⟩ := by
  induction h with
  | refl => exact .refl
  | @step u v h1 hst ih =>
    have := pipeSteps_sent h1
    rcases pipeStep_sent hst with h | h
    · exact .step (ih (by rw [← h]; exact hs)) (.down (r := ⟨p, u⟩) hst h)
    · omega

variable {strict' delim' again' : Bool} {sE' : τ'} {sD' : σ'} {enc' : β → Except ErrorKind Bytes}
  {wstore' rstore' : Bytes}

/-- What can happen before the relay can happen if the relay sends on what it receives. -/
theorem relay_up (hE' : Emits strict' E' sE' dom' enc') (hS' : SafeFrom D' sD') (hcap' : rstore'.length < 2 ^ 64)
    (hw' : wstore' ≠ []) {p p' : Pipe τ σ α} (h : PipeSteps E D dom p p') {q : Pipe τ' σ' β}
    (hq : PipeSteps E' D' dom' (.new sE' sD' wstore' rstore') q) (hc : q.closed = false)
    (hf : ∀ x ∈ p'.got.drop p.got.length, dom' (f x) ∧ ∃ b, enc' (f x) = .ok b) :
    ∃ q', RelaySteps E D dom E' D' dom' f ⟨p, q⟩ ⟨p', q'⟩ ∧ PipeSteps E' D' dom' (.new sE' sD' wstore' rstore') q' ∧
      q'.closed = false ∧ q'.got = q.got ∧ q'.sent = q.sent ++ (p'.got.drop p.got.length).map f := by
  induction h with
  | refl => exact ⟨q, .refl, hq, hc, rfl, by simp⟩
  | @step u v h1 hst ih =>
    by_cases hg : v.got = u.got
    · obtain ⟨q', k1, k2, k3, k4, k5⟩ := ih (by rw [← hg]; exact hf)
      exact ⟨q', .step k1 (.up (r := ⟨u, q'⟩) hst hg), k2, k3, k4, by rw [hg]; exact k5⟩
    · cases hst with
      | @finish s' x hi hfin =>
        have hle := (pipeSteps_got h1).length_le
        simp only at hf
        rw [List.drop_append_of_le_length hle] at hf
        obtain ⟨q', k1, k2, k3, k4, k5⟩ := ih (fun y hy => hf y (by simp [hy]))
        obtain ⟨hd, b, hb⟩ := hf x (by simp)
        obtain ⟨pos, em, hI⟩ := pipe_inv hE' hS' hcap' k2
        obtain ⟨w, h2, h3, h4, h5, _, h7⟩ :=
          pipe_drain hE' hS' hcap' (List.length_pos_iff.mpr hw') _ hI (Nat.le_refl _)
        have hw := pipe_trans k2 h2
        obtain ⟨_, _, hI2⟩ := pipe_inv hE' hS' hcap' hw
        have ha := hE'.accepts hI2.sends h5 hd hb
        rcases hs : E'.start w.enc (f x) with ⟨r, t⟩
        rw [hs] at ha
        simp only at ha
        subst ha
        have hcw : w.closed = false := by rw [h7]; exact k3
        refine ⟨{ w with enc := t, sent := w.sent ++ [f x] },
          .step (relay_trans k1 (relay_down h2 (by rw [h3]; exact Nat.le_refl _)))
            (.forward (r := ⟨u, w⟩) hi hcw h5 hfin hd hs), .step hw (.start _ hcw h5 hd hs), hcw, ?_, ?_⟩
        · simp only [h4, k4]
        · simp only [h3, k5]
          rw [List.drop_append_of_le_length hle]
          simp
      | _ => exact absurd rfl hg

end

/-! ## Any number of relays -/

section

variable {τ σ α : Nat → Type}

theorem chainPut_self (c : Chain τ σ α) (i : Nat) (p : Pipe (τ i) (σ i) (α i)) : c.put i p i = p := by
  simp [Chain.put]

theorem chainPut_other (c : Chain τ σ α) {i j : Nat} (p : Pipe (τ i) (σ i) (α i)) (h : i ≠ j) : c.put i p j = c j := by
  simp [Chain.put, h]

theorem chainPut_same (c : Chain τ σ α) (i : Nat) : c.put i (c i) = c := by
  funext j
  by_cases h : i = j
  · subst h; exact chainPut_self ..
  · exact chainPut_other _ _ h

theorem chainPut_put (c : Chain τ σ α) (i : Nat) (p q : Pipe (τ i) (σ i) (α i)) : (c.put i p).put i q = c.put i q := by
  funext j
  by_cases h : i = j
  · subst h; rw [chainPut_self, chainPut_self]
  · rw [chainPut_other _ _ h, chainPut_other _ _ h, chainPut_other _ _ h]

theorem chainPut_comm (c : Chain τ σ α) {i j : Nat} (p : Pipe (τ i) (σ i) (α i)) (q : Pipe (τ j) (σ j) (α j)) (h : i ≠ j) :
    (c.put i p).put j q = (c.put j q).put i p := by
  funext k
  by_cases hi : i = k
  · subst hi
    rw [chainPut_self, chainPut_other _ _ (Ne.symm h), chainPut_self]
  · rw [chainPut_other (c.put j q) p hi]
    by_cases hj : j = k
    · subst hj; rw [chainPut_self, chainPut_self]
    · rw [chainPut_other _ _ hj, chainPut_other _ _ hj, chainPut_other _ _ hi]

variable {E : ∀ i, Encoder (τ i) (α i)} {D : ∀ i, Decoder (σ i) (α i)} {dom : ∀ i, α i → Prop}
  {f : ∀ i, α i → α (i + 1)} {n : Nat}

theorem chain_trans {b c d : Chain τ σ α} (h1 : ChainSteps E D dom f n b c) (h2 : ChainSteps E D dom f n c d) :
    ChainSteps E D dom f n b d := by
  induction h2 with
  | refl => exact h1
  | step _ hst ih => exact .step ih hst

/-- Each place of the row is a pipe, and what was sent on is what was received. -/
theorem chain_pipes {c₀ c : Chain τ σ α} (h : ChainSteps E D dom f n c₀ c)
    (h₀ : ∀ i < n, (c₀ (i + 1)).sent = (c₀ i).got.map (f i)) :
    (∀ i, PipeSteps (E i) (D i) (dom i) (c₀ i) (c i)) ∧ ∀ i < n, (c (i + 1)).sent = (c i).got.map (f i) := by
  induction h with
  | refl => exact ⟨fun _ => .refl, h₀⟩
  | @step c d _ hst ih =>
    obtain ⟨h1, h2⟩ := ih
    cases hst with
    | @within i p hi hs hsent hgot =>
      refine ⟨fun j => ?_, fun j hj => ?_⟩
      · by_cases h : i = j
        · subst h; rw [chainPut_self]; exact .step (h1 i) hs
        · rw [chainPut_other _ _ h]; exact h1 j
      · have e1 : (c.put i p (j + 1)).sent = (c (j + 1)).sent := by
          by_cases h : i = j + 1
          · subst h; rw [chainPut_self]; exact hsent (by omega)
          · rw [chainPut_other _ _ h]
        have e2 : (c.put i p j).got = (c j).got := by
          by_cases h : i = j
          · subst h; rw [chainPut_self]; exact hgot hj
          · rw [chainPut_other _ _ h]
        rw [e1, e2]
        exact h2 j hj
    | @forward i x s t hi hidle hc hidle' hf hd hs =>
      refine ⟨fun j => ?_, fun j hj => ?_⟩
      · by_cases h : i + 1 = j
        · subst h; rw [chainPut_self]; exact .step (h1 _) (.start _ hc hidle' hd hs)
        · rw [chainPut_other _ _ h]
          by_cases h' : i = j
          · subst h'; rw [chainPut_self]; exact .step (h1 i) (.finish hidle hf)
          · rw [chainPut_other _ _ h']; exact h1 j
      · by_cases h : i = j
        · subst h
          rw [chainPut_self, chainPut_other _ _ (by omega), chainPut_self]
          simp [h2 i hj]
        · have e1 : (((c.put i { c i with dec := s, got := (c i).got ++ [x] }).put (i + 1)
              { c (i + 1) with enc := t, sent := (c (i + 1)).sent ++ [f i x] }) (j + 1)) = c (j + 1) ∨ i = j + 1 := by
            by_cases h' : i = j + 1
            · exact .inr h'
            · left; rw [chainPut_other _ _ (by omega), chainPut_other _ _ h']
          have e2 : (((c.put i { c i with dec := s, got := (c i).got ++ [x] }).put (i + 1)
              { c (i + 1) with enc := t, sent := (c (i + 1)).sent ++ [f i x] }) j).got = (c j).got := by
            by_cases h' : i + 1 = j
            · subst h'; rw [chainPut_self]
            · rw [chainPut_other _ _ h', chainPut_other _ _ h]
          rw [e2, ← h2 j hj]
          rcases e1 with e1 | rfl
          · rw [e1]
          · rw [chainPut_other _ _ (by omega), chainPut_self]

/-- What can happen around one relay can happen in the row. -/
theorem chain_relay {c : Chain τ σ α} {i : Nat} (hi : i < n) {r₀ r : Relay (τ i) (σ i) (α i) (τ (i + 1)) (σ (i + 1)) (α (i + 1))}
    (h : RelaySteps (E i) (D i) (dom i) (E (i + 1)) (D (i + 1)) (dom (i + 1)) (f i) r₀ r)
    (hu : r₀.up = c i) (hd : r₀.down = c (i + 1))
    (hs : r.up.sent.length ≤ r₀.up.sent.length) (hg : r.down.got.length ≤ r₀.down.got.length) :
    ChainSteps E D dom f n c ((c.put i r.up).put (i + 1) r.down) := by
  induction h with
  | refl =>
    rw [hu, hd, chainPut_same, chainPut_same]
    exact .refl
  | @step r t h1 hst ih =>
    have hup : PipeSteps (E i) (D i) (dom i) r₀.up r.up := by
      clear ih hs hg hst
      induction h1 with
      | refl => exact .refl
      | step _ hst ih =>
        cases hst with
        | up hs _ => exact .step ih hs
        | down => exact ih
        | forward hi hc hi' hf hd hs => exact .step ih (.finish hi hf)
    have hdn : PipeSteps (E (i + 1)) (D (i + 1)) (dom (i + 1)) r₀.down r.down := by
      clear hup ih hs hg hst
      induction h1 with
      | refl => exact .refl
      | step _ hst ih =>
        cases hst with
        | up hs _ => exact ih
        | down hs _ => exact .step ih hs
        | forward hi hc hi' hf hd hs => exact .step ih (.start _ hc hi' hd hs)
    have m1 := pipeSteps_sent hup
    have m2 := (pipeSteps_got hdn).length_le
    have ci : ((c.put i r.up).put (i + 1) r.down) i = r.up := by rw [chainPut_other _ _ (by omega), chainPut_self]
    have ci' : ((c.put i r.up).put (i + 1) r.down) (i + 1) = r.down := chainPut_self ..
    cases hst with
    | @up p hst hgot =>
      rcases pipeStep_sent hst with e | e
      · have ih := ih (by rw [e] at hs; exact hs) hg
        have := ChainStep.within (E := E) (D := D) (dom := dom) (f := f) (n := n)
          (c := (c.put i r.up).put (i + 1) r.down) i (p := p) (by omega) (by rw [ci]; exact hst)
          (fun _ => by rw [ci]; exact e) (fun _ => by rw [ci]; exact hgot)
        rw [chainPut_comm _ _ _ (by omega), chainPut_put] at this
        rw [chainPut_comm _ _ _ (by omega)] at ih
        rw [chainPut_comm _ _ _ (by omega)]
        exact .step ih this
      · simp only at hs; omega
    | @down q hst hsent =>
      have hgot : q.got = r.down.got := by
        have := pipeSteps_got (.step .refl hst)
        exact (this.eq_of_length (by
          have := this.length_le
          simp only at hg
          omega)).symm
      have ih := ih hs (by rw [← hgot]; exact hg)
      have := ChainStep.within (E := E) (D := D) (dom := dom) (f := f) (n := n)
        (c := (c.put i r.up).put (i + 1) r.down) (i + 1) (p := q) (by omega) (by rw [ci']; exact hst)
        (fun _ => by rw [ci']; exact hsent) (fun _ => by rw [ci']; exact hgot)
      rw [chainPut_put] at this
      exact .step ih this
    | @forward x s t hidle hc hidle' hf hd hst =>
      have ih := ih hs hg
      have := ChainStep.forward (E := E) (D := D) (dom := dom) (f := f) (n := n)
        (c := (c.put i r.up).put (i + 1) r.down) i (x := x) (s := s) (t := t) hi (by rw [ci]; exact hidle)
        (by rw [ci']; exact hc) (by rw [ci']; exact hidle') (by rw [ci]; exact hf) hd (by rw [ci']; exact hst)
      rw [ci, ci'] at this
      rw [chainPut_comm (c.put i r.up) _ _ (by omega : i + 1 ≠ i), chainPut_put, chainPut_put] at this
      exact .step ih this

/-- What can happen in the last pipe without a new message can happen in the row. -/
theorem chain_last {c : Chain τ σ α} {p : Pipe (τ n) (σ n) (α n)} (h : PipeSteps (E n) (D n) (dom n) (c n) p)
    (hs : p.sent.length ≤ (c n).sent.length) : ChainSteps E D dom f n c (c.put n p) := by
  generalize hp : c n = p₀ at h hs
  induction h with
  | refl => rw [← hp, chainPut_same]; exact .refl
  | @step u v h1 hst ih =>
    have := pipeSteps_sent h1
    rcases pipeStep_sent hst with e | e
    · have ih := ih (by rw [← e]; exact hs)
      have st := ChainStep.within (E := E) (D := D) (dom := dom) (f := f) (n := n) (c := c.put n u) n (p := v)
        (Nat.le_refl n) (by rw [chainPut_self]; exact hst) (fun _ => by rw [chainPut_self]; exact e) (fun h => absurd h (by omega))
      rw [chainPut_put] at st
      exact .step ih st
    · omega

end

end Bytecodec
