import Verif.Spec.PipeProgress
import Verif.Lemmas.Pipeline
import Verif.Lemmas.Relay
/-!
# Steps of a pipe that get ahead
-/
namespace Bytecodec

open Spec

variable {τ σ α : Type} {strict : Bool} {E : Encoder τ α} {sE : τ} {D : Decoder σ α} {sD : σ} {dom : α → Prop}
  {enc : α → Except ErrorKind Bytes} {wcap rcap : Nat}

/-- How far everything has got, at each stage. -/
def pipeGauge (E : Encoder τ α) (D : Decoder σ α) (p : Pipe τ σ α) (pos : Nat) (em : Bytes) : Nat :=
  em.length + (em.length - p.wbuf.len) + (pos + p.rbuf.len) + pos + 2 * p.got.length + 2 * p.sent.length +
    (D.isIdle p.dec).toNat + (E.isIdle p.enc).toNat

/-- The lengths. -/
theorem PipeInv.lengths {p : Pipe τ σ α} {pos : Nat} {em : Bytes}
    (h : PipeInv E sE D sD dom enc wcap rcap p pos em) : em.length = pos + p.rbuf.len + p.wire.length + p.wbuf.len := by
  have h1 := congrArg List.length h.bytes
  have h2 := h.bound
  rw [List.length_drop, List.length_append, List.length_append, ReadBuf.content_length h.r,
    WriteBuf.content_length h.w] at h1
  omega

theorem pipe_gauge (hE : Emits strict E sE dom enc) (hS : SafeFrom D sD) (hcap : rcap < 2 ^ 64)
    {p q : Pipe τ σ α} {pos : Nat} {em : Bytes}
    (h : PipeInv E sE D sD dom enc wcap rcap p pos em) (hst : PipeStep E D dom p q) :
    ∃ pos' em', PipeInv E sE D sD dom enc wcap rcap q pos' em' ∧
      pipeGauge E D p pos em ≤ pipeGauge E D q pos' em' ∧
      (Ahead E D p q → pipeGauge E D p pos em < pipeGauge E D q pos' em') := by
  have l := h.lengths
  cases hst with
  | @start s' x hc hi hx hs =>
    refine ⟨_, _, h.start hE hc hi hx hs, ?_⟩
    simp only [pipeGauge, hi, List.length_append, List.length_singleton, Bool.toNat_true]
    exact ⟨by omega, fun _ => by omega⟩
  | @encode s1 b1 hs =>
    obtain ⟨s', b', h1, h2, h3⟩ := h.encode hE
    rw [h1] at hs
    cases hs
    have l' := h3.lengths
    refine ⟨_, _, h3, ?_⟩
    rw [List.length_append] at l'
    simp only [pipeGauge, List.length_append]
    have hidle : (E.isIdle p.enc).toNat ≤ (E.isIdle s1).toNat := by
      cases hi : E.isIdle p.enc with
      | false => exact Nat.zero_le _
      | true =>
        have := hE.complete h.sends hi
        rw [h2.mpr (by rw [this]; omega)]
        exact Nat.le_refl _
    simp only at l'
    constructor
    · omega
    · rintro (k | k | k | k | k | ⟨k, k'⟩ | ⟨k, k'⟩)
      · exact absurd rfl k
      · simp only at k
        omega
      · exact absurd rfl k
      · exact absurd rfl k
      · exact absurd rfl k
      · simp only at k'
        simp only [k, k', Bool.toNat_true, Bool.toNat_false]
        omega
      · simp only [k] at k'
        cases k'
  | @flush ω W w w' r b' log hW hf hz =>
    have h3 := h.flush hW hf hz
    have l' := h3.lengths
    refine ⟨_, _, h3, ?_⟩
    simp only [List.length_append] at l'
    simp only [pipeGauge]
    constructor
    · omega
    · rintro (k | k | k | k | k | ⟨k, k'⟩ | ⟨k, k'⟩)
      · exact absurd rfl k
      · simp only at k
        omega
      · have : 0 < (accepted log).length := List.length_pos_iff.mpr fun h0 => k (by simp [h0])
        omega
      · exact absurd rfl k
      · exact absurd rfl k
      · simp only [k] at k'
        cases k'
      · simp only [k] at k'
        cases k'
  | close hi he =>
    refine ⟨_, _, h.close hi he, Nat.le_refl _, ?_⟩
    rintro (k | k | k | k | k | ⟨k, k'⟩ | ⟨k, k'⟩)
    · exact absurd rfl k
    · exact absurd rfl k
    · exact absurd rfl k
    · exact absurd rfl k
    · exact absurd rfl k
    · simp only [k] at k'
      cases k'
    · simp only [k] at k'
      cases k'
  | @fill ρ R r r' res b' log wire' hR hf hw hz =>
    have h3 := h.fill hR hf hw hz
    have l' := h3.lengths
    have lw := congrArg List.length hw
    refine ⟨_, _, h3, ?_⟩
    simp only [List.length_append] at l' lw
    simp only [pipeGauge]
    constructor
    · omega
    · rintro (k | k | k | k | k | ⟨k, k'⟩ | ⟨k, k'⟩)
      · exact absurd rfl k
      · exact absurd rfl k
      · have : 0 < (delivered log).length := List.length_pos_iff.mpr fun h0 => k (by rw [hw, h0]; rfl)
        omega
      · simp only at k
        omega
      · exact absurd rfl k
      · simp only [k] at k'
        cases k'
      · simp only [k] at k'
        cases k'
  | decode hi hd =>
    rcases hq : D.decode p.dec p.rbuf.content (Eos.new p.rbuf.state.isEos) with ⟨r, t⟩
    rw [decodeFromReadBuf_eq h.r, hq] at hd
    cases r with
    | ok n =>
      simp only [Res.step] at hd
      cases hd
      have h3 := (h.decode hE hS hcap hi hq).2
      have l' := h3.lengths
      refine ⟨_, _, h3, ?_⟩
      simp only at l'
      simp only [pipeGauge, hi, Bool.toNat_false]
      constructor
      · omega
      · rintro (k | k | k | k | k | ⟨k, k'⟩ | ⟨k, k'⟩)
        · exact absurd rfl k
        · exact absurd rfl k
        · exact absurd rfl k
        · simp only at k
          omega
        · exact absurd rfl k
        · simp only [k] at k'
          cases k'
        · simp only at k'
          simp only [k', Bool.toNat_true]
          omega
    | _ => simp only [Res.step] at hd; cases hd
  | finish hi hf =>
    refine ⟨_, _, h.finish hi hf, ?_⟩
    simp only [pipeGauge, hi, List.length_append, List.length_singleton, Bool.toNat_true]
    exact ⟨by omega, fun _ => by omega⟩

theorem pipe_run (hE : Emits strict E sE dom enc) (hS : SafeFrom D sD) {wstore rstore : Bytes}
    (hcap : rstore.length < 2 ^ 64) {p : Pipe τ σ α} {n : Nat}
    (h : PipeRun E D dom (.new sE sD wstore rstore) n p) :
    ∃ pos em, PipeInv E sE D sD dom enc wstore.length rstore.length p pos em ∧ n ≤ pipeGauge E D p pos em := by
  generalize hp₀ : Pipe.new sE sD wstore rstore = p₀ at h
  induction h with
  | refl =>
    obtain ⟨pos, em, h1⟩ := pipe_inv hE hS (wstore := wstore) hcap .refl
    rw [hp₀] at h1
    exact ⟨pos, em, h1, Nat.zero_le _⟩
  | ahead _ hst ha ih =>
    obtain ⟨pos, em, h1, h2⟩ := ih
    obtain ⟨pos', em', k1, _, k3⟩ := pipe_gauge hE hS hcap h1 hst
    have := k3 ha
    exact ⟨pos', em', k1, by omega⟩
  | other _ hst ih =>
    obtain ⟨pos, em, h1, h2⟩ := ih
    obtain ⟨pos', em', k1, k2, _⟩ := pipe_gauge hE hS hcap h1 hst
    exact ⟨pos', em', k1, by omega⟩

theorem not_ahead (p : Pipe τ σ α) : ¬ Ahead E D p p := by
  rintro (k | k | k | k | k | ⟨k, k'⟩ | ⟨k, k'⟩)
  · exact k rfl
  · exact k rfl
  · exact k rfl
  · exact k rfl
  · exact k rfl
  · rw [k] at k'; cases k'
  · rw [k] at k'; cases k'

/-- A run of a relay is a run of each of its pipes. -/
theorem relay_runs {τ' σ' β : Type} {E' : Encoder τ' β} {D' : Decoder σ' β} {dom' : β → Prop} {f : α → β}
    {r₀ r : Relay τ σ α τ' σ' β} {n : Nat} (h : RelayRun E D dom E' D' dom' f r₀ n r) :
    ∃ n₁ n₂, PipeRun E D dom r₀.up n₁ r.up ∧ PipeRun E' D' dom' r₀.down n₂ r.down ∧ n ≤ n₁ + n₂ := by
  induction h with
  | refl => exact ⟨0, 0, .refl, .refl, Nat.le_refl _⟩
  | ahead _ hst ha ih =>
    obtain ⟨n₁, n₂, h1, h2, h3⟩ := ih
    cases hst with
    | up hs hg =>
      rcases ha with ha | ha
      · exact ⟨n₁ + 1, n₂, .ahead h1 hs ha, h2, by omega⟩
      · exact absurd ha (not_ahead _)
    | down hs hg =>
      rcases ha with ha | ha
      · exact absurd ha (not_ahead _)
      · exact ⟨n₁, n₂ + 1, h1, .ahead h2 hs ha, by omega⟩
    | forward hi hc hi' hf hd hs =>
      exact ⟨n₁ + 1, n₂ + 1, .ahead h1 (.finish hi hf) (.inr (.inr (.inr (.inr (.inl (by simp)))))),
        .ahead h2 (.start _ hc hi' hd hs) (.inl (by simp)), by omega⟩
  | other _ hst ih =>
    obtain ⟨n₁, n₂, h1, h2, h3⟩ := ih
    cases hst with
    | up hs hg => exact ⟨n₁, n₂, .other h1 hs, h2, h3⟩
    | down hs hg => exact ⟨n₁, n₂, h1, .other h2 hs, h3⟩
    | forward hi hc hi' hf hd hs => exact ⟨n₁, n₂, .other h1 (.finish hi hf), .other h2 (.start _ hc hi' hd hs), h3⟩

/-! ## Any number of relays -/

theorem sumRange_le {g g' : Nat → Nat} (n : Nat) (h : ∀ i < n, g i ≤ g' i) :
    ((List.range n).map g).sum ≤ ((List.range n).map g').sum := by
  induction n with
  | zero => exact Nat.le_refl _
  | succ n ih =>
    have h1 := ih fun i hi => h i (by omega)
    have h2 := h n (by omega)
    simp only [List.range_succ, List.map_append, List.sum_append, List.map_singleton, List.sum_singleton]
    omega

theorem sumRange_lt {g g' : Nat → Nat} {n i : Nat} (h : ∀ j < n, g j ≤ g' j) (hi : i < n) (hlt : g i < g' i) :
    ((List.range n).map g).sum < ((List.range n).map g').sum := by
  induction n with
  | zero => omega
  | succ n ih =>
    have h2 := h n (by omega)
    simp only [List.range_succ, List.map_append, List.sum_append, List.map_singleton, List.sum_singleton]
    by_cases hin : i = n
    · subst hin
      have := sumRange_le i fun j hj => h j (by omega)
      omega
    · have := ih (fun j hj => h j (by omega)) (by omega)
      omega

section

variable {τ σ α : Nat → Type} {E : ∀ i, Encoder (τ i) (α i)} {D : ∀ i, Decoder (σ i) (α i)} {dom : ∀ i, α i → Prop}
  {f : ∀ i, α i → α (i + 1)} {n : Nat}

/-- At each place, a step of the row is a step of the pipe or none. -/
theorem chainStep_pipe {c d : Chain τ σ α} (h : ChainStep E D dom f n c d) (j : Nat) :
    d j = c j ∨ PipeStep (E j) (D j) (dom j) (c j) (d j) := by
  cases h with
  | @within i p hi hs hsent hgot =>
    by_cases h : i = j
    · subst h; rw [chainPut_self]; exact .inr hs
    · exact .inl (chainPut_other _ _ h)
  | @forward i x s t hi hidle hc hidle' hf hd hs =>
    by_cases h : i + 1 = j
    · subst h; rw [chainPut_self]; exact .inr (.start _ hc hidle' hd hs)
    · rw [chainPut_other _ _ h]
      by_cases h' : i = j
      · subst h'; rw [chainPut_self]; exact .inr (.finish hidle hf)
      · exact .inl (chainPut_other _ _ h')

theorem chain_runs {c₀ c : Chain τ σ α} {k : Nat} (h : ChainRun E D dom f n c₀ k c) :
    ∃ g : Nat → Nat, (∀ i, PipeRun (E i) (D i) (dom i) (c₀ i) (g i) (c i)) ∧ k ≤ ((List.range (n + 1)).map g).sum := by
  induction h with
  | refl => exact ⟨fun _ => 0, fun _ => .refl, Nat.zero_le _⟩
  | @ahead c d k _ hst ha ih =>
    obtain ⟨g, h1, h2⟩ := ih
    have one : ∀ i, ∃ m, PipeRun (E i) (D i) (dom i) (c₀ i) m (d i) ∧ g i ≤ m ∧
        (Ahead (E i) (D i) (c i) (d i) → g i < m) := by
      intro i
      rcases chainStep_pipe hst i with he | hs
      · rw [he]
        exact ⟨g i, h1 i, Nat.le_refl _, fun h => absurd h (not_ahead _)⟩
      · by_cases hA : Ahead (E i) (D i) (c i) (d i)
        · exact ⟨g i + 1, .ahead (h1 i) hs hA, by omega, fun _ => by omega⟩
        · exact ⟨g i, .other (h1 i) hs, Nat.le_refl _, fun h => absurd h hA⟩
    obtain ⟨g', hg'⟩ := Classical.axiomOfChoice one
    obtain ⟨i, hi, hA⟩ := ha
    have := sumRange_lt (n := n + 1) (fun j _ => (hg' j).2.1) (by omega) ((hg' i).2.2 hA)
    exact ⟨g', fun i => (hg' i).1, by omega⟩
  | @other c d k _ hst ih =>
    obtain ⟨g, h1, h2⟩ := ih
    refine ⟨g, fun i => ?_, h2⟩
    rcases chainStep_pipe hst i with he | hs
    · rw [he]; exact h1 i
    · exact .other (h1 i) hs

end

end Bytecodec
