import Verif.Lemmas.Bytewise
import Verif.Lemmas.Writes
import Verif.Lemmas.Requiring
import Verif.Lemmas.Demand
/-!
# Lemmas for C72: decoders and encoders of the user's own
-/
namespace Bytecodec

open Spec

variable {σ α : Type} {p : Bool} {D : Decoder σ α} {I : σ → Prop}

/-- A call on a decoder that reads byte by byte and says what it needs. -/
theorem asks_call {w : Bool} (h : Bytewise true D I) (ha : Asks w D I) : ∀ (b : Bytes) (e : Eos) {s n t}, I s →
    D.isIdle s = false → D.decode s b e = (.ok n, t) → ∃ k, D.requiring s = .finite k ∧
      (D.isIdle t = true → k ≤ n) ∧
      (D.isIdle t = false → ∃ k', D.requiring t = .finite k' ∧ k ≤ n + k') := by
  intro b
  induction b with
  | nil =>
    intro e s n t hI hi hd
    obtain ⟨k, hk, _⟩ := ha.busy hI hi
    cases he : e.isReached with
    | true =>
      rcases h.last hI hi he with ⟨_, _, h'⟩ | ⟨h', _⟩
      · rw [h'] at hd; cases hd
      · cases h'
    | false =>
      rw [h.more hI hi he] at hd
      cases hd
      exact ⟨_, hk, (by rw [hi]; intro h'; cases h'), fun _ => ⟨_, hk, by omega⟩⟩
  | cons c b ih =>
    intro e s n t hI hi hd
    obtain ⟨k, hk, hnext⟩ := ha.busy hI hi
    rw [h.cons hI hi] at hd
    have hI' := h.staysByte (c := c) hI hi
    rcases h.byte (c := c) hI hi with ⟨u, hu⟩ | ⟨k', u, hu⟩
    · rw [hu] at hd hI'
      simp only [thenDecode] at hd
      obtain ⟨h1, h2⟩ := hnext c u hu
      split at hd
      · next hiu =>
        cases hd
        have := h1 hiu
        subst this
        exact ⟨_, hk, fun _ => by omega, fun h' => by rw [hiu] at h'; cases h'⟩
      · next hiu =>
        have hiu : D.isIdle u = false := by simpa using hiu
        obtain ⟨k1, hk1, hle⟩ := h2 hiu
        rcases hr : D.decode u b e with ⟨r, v⟩
        rw [hr] at hd
        cases r <;> simp only at hd <;> cases hd
        obtain ⟨k2, hk2, h3, h4⟩ := ih e hI' hiu hr
        rw [hk1] at hk2
        cases hk2
        refine ⟨_, hk, fun hv => ?_, fun hv => ?_⟩
        · have := h3 hv; omega
        · obtain ⟨k', a, b⟩ := h4 hv
          exact ⟨k', a, by omega⟩
    · rw [hu] at hd
      simp only [thenDecode] at hd
      cases hd

theorem asks_calls {w : Bool} (h : Bytewise true D I) (ha : Asks w D I) {s t : σ} {n : Nat} {q : Bool}
    (hI : I s) (hc : Calls D s n q t) :
    I t ∧ ∃ k, D.requiring s = .finite k ∧ ∃ k', D.requiring t = .finite k' ∧ k ≤ n + k' ∧
      (D.isIdle t = true → k' = 0) := by
  induction hc with
  | nil s =>
    refine ⟨hI, ?_⟩
    cases hi : D.isIdle s with
    | true => exact ⟨0, ha.done hI hi, 0, ha.done hI hi, by omega, fun _ => rfl⟩
    | false =>
      obtain ⟨k, hk, _⟩ := ha.busy hI hi
      exact ⟨_, hk, _, hk, by omega, fun h => by cases h⟩
  | @cons s u v n m q b e hd _ ih =>
    have hIu : I u := by have := h.stays hI b e; rw [hd] at this; exact this
    obtain ⟨hIv, k, hk, k', hk', hle, h0⟩ := ih hIu
    refine ⟨hIv, ?_⟩
    cases hi : D.isIdle s with
    | true =>
      rw [h.idle hI hi] at hd
      cases hd
      exact ⟨k, hk, k', hk', by omega, h0⟩
    | false =>
      obtain ⟨k1, hk1, h1, h2⟩ := asks_call h ha b e hI hi hd
      cases hiu : D.isIdle u with
      | true =>
        rw [ha.done hIu hiu] at hk
        cases hk
        exact ⟨k1, hk1, k', hk', by have := h1 hiu; omega, h0⟩
      | false =>
        obtain ⟨k2, hk2, hle2⟩ := h2 hiu
        rw [hk] at hk2
        cases hk2
        exact ⟨k1, hk1, k', hk', by omega, h0⟩

theorem asks_lower {w : Bool} (h : Bytewise true D I) (ha : Asks w D I) {s : σ} (hI : I s) : LowerBound D s := by
  intro n q t x t' hc hf
  obtain ⟨hIt, k, hk, k', hk', hle, h0⟩ := asks_calls h ha hI hc
  rcases h.finish hIt with ⟨_, _, _, hi⟩ | ⟨_, _, hf'⟩
  · have := h0 hi
    refine ⟨fun j hj => ?_, fun hj => ?_⟩
    · rw [hk] at hj; cases hj; omega
    · rw [hk] at hj; cases hj
  · rw [hf'] at hf; cases hf

theorem machine_asks {init : σ} {step : σ → UInt8 → Except ErrorKind σ} {done : σ → Bool}
    {value : σ → Except ErrorKind α} (h : done init = false) :
    Asks true (machine init step done value (fun _ => .finite 1)) (fun _ => True) where
  done := fun _ hi => by simp only [machine] at hi ⊢; simp [hi]
  busy := by
    intro s _ hi
    refine ⟨0, by simp only [machine] at hi ⊢; simp [hi], fun c t _ => ⟨fun _ => rfl, fun ht => ⟨1, ?_, by omega⟩⟩⟩
    simp only [machine] at ht ⊢; simp [ht]
  again := by
    intro _ s x t _ hf
    simp only [machine] at hf ⊢
    split at hf
    · split at hf
      · cases hf; exact h
      · cases hf
    · cases hf

theorem line_go {e : Eos} : ∀ (b : Bytes) (acc : Bytes) (n : Nat) (rest : Bytes), (10 : UInt8) ∉ b →
    machine.go (fun (s : Bytes × Bool) c => .ok (if c = 10 then (s.1, true) else (s.1 ++ [c], false))) (·.2) e
      (acc, false) n (b ++ 10 :: rest) = (.ok (n + b.length + 1), (acc ++ b, true)) := by
  intro b
  induction b with
  | nil =>
    intro acc n rest _
    simp only [List.nil_append, machine.go, Bool.false_eq_true, if_false, if_true, List.append_nil]
    rw [machine_done rfl]
    rfl
  | cons c b ih =>
    intro acc n rest hb
    simp only [List.mem_cons, not_or] at hb
    simp only [List.cons_append, machine.go, Bool.false_eq_true, if_false, if_neg (Ne.symm hb.1)]
    rw [ih _ _ _ hb.2]
    simp only [List.append_assoc, List.singleton_append, List.length_cons]
    rw [Nat.add_right_comm n 1, Nat.add_assoc n]

theorem codes_queue (enc : α → Except ErrorKind Bytes) :
    Codes true (queueEncoder enc).toEncoder (fun s bs => s = bs) (fun _ => True) enc where
  step := by
    rintro s bs cap e rfl he
    simp only [queueEncoder]
    by_cases hc : s.length ≤ cap
    · rw [if_pos hc]
      exact ⟨[], by rw [List.take_of_length_le hc], by rw [List.drop_eq_nil_of_le hc], by simp [hc]⟩
    · rw [if_neg hc, if_neg (fun hr => hc (he hr))]
      exact ⟨_, rfl, rfl, by simp⟩
  full := by
    rintro _ s bs cap e rfl he hc
    simp only [queueEncoder]
    rw [if_neg (by omega), if_pos he]
  idle := by
    rintro s bs rfl hi
    simpa [queueEncoder] using hi
  startOk := by
    rintro s x b rfl hi _ hx
    exact ⟨b, by simp [queueEncoder, hx], rfl⟩
  startErr := by
    rintro s x b rfl hi _ hx
    simp [queueEncoder, hx]
  req := by
    rintro s bs rfl
    exact .inl rfl

theorem exact_queue (enc : α → Except ErrorKind Bytes) : Exact (queueEncoder enc) (fun s bs => s = bs) where
  exact := by rintro s bs rfl; rfl
  fin := by rintro s bs rfl; rfl

end Bytecodec
