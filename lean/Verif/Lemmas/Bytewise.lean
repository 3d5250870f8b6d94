import Verif.Lemmas.Split
import Verif.Spec.Bytewise
import Verif.Spec.Greedy
/-!
# Decoders that work byte by byte keep every contract
-/
namespace Bytecodec
open Spec
variable {σ α : Type} {p : Bool} {D : Decoder σ α} {I : σ → Prop}

namespace Spec.Bytewise

theorem weaken (h : Bytewise p D I) : Bytewise false D I where
  idle := h.idle
  more := h.more
  last := fun h1 h2 h3 => (h.last h1 h2 h3).imp_right fun h => ⟨rfl, h.2⟩
  byte := h.byte
  cons := h.cons
  finish := h.finish
  staysNil := h.staysNil
  staysByte := h.staysByte
  staysFinish := h.staysFinish

/-- What a call can do. -/
theorem outcome (h : Bytewise p D I) (e : Eos) : ∀ (b : Bytes) {s}, I s → D.isIdle s = false →
    (∃ n t, D.decode s b e = (.ok n, t) ∧ I t ∧ n ≤ b.length ∧
      (D.isIdle t = false → n = b.length ∧ e.isReached = false)) ∨
    ∃ k t, D.decode s b e = (.err k, t) ∧ I t := by
  intro b
  induction b with
  | nil =>
    intro s hI hs
    have hst := h.staysNil (e := e) hI hs
    cases he : e.isReached with
    | false => exact .inl ⟨0, s, h.more hI hs he, hI, Nat.le_refl _, fun _ => ⟨rfl, rfl⟩⟩
    | true =>
      rcases h.last hI hs he with ⟨k, t, hd⟩ | ⟨_, t, hd, ht⟩
      · rw [hd] at hst; exact .inr ⟨k, t, hd, hst⟩
      · rw [hd] at hst
        exact .inl ⟨0, t, hd, hst, Nat.le_refl _, fun h => by rw [ht] at h; cases h⟩
  | cons c b ih =>
    intro s hI hs
    have hst := h.staysByte (c := c) hI hs
    rw [h.cons hI hs]
    rcases h.byte (c := c) hI hs with ⟨t, hd⟩ | ⟨k, t, hd⟩
    · rw [hd] at hst ⊢
      simp only [thenDecode]
      cases ht : D.isIdle t with
      | true => exact .inl ⟨1, t, rfl, hst, by simp, fun h => by rw [ht] at h; cases h⟩
      | false =>
        simp only [Bool.false_eq_true, if_false]
        rcases ih hst ht with ⟨n, u, hu, hIu, hn, hx⟩ | ⟨k, u, hu, hIu⟩
        · rw [hu]
          refine .inl ⟨1 + n, u, rfl, hIu, by simp only [List.length_cons]; omega, fun h => ?_⟩
          have := hx h
          exact ⟨by simp only [List.length_cons]; omega, this.2⟩
        · rw [hu]; exact .inr ⟨k, u, rfl, hIu⟩
    · rw [hd] at hst ⊢
      exact .inr ⟨k, t, rfl, hst⟩

/-- Two pieces are read one after the other. -/
theorem append (h : Bytewise p D I) {b : Bytes} {e e1 : Eos} (he : e1.isReached = false) :
    ∀ (a : Bytes) {s}, I s → D.isIdle s = false →
      D.decode s (a ++ b) e = thenDecode D b e (D.decode s a e1) := by
  intro a
  induction a with
  | nil =>
    intro s hI hs
    rw [h.more hI hs he, List.nil_append]
    simp only [thenDecode, hs, Bool.false_eq_true, if_false]
    rcases D.decode s b e with ⟨r, t⟩
    cases r <;> simp only [Nat.zero_add]
  | cons c a ih =>
    intro s hI hs
    rw [List.cons_append, h.cons (b := a ++ b) (e := e) hI hs, h.cons (b := a) (e := e1) hI hs]
    have hst := h.staysByte (c := c) hI hs
    rcases h.byte (c := c) hI hs with ⟨t, hd⟩ | ⟨k, t, hd⟩
    · rw [hd] at hst ⊢
      have hst : I t := hst
      cases ht : D.isIdle t with
      | true => simp only [thenDecode, ht, if_true]
      | false =>
        simp only [thenDecode, ht, Bool.false_eq_true, if_false]
        rw [ih hst ht]
        rcases D.decode t a e1 with ⟨r, u⟩
        cases r with
        | ok n =>
          simp only [thenDecode]
          cases hu : D.isIdle u with
          | true => simp only [if_true]
          | false =>
            simp only [Bool.false_eq_true, if_false]
            rcases D.decode u b e with ⟨r, v⟩
            cases r <;> simp only [Nat.add_assoc]
        | _ => simp only [thenDecode]
    · rw [hd]; rfl

theorem splits (h : Bytewise p D I) : Splits p D I := by
  apply Splits.of_busy
  · intro s b e n t x s' hI hs hd ht hf
    rcases h.outcome e b hI hs with ⟨m, u, hu, _, hn, _⟩ | ⟨k, u, hu, _⟩
    · rw [hu] at hd; cases hd; exact hn
    · rw [hu] at hd; cases hd
  · intro s b e n t x s' hI hs hd ht hf
    rcases h.outcome e b hI hs with ⟨m, u, hu, hIu, _⟩ | ⟨k, u, hu, _⟩
    · rw [hu] at hd; cases hd
      have := h.staysFinish hIu
      rwa [hf] at this
    · rw [hu] at hd; cases hd
  · intro s x s' hI _ hf
    have := h.staysFinish hI
    rwa [hf] at this
  · intro s a b e e1 n t x s' hI hs hd _ _ _ _
    rw [h.idle hI hs] at hd
    cases hd
    exact ⟨rfl, rfl, h.idle hI hs⟩
  · intro s a b e e1 n t x s' hI hs hd ht hf _ hne
    rw [h.append hne a hI hs] at hd
    rcases h.outcome e1 a hI hs with ⟨m, u, hu, hIu, _, hx⟩ | ⟨k, u, hu, _⟩
    · rw [hu] at hd ⊢
      simp only [thenDecode] at hd
      cases hi : D.isIdle u with
      | true =>
        simp only [hi, if_true] at hd
        cases hd
        exact .inl rfl
      | false =>
        simp only [hi, Bool.false_eq_true, if_false] at hd
        obtain ⟨hm, _⟩ := hx hi
        rcases hv : D.decode u b e with ⟨r, v⟩
        rw [hv] at hd
        cases r with
        | ok n' =>
          cases hd
          refine .inr ⟨?_, by omega, u, by rw [hm], hi, hIu, by rw [hv, hm]; simp⟩
          rintro hp rfl
          cases he : e.isReached with
          | false =>
            rw [h.more hIu hi he] at hv
            cases hv
            rw [hi] at ht; cases ht
          | true =>
            rcases h.last hIu hi he with ⟨k, w, hw⟩ | ⟨hp', _⟩
            · rw [hw] at hv; cases hv
            · rw [hp] at hp'; cases hp'
        | _ => cases hd
    · rw [hu] at hd; cases hd

theorem stays (h : Bytewise p D I) {s : σ} (hI : I s) (b : Bytes) (e : Eos) : I (D.decode s b e).2 := by
  cases hs : D.isIdle s with
  | true => rw [h.idle hI hs]; exact hI
  | false =>
    rcases h.outcome e b hI hs with ⟨_, t, hd, ht, _⟩ | ⟨_, t, hd, ht⟩
    · rw [hd]; exact ht
    · rw [hd]; exact ht

theorem reach (h : Bytewise p D I) {s t : σ} (hI : I s) (hr : Reach D s t) : I t := by
  induction hr with
  | refl => exact hI
  | decode b e _ _ ih => exact h.stays ih b e
  | finish _ ih => exact h.staysFinish ih

theorem safe (h : Bytewise p D I) {s : σ} (hI : I s) : SafeFrom D s := by
  intro t hr
  have ht := h.reach hI hr
  constructor
  · intro b e _
    cases hs : D.isIdle t with
    | true => rw [h.idle ht hs]; exact ⟨by simp [NoCrash], fun n hn => by cases hn; exact Nat.zero_le _⟩
    | false =>
      rcases h.outcome e b ht hs with ⟨n, u, hd, _, hn, _⟩ | ⟨k, u, hd, _⟩
      · rw [hd]; exact ⟨by simp [NoCrash], fun m hm => by cases hm; exact hn⟩
      · rw [hd]; exact ⟨by simp [NoCrash], fun m hm => by cases hm⟩
  · rcases h.finish ht with ⟨x, u, hf, _⟩ | ⟨k, u, hf⟩
    · rw [hf]; exact .inl ⟨x, rfl⟩
    · rw [hf]; exact .inr ⟨k, rfl⟩

theorem idleStable (h : Bytewise p D I) {s : σ} (hI : I s) : IdleStable D s := by
  intro t hr hi b e _
  rw [h.idle (h.reach hI hr) hi]
  exact ⟨rfl, fun n hn => by cases hn; rfl⟩

theorem eosStrict (h : Bytewise p D I) {s : σ} (hI : I s) : EosStrict D s := by
  intro t hr b n t' _ hd
  have ht := h.reach hI hr
  cases hs : D.isIdle t with
  | true => rw [h.idle ht hs] at hd; cases hd; exact hs
  | false =>
    rcases h.outcome (Eos.new true) b ht hs with ⟨n, u, hu, _, _, hx⟩ | ⟨k, u, hu, _⟩
    · rw [hu] at hd
      cases hd
      cases hi : D.isIdle t' with
      | true => rfl
      | false => cases (hx hi).2
    · rw [hu] at hd; cases hd

theorem finishGuarded (h : Bytewise p D I) {s : σ} (hI : I s) : FinishGuarded D s := by
  intro t hr hi
  rcases h.finish (h.reach hI hr) with ⟨x, u, hf, hi'⟩ | ⟨k, u, hf⟩
  · rw [hi] at hi'; cases hi'
  · exact ⟨k, by rw [hf]⟩

theorem greedy (h : Bytewise p D I) {s : σ} (hI : I s) : Greedy D s := by
  intro t hr b e n t' _ hd hi
  have ht := h.reach hI hr
  cases hs : D.isIdle t with
  | true => rw [h.idle ht hs] at hd; cases hd; rw [hs] at hi; cases hi
  | false =>
    rcases h.outcome e b ht hs with ⟨n, u, hu, _, _, hx⟩ | ⟨k, u, hu, _⟩
    · rw [hu] at hd; cases hd; exact (hx hi).1
    · rw [hu] at hd; cases hd

end Spec.Bytewise

/-! ## State machines -/

section
variable {init : σ} {step : σ → UInt8 → Except ErrorKind σ} {done : σ → Bool}
  {value : σ → Except ErrorKind α} {need : σ → ByteCount}

theorem machine_done {e : Eos} {s : σ} (h : done s = true) (n : Nat) (b : Bytes) :
    machine.go step done e s n b = (.ok n, s) := by
  cases b <;> simp [machine.go, h]

theorem machine_count {e : Eos} : ∀ (b : Bytes) (s : σ) (n : Nat),
    machine.go step done e s n b = match machine.go step done e s 0 b with
      | (.ok m, t) => (.ok (n + m), t)
      | r => r := by
  intro b
  induction b with
  | nil => intro s n; simp only [machine.go]; split <;> simp_all
  | cons c b ih =>
    intro s n
    simp only [machine.go]
    split
    · rfl
    · split
      · next s' hs' =>
        rw [ih s' (n + 1), ih s' (0 + 1)]
        rcases machine.go step done e s' 0 b with ⟨r, t⟩
        cases r <;> simp [Nat.add_assoc]
      · rfl

theorem bytewise_machine : Bytewise true (machine init step done value need) (fun _ => True) where
  idle := fun _ h => machine_done h 0 _
  more := by
    intro s e _ hs he
    simp [machine, machine.go, he]
  last := by
    intro s e _ hs he
    have hs : done s = false := hs
    exact .inl ⟨.unexpectedEos, s, by simp [machine, machine.go, he, hs]⟩
  byte := by
    intro s c _ hs
    have hs : done s = false := hs
    simp only [machine, machine.go, hs]
    cases step s c with
    | ok s' => exact .inl ⟨s', by simp [Eos.new, Eos.isReached]⟩
    | error k => exact .inr ⟨k, s, rfl⟩
  cons := by
    intro s c b e _ hs
    have hs : done s = false := hs
    simp only [machine, machine.go, hs, Bool.false_eq_true, if_false]
    cases step s c with
    | ok s' =>
      simp only [show (Eos.new false).isReached = false from rfl, Bool.and_false, Bool.false_eq_true, if_false,
        Nat.zero_add, thenDecode]
      cases hd : done s' with
      | true => rw [machine_done hd, if_pos rfl]
      | false =>
        rw [if_neg (by simp), machine_count]
        rcases machine.go step done e s' 0 b with ⟨r, t⟩
        cases r <;> rfl
    | error k => rfl
  finish := by
    intro s _
    simp only [machine]
    cases hd : done s with
    | true =>
      simp only [if_true]
      cases value s with
      | ok x => exact .inl ⟨x, init, rfl, trivial⟩
      | error k => exact .inr ⟨k, init, rfl⟩
    | false => exact .inr ⟨.incompleteDecoding, s, rfl⟩
  staysNil := fun _ _ => trivial
  staysByte := fun _ _ => trivial
  staysFinish := fun _ => trivial
end

end Bytecodec
