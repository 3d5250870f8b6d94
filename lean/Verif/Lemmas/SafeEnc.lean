import Verif.Lemmas.CodesIo
import Verif.Lemmas.Safe
import Verif.Spec.AssembledEnc
/-!
# No encoder panics or overruns its buffer
-/
namespace Bytecodec

open Spec

variable {σ α β : Type}

/-- No panic; with `full`, a proper result. -/
def GoodRes {γ : Type} (full : Bool) (r : Res γ) : Prop := r ≠ .panic ∧ (full = true → Returns r)

theorem good_ok {γ : Type} {full : Bool} {x : γ} : GoodRes full (.ok x) := ⟨by simp, fun _ => .ok⟩
theorem good_err {γ : Type} {full : Bool} {k : ErrorKind} : GoodRes full (.err k : Res γ) :=
  ⟨by simp, fun _ => .inr ⟨k, rfl⟩⟩

/-- The law: `I` is an invariant of all calls and excludes panics and overruns. -/
structure EncSafe (full : Bool) (E : Encoder σ α) (I : σ → Prop) : Prop where
  encode : ∀ {s cap e}, I s → EosSane e cap →
    GoodRes full (E.encode s cap e).1 ∧ (∀ bs, (E.encode s cap e).1 = .ok bs → bs.length ≤ cap) ∧
    I (E.encode s cap e).2
  start : ∀ {s x}, I s → GoodRes full (E.start s x).1 ∧ I (E.start s x).2

theorem encSafe_from {full : Bool} {E : Encoder σ α} {I : σ → Prop} (h : EncSafe full E I) {s₀ : σ}
    (h0 : I s₀) : SafeEncFrom full E s₀ := by
  have inv : ∀ {s}, EncReach E s₀ s → I s := by
    intro s hr
    induction hr with
    | refl => exact h0
    | encode cap e _ he ih => exact (h.encode ih he).2.2
    | start x _ ih => exact (h.start ih).2
  intro s hr
  refine ⟨fun cap e he => ?_, fun x => ?_⟩
  · obtain ⟨h1, h2, _⟩ := h.encode (inv hr) he
    exact ⟨h1.1, h1.2, h2⟩
  · exact (h.start (inv hr)).1

theorem encSafe_bytes (full : Bool) (asRef : β → Bytes) :
    EncSafe full (bytesEncoder asRef).toEncoder (fun s => ∀ b, s.bytes = some b → s.offset ≤ (asRef b).length) where
  encode := by
    rintro ⟨b, off⟩ cap e hI _
    cases b with
    | none => exact ⟨good_ok, by simp [bytesEncoder], by simp [bytesEncoder]⟩
    | some b =>
      have h0 : off ≤ (asRef b).length := hI b rfl
      simp only [bytesEncoder, if_neg (show ¬ (asRef b).length < off by omega)]
      split
      · exact ⟨good_ok, by intro bs h; cases h; simp; omega, by simp⟩
      · split
        · exact ⟨good_err, by simp, by simp; omega⟩
        · exact ⟨good_ok, by intro bs h; cases h; simp; omega, by simp; omega⟩
  start := by
    rintro ⟨b, off⟩ x hI
    cases b with
    | none => exact ⟨good_ok, by simp [bytesEncoder]⟩
    | some b => exact ⟨good_err, hI⟩

theorem encSafe_number {α : Type} (full : Bool) (f : α → Except ErrorKind Bytes) :
    EncSafe full (fixEncoder f).toEncoder (fun s => ∀ b, s.bytes = some b → s.offset ≤ (id b : Bytes).length) := by
  have h := encSafe_bytes full (id : Bytes → Bytes)
  refine ⟨h.encode, ?_⟩
  intro s x hI
  simp only [fixEncoder]
  cases f x with
  | ok b => exact h.start hI
  | error k => exact ⟨good_err, hI⟩

theorem good_mapErr {γ : Type} {full : Bool} {r : Res γ} {f : ErrorKind → ErrorKind} (h : GoodRes full r) :
    GoodRes full (r.mapErr f) := by
  cases r with
  | ok x => exact h
  | err k => exact good_err
  | panic => exact h
  | capacity => exact h
  | diverge => exact h

/-- A `step` whose first call is good. -/
theorem step_good {γ δ τ : Type} {full : Bool} {p : Res γ × σ} {w : σ → τ} {k : γ → σ → Res δ × τ}
    {Q : Res δ × τ → Prop} (hp : GoodRes full p.1)
    (hf : ∀ r : Res δ, GoodRes full r → (∀ x, r ≠ .ok x) → Q (r, w p.2)) (hk : ∀ x, p.1 = .ok x → Q (k x p.2)) :
    Q (Res.step p w k) := by
  rcases p with ⟨r, s⟩
  cases r with
  | ok x => exact hk x rfl
  | err k => exact hf (.err k) good_err (by simp)
  | panic => exact absurd rfl hp.1
  | capacity => exact hf .capacity ⟨by simp, fun hfu => by have := hp.2 hfu; simp [Returns] at this⟩ (by simp)
  | diverge => exact hf .diverge ⟨by simp, fun hfu => by have := hp.2 hfu; simp [Returns] at this⟩ (by simp)

/-- `encode_all` into a vector never panics. -/
theorem encodeAll_vec_safe {full : Bool} {E : Encoder σ α} {I : σ → Prop} (h : EncSafe full E I) :
    ∀ (s : σ) (w : Bytes) (x : Res Unit × σ × Bytes), encodeAll E vecWriter s w = some x → I s →
      GoodRes full x.1 ∧ I x.2.1 := by
  apply encodeAll.partial_correctness E vecWriter (motive := fun s w x => I s → GoodRes full x.1 ∧ I x.2.1)
  intro loop ih s w x hx hI
  split at hx
  · cases hx; exact ⟨good_ok, hI⟩
  · obtain ⟨h1, h2, h3⟩ := h.encode (cap := 1024) (e := Eos.new false) hI .newFalse
    rcases hq : E.encode s 1024 (Eos.new false) with ⟨r, s'⟩
    rw [hq] at hx h1 h2 h3
    simp only at hx h1 h2 h3
    cases r with
    | ok bs =>
      simp only at hx
      rw [if_neg (by have := h2 bs rfl; omega)] at hx
      obtain ⟨res, w', hw, hc⟩ := writeAll_spec sink_vec w bs
      rw [hw] at hx
      rcases hc with ⟨rfl, _⟩ | ⟨k, pre, _, _, _, hf⟩
      · simp only at hx
        split at hx
        · cases hx; exact ⟨good_err, h3⟩
        · exact ih _ _ _ hx h3
      · exact absurd hf vec_never_fails
    | err k => cases hx; exact ⟨good_err, h3⟩
    | panic => exact absurd rfl h1.1
    | capacity => cases hx; exact ⟨⟨by simp, fun hfu => by have := h1.2 hfu; simp [Returns] at this⟩, h3⟩
    | diverge => cases hx; exact ⟨⟨by simp, fun hfu => by have := h1.2 hfu; simp [Returns] at this⟩, h3⟩

/-- `encode_into_bytes` never panics (apart from a capacity overflow), but it may hang. -/
theorem encodeIntoBytes_safe {full : Bool} {E : Encoder σ α} {I : σ → Prop} (h : EncSafe full E I)
    {s : σ} {x : α} (hI : I s) : GoodRes false (encodeIntoBytes E s x).1 ∧ I (encodeIntoBytes E s x).2 := by
  simp only [encodeIntoBytes]
  obtain ⟨h1, h2⟩ := h.start (x := x) hI
  refine step_good (full := full) (Q := fun q => GoodRes false q.1 ∧ I q.2) h1 ?_ ?_
  · intro r hr _
    exact ⟨⟨hr.1, nofun⟩, h2⟩
  · intro _ _
    split
    · next size hq =>
      split
      · exact ⟨⟨by simp, nofun⟩, h2⟩
      · obtain ⟨q1, q2, q3⟩ := h.encode (cap := size) (e := Eos.new true) h2 (.new true (by omega))
        refine step_good (full := full) (Q := fun q => GoodRes false q.1 ∧ I q.2) q1 ?_ ?_
        · intro r hr _
          exact ⟨⟨hr.1, nofun⟩, q3⟩
        · intro bs _
          split
          · exact ⟨good_ok, q3⟩
          · exact ⟨good_err, q3⟩
    · split
      · exact ⟨⟨by simp, nofun⟩, h2⟩
      · next r s'' out hq =>
        obtain ⟨q1, q2⟩ := encodeAll_vec_safe h _ _ _ hq h2
        refine step_good (full := full) (Q := fun q => GoodRes false q.1 ∧ I q.2) (p := (r, s'')) q1 ?_ ?_
        · intro r hr _
          exact ⟨⟨hr.1, nofun⟩, q2⟩
        · intro _ _
          exact ⟨good_ok, q2⟩
    · exact ⟨good_err, h2⟩

/-! ## Tuples -/

theorem tryEncode_safe {full : Bool} {E : Encoder σ α} {I : σ → Prop} (h : EncSafe full E I) {s : σ}
    {out : Bytes} {cap : Nat} {e : Eos} (hI : I s) (he : EosSane e cap) (ho : out.length ≤ cap) :
    (∃ out' s', tryEncode E s out cap e = .next out' s' ∧ out'.length ≤ cap ∧ I s') ∨
    ∃ r s', tryEncode E s out cap e = .ret r s' ∧ GoodRes full r ∧ I s' ∧ ∀ bs, r = .ok bs → bs.length ≤ cap := by
  unfold tryEncode
  split
  · exact .inl ⟨_, _, rfl, ho, hI⟩
  · rw [if_neg (by omega)]
    obtain ⟨h1, h2, h3⟩ := h.encode (cap := cap - out.length) (e := e) hI (he.mono (by omega))
    rcases hq : E.encode s (cap - out.length) e with ⟨r, s'⟩
    rw [hq] at h1 h2 h3
    simp only at h1 h2 h3 ⊢
    cases r with
    | ok bs =>
      have hb := h2 bs rfl
      simp only
      split
      · exact .inl ⟨_, _, rfl, by simp only [List.length_append]; omega, h3⟩
      · exact .inr ⟨_, _, rfl, good_ok, h3, by intro bs h; cases h; simp only [List.length_append]; omega⟩
    | err k => exact .inr ⟨_, _, rfl, good_err, h3, nofun⟩
    | panic => exact absurd rfl h1.1
    | capacity => exact .inr ⟨_, _, rfl, ⟨by simp, fun hfu => by have := h1.2 hfu; simp [Returns] at this⟩, h3, nofun⟩
    | diverge => exact .inr ⟨_, _, rfl, ⟨by simp, fun hfu => by have := h1.2 hfu; simp [Returns] at this⟩, h3, nofun⟩

theorem encSafe_pair {full : Bool} {σ0 α0 σ1 α1 : Type} {E0 : Encoder σ0 α0} {E1 : Encoder σ1 α1} {I0 I1}
    (h0 : EncSafe full E0 I0) (h1 : EncSafe full E1 I1) :
    EncSafe full (tupleEncoder2 E0 E1) (fun s => I0 s.1 ∧ I1 s.2) where
  encode := by
    rintro ⟨s0, s1⟩ cap e ⟨i0, i1⟩ he
    simp only [tupleEncoder2]
    rcases tryEncode_safe h0 (out := []) i0 he (Nat.zero_le _) with ⟨o, t, q, ho, hi⟩ | ⟨r, t, q, hg, hi, hb⟩
    · simp only [q]
      rcases tryEncode_safe h1 (out := o) i1 he ho with ⟨o', u, q', ho', hi'⟩ | ⟨r, u, q', hg, hi', hb⟩
      · simp only [q']
        exact ⟨good_ok, by intro bs hb; cases hb; exact ho', hi, hi'⟩
      · simp only [q']
        exact ⟨hg, hb, hi, hi'⟩
    · simp only [q]
      exact ⟨hg, hb, hi, i1⟩
  start := by
    rintro ⟨s0, s1⟩ x ⟨i0, i1⟩
    simp only [tupleEncoder2]
    obtain ⟨a1, a2⟩ := h0.start (x := x.1) i0
    refine step_good (full := full) (Q := fun q : Res Unit × (σ0 × σ1) => GoodRes full q.1 ∧ I0 q.2.1 ∧ I1 q.2.2) a1 ?_ ?_
    · exact fun r hr _ => ⟨hr, a2, i1⟩
    · intro _ _
      obtain ⟨b1, b2⟩ := h1.start (x := x.2) i1
      refine step_good (full := full) (Q := fun q : Res Unit × (σ0 × σ1) => GoodRes full q.1 ∧ I0 q.2.1 ∧ I1 q.2.2) b1 ?_ ?_
      · exact fun r hr _ => ⟨hr, a2, b2⟩
      · exact fun _ _ => ⟨good_ok, a2, b2⟩

/-! ## `Repeat` -/

theorem startNext_safe {full : Bool} {E : Encoder σ α} {I : σ → Prop} (h : EncSafe full E I) :
    ∀ (xs : List α) (s : σ), I s →
    (∃ s' rest, startNext E s xs = .busy s' rest ∧ I s') ∨ (∃ s', startNext E s xs = .exhausted s' ∧ I s') ∨
    ∃ r s' rest, startNext E s xs = .failed r s' rest ∧ I s' ∧ GoodRes full r ∧ ∀ x, r ≠ .ok x := by
  intro xs
  induction xs with
  | nil =>
    intro s hI
    simp only [startNext]
    split
    · exact .inr (.inl ⟨_, rfl, hI⟩)
    · exact .inl ⟨_, _, rfl, hI⟩
  | cons x xs ih =>
    intro s hI
    simp only [startNext]
    split
    · obtain ⟨h1, h2⟩ := h.start (x := x) hI
      rcases hq : E.start s x with ⟨r, s'⟩
      rw [hq] at h1 h2
      cases r with
      | ok u => exact ih s' h2
      | err k => exact .inr (.inr ⟨_, _, _, rfl, h2, h1, by simp⟩)
      | panic => exact absurd rfl h1.1
      | capacity => exact .inr (.inr ⟨_, _, _, rfl, h2, h1, by simp⟩)
      | diverge => exact .inr (.inr ⟨_, _, _, rfl, h2, h1, by simp⟩)
    · exact .inl ⟨_, _, rfl, hI⟩

theorem good_failAs {γ δ : Type} {full : Bool} {r : Res γ} (h : GoodRes full r) (hn : ∀ x, r ≠ .ok x) :
    GoodRes full (r.failAs : Res δ) := by
  cases r with
  | ok x => exact absurd rfl (hn x)
  | err k => exact good_err
  | panic => exact absurd rfl h.1
  | capacity => exact ⟨by simp [Res.failAs], fun hfu => by have := h.2 hfu; simp [Returns] at this⟩
  | diverge => exact ⟨by simp [Res.failAs], fun hfu => by have := h.2 hfu; simp [Returns] at this⟩

theorem failAs_ne_ok {γ δ : Type} {r : Res γ} {x : δ} : (r.failAs : Res δ) ≠ .ok x := by
  cases r <;> simp [Res.failAs]

theorem repeatLoop_safe {full : Bool} {E : Encoder σ α} {I : σ → Prop} (h : EncSafe full E I) {cap : Nat} {e : Eos}
    (he : EosSane e cap) : ∀ (n : Nat) (out : Bytes) (s : σ) (items : Option (List α)), cap - out.length ≤ n →
    out.length ≤ cap → I s →
    GoodRes full (repeatLoop E cap e out s items).1 ∧
    (∀ bs, (repeatLoop E cap e out s items).1 = .ok bs → bs.length ≤ cap) ∧
    I (repeatLoop E cap e out s items).2.inner := by
  intro n
  induction n with
  | zero =>
    intro out s items hn ho hI
    rw [repeatLoop]
    rcases startNext_safe h (items.getD []) s hI with ⟨s', rest, q, hi⟩ | ⟨s', q, hi⟩ | ⟨r, s', rest, q, hi, hg, hne⟩
    · simp only [q, if_neg (show ¬ cap < out.length by omega)]
      obtain ⟨h1, h2, h3⟩ := h.encode (cap := cap - out.length) (e := e) hi (he.mono (by omega))
      rcases hq : E.encode s' (cap - out.length) e with ⟨r, s''⟩
      rw [hq] at h1 h2 h3
      simp only at h1 h2 h3
      cases r with
      | ok bs =>
        simp only
        have := h2 bs rfl
        rw [if_pos (by omega)]
        exact ⟨good_ok, by intro bs h; cases h; exact ho, h3⟩
      | err k => exact ⟨good_err, by simp, h3⟩
      | panic => exact absurd rfl h1.1
      | capacity => exact ⟨⟨by simp, fun hfu => by have := h1.2 hfu; simp [Returns] at this⟩, by simp, h3⟩
      | diverge => exact ⟨⟨by simp, fun hfu => by have := h1.2 hfu; simp [Returns] at this⟩, by simp, h3⟩
    · simp only [q]
      exact ⟨good_ok, by intro bs h; cases h; exact ho, hi⟩
    · simp only [q]
      exact ⟨good_failAs hg hne, fun bs hb => absurd hb failAs_ne_ok, hi⟩
  | succ n ih =>
    intro out s items hn ho hI
    rw [repeatLoop]
    rcases startNext_safe h (items.getD []) s hI with ⟨s', rest, q, hi⟩ | ⟨s', q, hi⟩ | ⟨r, s', rest, q, hi, hg, hne⟩
    · simp only [q, if_neg (show ¬ cap < out.length by omega)]
      obtain ⟨h1, h2, h3⟩ := h.encode (cap := cap - out.length) (e := e) hi (he.mono (by omega))
      rcases hq : E.encode s' (cap - out.length) e with ⟨r, s''⟩
      rw [hq] at h1 h2 h3
      simp only at h1 h2 h3
      cases r with
      | ok bs =>
        simp only
        have := h2 bs rfl
        by_cases h0 : bs.length = 0
        · rw [if_pos h0]
          exact ⟨good_ok, by intro bs h; cases h; exact ho, h3⟩
        · rw [if_neg h0]
          exact ih _ _ _ (by simp only [List.length_append]; omega) (by simp only [List.length_append]; omega) h3
      | err k => exact ⟨good_err, by simp, h3⟩
      | panic => exact absurd rfl h1.1
      | capacity => exact ⟨⟨by simp, fun hfu => by have := h1.2 hfu; simp [Returns] at this⟩, by simp, h3⟩
      | diverge => exact ⟨⟨by simp, fun hfu => by have := h1.2 hfu; simp [Returns] at this⟩, by simp, h3⟩
    · simp only [q]
      exact ⟨good_ok, by intro bs h; cases h; exact ho, hi⟩
    · simp only [q]
      exact ⟨good_failAs hg hne, fun bs hb => absurd hb failAs_ne_ok, hi⟩

/-! ## All encoders -/

theorem encSafe_monolithic (full : Bool) (ser : MonolithicSerializer α) (hs : ∀ x, Returns (ser x).2) :
    EncSafe full (monolithicEncoder ser)
      (fun s => ∀ b, s.buf.bytes = some b → s.buf.offset ≤ (id b : Bytes).length) where
  encode := by
    rintro ⟨item, buf⟩ cap e hI he
    have hb := encSafe_bytes full (id : Bytes → Bytes)
    cases item with
    | none =>
      obtain ⟨h1, h2, h3⟩ := hb.encode (cap := cap) (e := e) hI he
      simp only [monolithicEncoder]
      refine step_good (full := full) (Q := fun q : Res Bytes × (MonoEncState α) => GoodRes full q.1 ∧ (∀ bs, q.1 = .ok bs → bs.length ≤ cap) ∧
        ∀ b, q.2.buf.bytes = some b → q.2.buf.offset ≤ (id b : Bytes).length) h1 ?_ ?_
      · exact fun r hr hn => ⟨hr, fun bs hb => absurd hb (hn bs), h3⟩
      · intro bs hbs
        exact ⟨good_ok, by intro bs' h; cases h; exact h2 bs hbs, h3⟩
    | some x =>
      simp only [monolithicEncoder, serialize_chain, Res.step_ok_eq, List.nil_append]
      rcases hs x with ⟨u, hu⟩ | ⟨k, hk⟩
      · rw [hu]
        simp only [Res.step_ok_eq]
        split
        · exact ⟨good_ok, by intro bs h; cases h; simp; omega, hI⟩
        · obtain ⟨h1, h2⟩ := hb.start (x := (ser x).1.flatten.drop cap) hI
          refine step_good (full := full) (Q := fun q : Res Bytes × (MonoEncState α) => GoodRes full q.1 ∧ (∀ bs, q.1 = .ok bs → bs.length ≤ cap) ∧
            ∀ b, q.2.buf.bytes = some b → q.2.buf.offset ≤ (id b : Bytes).length) h1 ?_ ?_
          · exact fun r hr hn => ⟨hr, fun bs hb => absurd hb (hn bs), h2⟩
          · intro _ _
            exact ⟨good_ok, by intro bs' h; cases h; simp; omega, h2⟩
      · rw [hk]
        exact ⟨good_err, by simp [Res.step], hI⟩
  start := by
    rintro ⟨item, buf⟩ x hI
    simp only [monolithicEncoder]
    split
    · exact ⟨good_ok, hI⟩
    · exact ⟨good_err, hI⟩

theorem encSafe_utf8 (full : Bool) : EncSafe full utf8Encoder.toEncoder
    (fun s => ∀ b, s.bytes = some b → s.offset ≤ (utf8Bytes b).length) :=
  have h := encSafe_bytes full utf8Bytes
  ⟨h.encode, h.start⟩

theorem encSafe_null (full : Bool) : EncSafe full nullEncoder.toEncoder (fun _ => True) :=
  ⟨fun _ _ => ⟨good_ok, by simp [nullEncoder], trivial⟩, fun _ => ⟨good_ok, trivial⟩⟩

theorem encSafe_padding (full : Bool) : EncSafe full paddingEncoder (fun _ => True) := by
  refine ⟨?_, ?_⟩
  · intro s cap e _ _
    cases s with
    | none => exact ⟨good_ok, by simp [paddingEncoder], trivial⟩
    | some b => exact ⟨good_ok, by intro bs h; simp [paddingEncoder] at h; simp [← h], trivial⟩
  · intro s x _
    cases s with
    | none => exact ⟨good_ok, trivial⟩
    | some b => exact ⟨good_err, trivial⟩

theorem encSafe_mapErr {full : Bool} {E : Encoder σ α} {I : σ → Prop} (f : ErrorKind → ErrorKind) (h : EncSafe full E I) :
    EncSafe full (mapErrEncoder E f) I := by
  refine ⟨?_, ?_⟩
  · intro s cap e hI he
    obtain ⟨h1, h2, h3⟩ := h.encode (cap := cap) (e := e) hI he
    refine ⟨good_mapErr h1, ?_, h3⟩
    intro bs hb
    apply h2
    simp only [mapErrEncoder] at hb
    revert hb
    cases (‹Encoder _ _›.encode s cap e).1 <;> simp [Res.mapErr]
  · intro s x hI
    obtain ⟨h1, h2⟩ := h.start (x := x) hI
    exact ⟨good_mapErr h1, h2⟩

theorem encSafe_mapFrom {full : Bool} {E : Encoder σ α} {I : σ → Prop} (f : β → α) (h : EncSafe full E I) :
    EncSafe full (mapFromEncoder E f) I := by
  refine ⟨h.encode, h.start⟩

theorem encSafe_tryMapFrom {full : Bool} {E : Encoder σ α} {I : σ → Prop} (f : β → Except ErrorKind α) (h : EncSafe full E I) :
    EncSafe full (tryMapFromEncoder E f) I := by
  refine ⟨h.encode, ?_⟩
  intro s x hI
  simp only [tryMapFromEncoder]
  cases f x with
  | ok y => exact h.start hI
  | error k => exact ⟨good_err, hI⟩

theorem encSafe_repeated {full : Bool} {E : Encoder σ α} {I : σ → Prop} (h : EncSafe full E I) :
    EncSafe full (repeatEncoder E) (fun s => I s.inner) := by
  refine ⟨?_, ?_⟩
  · intro s cap e hI he
    exact repeatLoop_safe h he cap [] s.inner s.items (by simp) (by simp) hI
  · rintro ⟨i, items⟩ xs hI
    cases items with
    | none => exact ⟨good_ok, hI⟩
    | some ys => exact ⟨good_err, hI⟩

theorem encSafe_optional {full : Bool} {E : Encoder σ α} {I : σ → Prop} (h : EncSafe full E I) :
    EncSafe full (optionalEncoder E) I := by
  refine ⟨h.encode, ?_⟩
  intro s x hI
  cases x with
  | none => exact ⟨good_ok, hI⟩
  | some y => exact h.start hI

theorem encSafe_length {full : Bool} {E : Encoder σ α} {I : σ → Prop} (h : EncSafe full E I) :
    EncSafe full (lengthEncoder E).toEncoder (fun s => I s.inner ∧ s.remaining < 2 ^ 64 ∧ s.expected < 2 ^ 64) := by
  refine ⟨?_, ?_⟩
  · rintro ⟨i, x, r⟩ cap e ⟨hI, hr, hx⟩ he
    simp only [lengthEncoder]
    split
    · exact ⟨good_err, by simp, hI, hr, hx⟩
    · have hle : (if cap < r then cap else r) ≤ r := by split <;> omega
      have hlc : (if cap < r then cap else r) ≤ cap := by split <;> omega
      have hes : EosSane (if cap < r then e else Eos.new true) (if cap < r then cap else r) := by
        split
        · exact he
        · exact .new true hr
      simp only at hI hr hx
      generalize (if cap < r then cap else r) = limit at hle hlc hes ⊢
      generalize (if cap < r then e else Eos.new true) = e' at hes ⊢
      obtain ⟨h1, h2, h3⟩ := h.encode hI hes
      refine step_good (full := full) (Q := fun q : Res Bytes × LengthState σ => GoodRes full q.1 ∧
        (∀ bs, q.1 = .ok bs → bs.length ≤ cap) ∧
        I q.2.inner ∧ q.2.remaining < 2 ^ 64 ∧ q.2.expected < 2 ^ 64) h1 ?_ ?_
      · exact fun q hq hn => ⟨hq, fun bs hb => absurd hb (hn bs), h3, hr, hx⟩
      · intro bs hb
        have := h2 bs hb
        rw [if_neg (by omega)]
        split
        · exact ⟨good_err, by simp, h3, by show r - bs.length < 2 ^ 64; omega, hx⟩
        · exact ⟨good_ok, by intro bs' h; cases h; omega, h3, by show r - bs.length < 2 ^ 64; omega, hx⟩
  · rintro ⟨i, x, r⟩ y ⟨hI, hr, hx⟩
    simp only [lengthEncoder]
    split
    · obtain ⟨h1, h2⟩ := h.start (x := y) hI
      refine step_good (full := full) (Q := fun q : Res Unit × (LengthState σ) => GoodRes full q.1 ∧
        I q.2.inner ∧ q.2.remaining < 2 ^ 64 ∧ q.2.expected < 2 ^ 64) h1 ?_ ?_
      · exact fun q hq hn => ⟨hq, h2, hx, hx⟩
      · exact fun _ _ => ⟨good_ok, h2, hx, hx⟩
    · exact ⟨good_err, hI, hr, hx⟩

theorem encSafe_maxBytes {full : Bool} {E : Encoder σ α} {I : σ → Prop} (h : EncSafe full E I) :
    EncSafe full (maxBytesEncoder E) (fun s => I s.inner) := by
  refine ⟨?_, ?_⟩
  · rintro ⟨i, c, m⟩ cap e hI he
    simp only [maxBytesEncoder]
    obtain ⟨h1, h2, h3⟩ := h.encode (cap := cap) (e := e) hI he
    refine step_good (full := full) (Q := fun q : Res Bytes × (MaxBytesState σ) => GoodRes full q.1 ∧ (∀ bs, q.1 = .ok bs → bs.length ≤ cap) ∧
      I q.2.inner) h1 ?_ ?_
    · exact fun q hq hn => ⟨hq, fun bs hb => absurd hb (hn bs), h3⟩
    · intro bs hb
      have := h2 bs hb
      split
      · exact ⟨good_err, by simp, h3⟩
      · split
        · exact ⟨good_ok, by intro bs' h; cases h; omega, h3⟩
        · exact ⟨good_ok, by intro bs' h; cases h; omega, h3⟩
  · rintro ⟨i, c, m⟩ x hI
    simp only [maxBytesEncoder]
    obtain ⟨h1, h2⟩ := h.start (x := x) hI
    refine step_good (full := full) (Q := fun q : Res Unit × (MaxBytesState σ) => GoodRes full q.1 ∧ I q.2.inner) h1 ?_ ?_
    · exact fun q hq hn => ⟨hq, h2⟩
    · exact fun _ _ => ⟨good_ok, h2⟩

theorem encSafe_preEncode {E : Encoder σ α} {I : σ → Prop} (h : EncSafe false E I) :
    EncSafe false (preEncodeEncoder E).toEncoder (fun s => I s.inner ∧ ∀ b, s.preEncoded.bytes = some b → s.preEncoded.offset ≤ (id b : Bytes).length) := by
  have hb := encSafe_bytes false (id : Bytes → Bytes)
  refine ⟨?_, ?_⟩
  · rintro ⟨i, p⟩ cap e ⟨hI, hp⟩ he
    simp only [preEncodeEncoder]
    obtain ⟨h1, h2, h3⟩ := hb.encode (cap := cap) (e := e) hp he
    refine step_good (full := false) (Q := fun q : Res Bytes × (PreEncodeState σ) => GoodRes false q.1 ∧ (∀ bs, q.1 = .ok bs → bs.length ≤ cap) ∧
      I q.2.inner ∧ ∀ b, q.2.preEncoded.bytes = some b → q.2.preEncoded.offset ≤ (id b : Bytes).length) h1 ?_ ?_
    · exact fun q hq hn => ⟨hq, fun bs hb => absurd hb (hn bs), hI, h3⟩
    · exact fun bs hb => ⟨good_ok, by intro bs' h; cases h; exact h2 _ hb, hI, h3⟩
  · rintro ⟨i, p⟩ x ⟨hI, hp⟩
    simp only [preEncodeEncoder]
    obtain ⟨h1, h2⟩ := encodeIntoBytes_safe h (x := x) hI
    refine step_good (full := false) (Q := fun q : Res Unit × (PreEncodeState σ) => GoodRes false q.1 ∧
      I q.2.inner ∧ ∀ b, q.2.preEncoded.bytes = some b → q.2.preEncoded.offset ≤ (id b : Bytes).length) h1 ?_ ?_
    · exact fun q hq hn => ⟨hq, h2, hp⟩
    · intro buf _
      obtain ⟨q1, q2⟩ := hb.start (x := buf) hp
      refine step_good (full := false) (Q := fun q : Res Unit × (PreEncodeState σ) => GoodRes false q.1 ∧
        I q.2.inner ∧ ∀ b, q.2.preEncoded.bytes = some b → q.2.preEncoded.offset ≤ (id b : Bytes).length) q1 ?_ ?_
      · exact fun q hq hn => ⟨hq, h2, q2⟩
      · exact fun _ _ => ⟨good_ok, h2, q2⟩

theorem encSafe_slice {full : Bool} {E : Encoder σ α} {I : σ → Prop} (h : EncSafe full E I) :
    EncSafe full (sliceEncoder E) (fun s => I s.inner) := by
  refine ⟨?_, ?_⟩
  · rintro ⟨i, c⟩ cap e hI he
    simp only [sliceEncoder]
    have hsane : ∃ e', e.back (cap - min cap c) = .ok e' ∧ EosSane e' (min cap c) := by
      have hb : ∃ e', e.back (cap - min cap c) = .ok e' := by
        obtain ⟨r⟩ := e
        cases r with
        | finite m =>
          have := he m rfl
          simp only [Eos.back]
          rw [if_pos (by omega)]
          exact ⟨_, rfl⟩
        | infinite => exact ⟨_, rfl⟩
        | unknown => exact ⟨_, rfl⟩
      obtain ⟨e', h'⟩ := hb
      exact ⟨e', h', back_sane h' (he.mono (by omega))⟩
    obtain ⟨e', q, hs⟩ := hsane
    rw [q]
    simp only
    obtain ⟨h1, h2, h3⟩ := h.encode (cap := min cap c) (e := e') hI hs
    refine step_good (full := full) (Q := fun q : Res Bytes × (SliceState σ) => GoodRes full q.1 ∧ (∀ bs, q.1 = .ok bs → bs.length ≤ cap) ∧
      I q.2.inner) h1 ?_ ?_
    · exact fun q hq hn => ⟨hq, fun bs hb => absurd hb (hn bs), h3⟩
    · intro bs hb
      have := h2 bs hb
      rw [if_neg (by omega)]
      exact ⟨good_ok, by intro bs' h; cases h; omega, h3⟩
  · rintro ⟨i, c⟩ x hI
    simp only [sliceEncoder]
    obtain ⟨h1, h2⟩ := h.start (x := x) hI
    refine step_good (full := full) (Q := fun q : Res Unit × (SliceState σ) => GoodRes full q.1 ∧ I q.2.inner) h1 ?_ ?_
    · exact fun q hq hn => ⟨hq, h2⟩
    · exact fun _ _ => ⟨good_ok, h2⟩

theorem encSafe_last {full : Bool} {E : Encoder σ α} {I : σ → Prop} (h : EncSafe full E I) :
    EncSafe full (lastEncoder E) (fun s => I s.inner) := by
  refine ⟨?_, ?_⟩
  · rintro ⟨i, item⟩ cap e hI he
    have hstep : ∀ (s : LastState σ α), I s.inner →
        (fun q : Res Bytes × LastState σ α => GoodRes full q.1 ∧ (∀ bs, q.1 = .ok bs → bs.length ≤ cap) ∧ I q.2.inner)
          (Res.step (E.encode s.inner cap e) (fun i => { s with inner := i }) fun bs i =>
            (.ok bs, { s with inner := i })) := by
      intro s hs
      obtain ⟨h1, h2, h3⟩ := h.encode (cap := cap) (e := e) hs he
      refine step_good (full := full) (Q := fun q : Res Bytes × (LastState σ α) => GoodRes full q.1 ∧ (∀ bs, q.1 = .ok bs → bs.length ≤ cap) ∧
        I q.2.inner) h1 ?_ ?_
      · exact fun q hq hn => ⟨hq, fun bs hb => absurd hb (hn bs), h3⟩
      · exact fun bs hb => ⟨good_ok, by intro bs' h; cases h; exact h2 _ hb, h3⟩
    simp only [lastEncoder]
    split
    · cases item with
      | none => exact hstep ⟨i, none⟩ hI
      | some y =>
        obtain ⟨h1, h2⟩ := h.start (x := y) hI
        refine step_good (full := full) (Q := fun q : Res Bytes × (LastState σ α) => GoodRes full q.1 ∧ (∀ bs, q.1 = .ok bs → bs.length ≤ cap) ∧
          I q.2.inner) h1 ?_ ?_
        · exact fun q hq hn => ⟨hq, fun bs hb => absurd hb (hn bs), h2⟩
        · exact fun _ _ => hstep ⟨_, none⟩ h2
    · exact hstep ⟨i, item⟩ hI
  · intro s x
    exact x.elim

theorem encSafe_reach {full : Bool} {E : Encoder σ α} {s₀ : σ} (h : SafeEncFrom full E s₀) :
    EncSafe full E (EncReach E s₀) where
  encode := fun hs he => ⟨⟨((h _ hs).1 _ _ he).1, ((h _ hs).1 _ _ he).2.1⟩, ((h _ hs).1 _ _ he).2.2,
    .encode _ _ hs he⟩
  start := fun hs => ⟨⟨((h _ hs).2 _).1, ((h _ hs).2 _).2⟩, .start _ hs⟩

theorem parts_encSafe {own : OwnEncoder} {pre : Bool}
    (hP : ∀ σ α (E : Encoder σ α) s, own σ α E s → SafeEncFrom (!pre) E s)
    {E : Encoder σ α} {s : σ} (h : AssembledEncWith own pre E s) :
    ∃ I, EncSafe (!pre) E I ∧ I s := by
  induction h with
  | own h => exact ⟨_, encSafe_reach (hP _ _ _ _ h), .refl⟩
  | bytes asRef => exact ⟨_, encSafe_bytes _ asRef, by simp [BytesEncoderState.new]⟩
  | number f => exact ⟨_, encSafe_number _ f, by simp [BytesEncoderState.new]⟩
  | utf8 => exact ⟨_, encSafe_utf8 _, by simp [BytesEncoderState.new]⟩
  | null => exact ⟨_, encSafe_null _, trivial⟩
  | padding => exact ⟨_, encSafe_padding _, trivial⟩
  | monolithic ser hs => exact ⟨_, encSafe_monolithic _ ser hs, by simp [MonoEncState.new, BytesEncoderState.new]⟩
  | mapErr f _ ih =>
    obtain ⟨I, h, h0⟩ := ih
    exact ⟨_, encSafe_mapErr f h, h0⟩
  | mapFrom f _ ih =>
    obtain ⟨I, h, h0⟩ := ih
    exact ⟨_, encSafe_mapFrom f h, h0⟩
  | tryMapFrom f _ ih =>
    obtain ⟨I, h, h0⟩ := ih
    exact ⟨_, encSafe_tryMapFrom f h, h0⟩
  | repeated _ ih =>
    obtain ⟨I, h, h0⟩ := ih
    exact ⟨_, encSafe_repeated h, h0⟩
  | optional _ ih =>
    obtain ⟨I, h, h0⟩ := ih
    exact ⟨_, encSafe_optional h, h0⟩
  | length n hn _ ih =>
    obtain ⟨I, h, h0⟩ := ih
    exact ⟨_, encSafe_length h, h0, hn, hn⟩
  | maxBytes _ _ ih =>
    obtain ⟨I, h, h0⟩ := ih
    exact ⟨_, encSafe_maxBytes h, h0⟩
  | preEncode hpre _ ih =>
    obtain ⟨I, h, h0⟩ := ih
    subst hpre
    exact ⟨_, encSafe_preEncode h, h0, by simp [PreEncodeState.new, BytesEncoderState.new]⟩
  | slice _ _ ih =>
    obtain ⟨I, h, h0⟩ := ih
    exact ⟨_, encSafe_slice h, h0⟩
  | last _ _ ih =>
    obtain ⟨I, h, h0⟩ := ih
    exact ⟨_, encSafe_last h, h0⟩
  | pair _ _ ih0 ih1 =>
    obtain ⟨I0, h0, a0⟩ := ih0
    obtain ⟨I1, h1, a1⟩ := ih1
    exact ⟨_, encSafe_pair h0 h1, a0, a1⟩

theorem assembledEnc_safe {pre : Bool} {E : Encoder σ α} {s : σ} (h : AssembledEnc pre E s) :
    ∃ I, EncSafe (!pre) E I ∧ I s :=
  parts_encSafe (fun _ _ _ _ h => h.elim) h

end Bytecodec
