import Verif.Spec.Encode
import Verif.Spec.Io
import Verif.Lemmas.TupleNested
/-!
# Lawful encoders

`Codes strict E P dom enc`: `P s bs` is an invariant saying that exactly `bs` is still to be emitted in
state `s`, and every method of `E` behaves accordingly.
-/
namespace Bytecodec

open Spec

variable {σ α β : Type}

structure Codes (strict : Bool) (E : Encoder σ α) (P : σ → Bytes → Prop) (dom : α → Prop)
    (enc : α → Except ErrorKind Bytes) : Prop where
  step : ∀ {s bs cap e}, P s bs → (e.isReached = true → bs.length ≤ cap) →
    ∃ s', E.encode s cap e = (.ok (bs.take cap), s') ∧ P s' (bs.drop cap) ∧
      (E.isIdle s' = true ↔ bs.length ≤ cap)
  full : strict = true → ∀ {s bs cap e}, P s bs → e.isReached = true → cap < bs.length →
    (E.encode s cap e).1 = .err .unexpectedEos
  idle : ∀ {s bs}, P s bs → E.isIdle s = true → bs = []
  startOk : ∀ {s x b}, P s [] → E.isIdle s = true → dom x → enc x = .ok b →
    ∃ s', E.start s x = (.ok (), s') ∧ P s' b
  startErr : ∀ {s x k}, P s [] → E.isIdle s = true → dom x → enc x = .error k →
    (E.start s x).1 = .err k
  req : ∀ {s bs}, P s bs → E.requiring s = .finite bs.length ∨
    (E.requiring s = .unknown ∧ E.isIdle s = false)

theorem Codes.weaken {strict strict' : Bool} {E : Encoder σ α} {P : σ → Bytes → Prop} {dom dom' : α → Prop}
    {enc enc' : α → Except ErrorKind Bytes} (h : Codes strict E P dom enc)
    (hd : ∀ x, dom' x → dom x ∧ enc' x = enc x) (hs : strict' = true → strict = true) :
    Codes strict' E P dom' enc' where
  step := h.step
  full := fun h' => h.full (hs h')
  idle := h.idle
  startOk := fun h1 h2 h3 h4 => h.startOk h1 h2 (hd _ h3).1 ((hd _ h3).2 ▸ h4)
  startErr := fun h1 h2 h3 h4 => h.startErr h1 h2 (hd _ h3).1 ((hd _ h3).2 ▸ h4)
  req := h.req

/-- In addition, the sizes are always known. -/
structure Exact (E : SizedEncoder σ α) (P : σ → Bytes → Prop) : Prop where
  exact : ∀ {s bs}, P s bs → E.exact s = bs.length
  fin : ∀ {s bs}, P s bs → E.requiring s = .finite bs.length

/-! ## Byte strings -/

/-- The bytes left in a `BytesEncoder`. -/
def BytesLeft (asRef : β → Bytes) (s : BytesEncoderState β) (bs : Bytes) : Prop :=
  match s.bytes with
  | some b => s.offset ≤ (asRef b).length ∧ bs = (asRef b).drop s.offset
  | none => bs = []

theorem bytesLeft_new (asRef : β → Bytes) : BytesLeft asRef .new [] := rfl

theorem codes_bytes (asRef : β → Bytes) (strict : Bool) :
    Codes strict (bytesEncoder asRef).toEncoder (BytesLeft asRef) (fun _ => True)
      (fun x => .ok (asRef x)) where
  step := by
    rintro ⟨b, off⟩ bs cap e h he
    cases b with
    | none =>
      simp only [BytesLeft] at h
      subst h
      exact ⟨⟨none, off⟩, by simp [bytesEncoder], by simp [BytesLeft], by simp [bytesEncoder]⟩
    | some b =>
      simp only [BytesLeft] at h
      obtain ⟨h1, rfl⟩ := h
      simp only [List.length_drop] at he
      simp only [bytesEncoder, if_neg (show ¬ (asRef b).length < off by omega)]
      have ht : ((asRef b).drop off).take (min cap ((asRef b).length - off)) = ((asRef b).drop off).take cap := by
        rw [← List.take_take, List.take_of_length_le (l := (asRef b).drop off) (by simp)]
      rcases Nat.lt_or_ge cap ((asRef b).length - off) with hc | hc
      · rw [if_neg (by omega), if_neg (by intro hr; have := he hr; omega)]
        refine ⟨⟨some b, off + min cap ((asRef b).length - off)⟩, by rw [ht], ?_, ?_⟩
        · simp only [BytesLeft]
          refine ⟨by omega, ?_⟩
          rw [List.drop_drop]; congr 1; omega
        · simp; omega
      · rw [if_pos (by omega)]
        refine ⟨_, by rw [ht], ?_, ?_⟩
        · simp only [BytesLeft]
          exact List.drop_eq_nil_of_le (by simp; omega)
        · simp; omega
  full := by
    rintro _ ⟨b, off⟩ bs cap e h he hc
    cases b with
    | none =>
      simp only [BytesLeft] at h
      subst h
      simp at hc
    | some b =>
      simp only [BytesLeft] at h
      obtain ⟨h1, rfl⟩ := h
      simp only [List.length_drop] at hc
      simp only [bytesEncoder, if_neg (show ¬ (asRef b).length < off by omega)]
      rw [if_neg (by omega), if_pos he]
  idle := by
    rintro ⟨b, off⟩ bs h hi
    cases b with
    | none => exact h
    | some b => simp [bytesEncoder] at hi
  startOk := by
    rintro ⟨b, off⟩ x b' h hi _ hx
    cases b with
    | none =>
      cases hx
      exact ⟨_, rfl, by simp [BytesLeft]⟩
    | some b => simp [bytesEncoder] at hi
  startErr := by
    rintro s x k _ _ _ hx
    cases hx
  req := by
    rintro ⟨b, off⟩ bs h
    left
    cases b with
    | none =>
      simp only [BytesLeft] at h
      subst h
      rfl
    | some b =>
      simp only [BytesLeft] at h
      obtain ⟨h1, rfl⟩ := h
      simp [bytesEncoder, BytesEncoderState.exact]

theorem exact_bytes (asRef : β → Bytes) : Exact (bytesEncoder asRef) (BytesLeft asRef) := by
  have : ∀ {s bs}, BytesLeft asRef s bs → (bytesEncoder asRef).exact s = bs.length := by
    rintro ⟨b, off⟩ bs h
    cases b with
    | none =>
      simp only [BytesLeft] at h
      subst h
      rfl
    | some b =>
      simp only [BytesLeft] at h
      obtain ⟨h1, rfl⟩ := h
      simp [bytesEncoder, BytesEncoderState.exact]
  exact ⟨this, fun h => by rw [← this h]; rfl⟩

theorem codes_number {α : Type} (f : α → Except ErrorKind Bytes) (strict : Bool) :
    Codes strict (fixEncoder f).toEncoder (BytesLeft id) (fun _ => True) f := by
  have h := codes_bytes (id : Bytes → Bytes) strict
  refine ⟨h.step, h.full, h.idle, ?_, ?_, h.req⟩
  · intro s x b h1 h2 _ hx
    have := h.startOk h1 h2 trivial (x := b) rfl
    simpa only [fixEncoder, hx, id] using this
  · intro s x k h1 h2 _ hx
    simp only [fixEncoder, hx]

theorem exact_number {α : Type} (f : α → Except ErrorKind Bytes) : Exact (fixEncoder f) (BytesLeft id) := by
  have h := exact_bytes (id : Bytes → Bytes)
  exact ⟨h.exact, h.fin⟩

theorem codes_utf8 (strict : Bool) : Codes strict utf8Encoder.toEncoder (BytesLeft utf8Bytes) (fun _ => True)
    (fun x => .ok (utf8Bytes x)) := by
  have h := codes_bytes utf8Bytes strict
  exact ⟨h.step, h.full, h.idle, h.startOk, h.startErr, h.req⟩

theorem exact_utf8 : Exact utf8Encoder (BytesLeft utf8Bytes) := by
  have h := exact_bytes utf8Bytes
  exact ⟨h.exact, h.fin⟩

theorem codes_null (strict : Bool) : Codes strict nullEncoder.toEncoder (fun _ bs => bs = []) (fun _ => True)
    (fun _ => .ok []) where
  step := by rintro s bs cap e rfl _; exact ⟨s, by simp [nullEncoder], by simp, by simp [nullEncoder]⟩
  full := by rintro _ s bs cap e rfl _ hc; simp at hc
  idle := fun h _ => h
  startOk := by rintro s x b _ _ _ hx; cases hx; exact ⟨s, rfl, rfl⟩
  startErr := by rintro s x k _ _ _ hx; cases hx
  req := by rintro s bs rfl; exact .inl rfl

theorem exact_null : Exact nullEncoder (fun _ bs => bs = []) :=
  ⟨by rintro s bs rfl; rfl, by rintro s bs rfl; rfl⟩

/-! ## Mapping -/

theorem codes_mapErr {strict : Bool} {E : Encoder σ α} {P dom enc} (f : ErrorKind → ErrorKind)
    (hf : strict = true → f .unexpectedEos = .unexpectedEos) (h : Codes strict E P dom enc) :
    Codes strict (mapErrEncoder E f) P dom (fun x => (enc x).mapError f) where
  step := by
    intro s bs cap e hp he
    obtain ⟨s', h1, h2⟩ := h.step hp he
    exact ⟨s', by simp only [mapErrEncoder, h1, Res.mapErr], h2⟩
  full := by
    intro hs s bs cap e hp he hc
    simp only [mapErrEncoder, h.full hs hp he hc, Res.mapErr, hf hs]
  idle := h.idle
  startOk := by
    intro s x b hp hi hd hx
    cases hex : enc x with
    | error k => simp [hex, Except.mapError] at hx
    | ok b' =>
      simp only [hex, Except.mapError, Except.ok.injEq] at hx
      subst hx
      obtain ⟨s', h1, h2⟩ := h.startOk hp hi hd hex
      exact ⟨s', by simp only [mapErrEncoder, h1, Res.mapErr], h2⟩
  startErr := by
    intro s x k hp hi hd hx
    cases hex : enc x with
    | ok b => simp [hex, Except.mapError] at hx
    | error k' =>
      simp only [hex, Except.mapError, Except.error.injEq] at hx
      subst hx
      simp only [mapErrEncoder, h.startErr hp hi hd hex, Res.mapErr]
  req := h.req

theorem codes_mapFrom {strict : Bool} {E : Encoder σ α} {P dom enc} (f : β → α)
    (h : Codes strict E P dom enc) :
    Codes strict (mapFromEncoder E f) P (fun x => dom (f x)) (fun x => enc (f x)) :=
  ⟨h.step, h.full, h.idle, fun h1 h2 h3 h4 => h.startOk h1 h2 h3 h4,
    fun h1 h2 h3 h4 => h.startErr h1 h2 h3 h4, h.req⟩

theorem codes_tryMapFrom {strict : Bool} {E : Encoder σ α} {P dom enc} (f : β → Except ErrorKind α)
    (h : Codes strict E P dom enc) :
    Codes strict (tryMapFromEncoder E f) P (fun x => ∀ y, f x = .ok y → dom y)
      (fun x => (f x).bind enc) := by
  refine ⟨h.step, h.full, h.idle, ?_, ?_, h.req⟩
  · intro s x b hp hi hd hx
    cases hf : f x with
    | error k => simp [hf, Except.bind] at hx
    | ok y =>
      simp only [hf, Except.bind] at hx
      simpa only [tryMapFromEncoder, hf] using h.startOk hp hi (hd y hf) hx
  · intro s x k hp hi hd hx
    cases hf : f x with
    | error k' =>
      simp only [hf, Except.bind, Except.error.injEq] at hx
      simp only [tryMapFromEncoder, hf, hx]
    | ok y =>
      simp only [hf, Except.bind] at hx
      simpa only [tryMapFromEncoder, hf] using h.startErr hp hi (hd y hf) hx

theorem codes_optional {strict : Bool} {E : Encoder σ α} {P dom enc} (h : Codes strict E P dom enc) :
    Codes strict (optionalEncoder E) P (fun o => ∀ x, o = some x → dom x)
      (fun o => match o with | some x => enc x | none => .ok []) := by
  refine ⟨h.step, h.full, h.idle, ?_, ?_, h.req⟩
  · intro s o b hp hi hd hx
    cases o with
    | none => cases hx; exact ⟨s, rfl, hp⟩
    | some x => exact h.startOk hp hi (hd x rfl) hx
  · intro s o k hp hi hd hx
    cases o with
    | none => cases hx
    | some x => exact h.startErr hp hi (hd x rfl) hx

/-! ## Limits -/

/-- The bytes left in a `MaxBytes`: the counter leaves room for them, and is zero between items. -/
def MaxLeft (E : Encoder σ α) (P : σ → Bytes → Prop) (n : Nat) (s : MaxBytesState σ) (bs : Bytes) : Prop :=
  P s.inner bs ∧ s.max = n ∧ s.consumed + bs.length ≤ n ∧ (E.isIdle s.inner = true → s.consumed = 0)

theorem codes_maxBytes {strict : Bool} {E : Encoder σ α} {P dom enc} (n : Nat) (h : Codes strict E P dom enc) :
    Codes strict (maxBytesEncoder E) (MaxLeft E P n) (fun x => dom x ∧ (bytesOf (enc x)).length ≤ n) enc where
  step := by
    rintro ⟨i, c, m⟩ bs cap e ⟨hp, rfl, hc, hz⟩ he
    obtain ⟨s', h1, h2, h3⟩ := h.step hp he
    simp only at hc hz
    have hl : (bs.take cap).length ≤ bs.length := by simp; omega
    have hn : ¬ m < c + (bs.take cap).length := by omega
    simp only [maxBytesEncoder, h1, Res.step, if_neg hn]
    by_cases hi : E.isIdle s' = true
    · rw [if_pos hi]
      refine ⟨_, rfl, ⟨h2, rfl, ?_, fun _ => rfl⟩, h3⟩
      simp only [List.length_drop]; omega
    · rw [if_neg hi]
      refine ⟨_, rfl, ⟨h2, rfl, ?_, fun hi' => absurd hi' hi⟩, h3⟩
      simp only [List.length_drop, List.length_take]; omega
  full := by
    rintro hs ⟨i, c, m⟩ bs cap e ⟨hp, _⟩ he hcap
    have h1 := h.full hs hp he hcap
    rcases hq : E.encode i cap e with ⟨r, s'⟩
    simp only at h1
    rw [hq] at h1
    simp only at h1
    subst h1
    simp only [maxBytesEncoder, hq, Res.step]
  idle := fun hp hi => h.idle hp.1 hi
  startOk := by
    rintro ⟨i, c, m⟩ x b ⟨hp, rfl, hc, hz⟩ hi ⟨hd, hl⟩ hx
    obtain ⟨s', h1, h2⟩ := h.startOk hp hi hd hx
    have : c = 0 := hz hi
    subst this
    rw [hx] at hl
    exact ⟨⟨s', 0, m⟩, by simp only [maxBytesEncoder, h1, Res.step], h2, rfl, by simpa [bytesOf] using hl, fun _ => rfl⟩
  startErr := by
    rintro ⟨i, c, m⟩ x k ⟨hp, _⟩ hi ⟨hd, _⟩ hx
    have h1 := h.startErr hp hi hd hx
    rcases hq : E.start i x with ⟨r, s'⟩
    simp only at h1
    rw [hq] at h1
    simp only at h1
    subst h1
    simp only [maxBytesEncoder, hq, Res.step]
  req := fun hp => h.req hp.1

/-! ## Pairs -/

/-- The bytes left in a pair: those of the first component, then those of the second. -/
def PairLeft {σ0 σ1 : Type} (P0 : σ0 → Bytes → Prop) (P1 : σ1 → Bytes → Prop) (s : σ0 × σ1) (bs : Bytes) : Prop :=
  ∃ b0 b1, P0 s.1 b0 ∧ P1 s.2 b1 ∧ bs = b0 ++ b1

theorem tryEncode_codes {strict : Bool} {E : Encoder σ α} {P dom enc} (h : Codes strict E P dom enc)
    {s : σ} {bs out : Bytes} {cap : Nat} {e : Eos} (hp : P s bs) (ho : out.length ≤ cap)
    (he : e.isReached = true → out.length + bs.length ≤ cap) :
    ∃ s', P s' (bs.drop (cap - out.length)) ∧
      (out.length + bs.length ≤ cap ∧ E.isIdle s' = true ∧
          tryEncode E s out cap e = .next (out ++ bs) s' ∨
        cap < out.length + bs.length ∧ E.isIdle s' = false ∧
          tryEncode E s out cap e = .ret (.ok ((out ++ bs).take cap)) s') := by
  by_cases hi : E.isIdle s = true
  · have := h.idle hp hi
    subst this
    exact ⟨s, by simpa using hp, .inl ⟨by simpa using ho, hi, by simp [tryEncode, hi]⟩⟩
  · obtain ⟨s', h1, h2, h3⟩ := h.step (cap := cap - out.length) (e := e) hp (by intro hr; have := he hr; omega)
    refine ⟨s', h2, ?_⟩
    simp only [tryEncode, if_neg hi, if_neg (show ¬ cap < out.length by omega), h1]
    by_cases hc : bs.length ≤ cap - out.length
    · left
      rw [if_pos (h3.2 hc), List.take_of_length_le hc]
      exact ⟨by omega, h3.2 hc, rfl⟩
    · right
      have hn : E.isIdle s' = false := by
        cases hx : E.isIdle s' with
        | false => rfl
        | true => exact absurd (h3.1 hx) hc
      rw [hn]
      refine ⟨by omega, rfl, ?_⟩
      simp only [Bool.false_eq_true, if_false]
      rw [List.take_append, List.take_of_length_le (l := out) ho]

theorem tryEncode_full {E : Encoder σ α} {P dom enc} (h : Codes true E P dom enc)
    {s : σ} {bs out : Bytes} {cap : Nat} {e : Eos} (hp : P s bs) (ho : out.length ≤ cap)
    (he : e.isReached = true) (hc : cap < out.length + bs.length) :
    ∃ s', tryEncode E s out cap e = .ret (.err .unexpectedEos) s' := by
  have hi : ¬ E.isIdle s = true := by
    intro hi
    have := h.idle hp hi
    subst this
    simp at hc
    omega
  have h1 := h.full rfl hp he (show cap - out.length < bs.length by omega)
  rcases hq : E.encode s (cap - out.length) e with ⟨r, s'⟩
  rw [hq] at h1
  simp only at h1
  subst h1
  exact ⟨s', by simp only [tryEncode, if_neg hi, if_neg (show ¬ cap < out.length by omega), hq]⟩

theorem codes_pair {strict : Bool} {σ0 α0 σ1 α1 : Type} {E0 : Encoder σ0 α0} {E1 : Encoder σ1 α1} {P0 dom0 enc0 P1 dom1 enc1}
    (h0 : Codes strict E0 P0 dom0 enc0) (h1 : Codes strict E1 P1 dom1 enc1) :
    Codes strict (tupleEncoder2 E0 E1) (PairLeft P0 P1) (fun x => dom0 x.1 ∧ dom1 x.2)
      (fun x => (enc0 x.1).bind fun b0 => (enc1 x.2).bind fun b1 => .ok (b0 ++ b1)) where
  step := by
    rintro ⟨s0, s1⟩ bs cap e ⟨b0, b1, hp0, hp1, rfl⟩ he
    simp only at hp0 hp1
    simp only [List.length_append] at he
    obtain ⟨t0, q0, ⟨c0, i0, r0⟩ | ⟨c0, i0, r0⟩⟩ := tryEncode_codes h0 hp0 (out := []) (cap := cap) (e := e) (by simp)
      (by intro hr; have := he hr; simp; omega)
    · simp only [List.nil_append, List.length_nil, Nat.zero_add, Nat.sub_zero] at c0 r0 q0
      obtain ⟨t1, q1, ⟨c1, i1, r1⟩ | ⟨c1, i1, r1⟩⟩ := tryEncode_codes h1 hp1 (out := b0) (cap := cap) (e := e) c0 he
      · refine ⟨(t0, t1), ?_, ⟨[], [], ?_, ?_, ?_⟩, ?_⟩
        · simp only [tupleEncoder2, r0, r1]
          rw [List.take_of_length_le (by simp; omega)]
        · rw [List.drop_of_length_le c0] at q0; exact q0
        · rw [List.drop_of_length_le (by omega)] at q1; exact q1
        · rw [List.drop_of_length_le (by simp; omega)]; rfl
        · simp [tupleEncoder2, i0, i1]; omega
      · refine ⟨(t0, t1), ?_, ⟨[], _, ?_, q1, ?_⟩, ?_⟩
        · simp only [tupleEncoder2, r0, r1]
        · rw [List.drop_of_length_le c0] at q0; exact q0
        · rw [List.drop_append, List.drop_of_length_le c0]
        · simp [tupleEncoder2, i0, i1]; omega
    · simp only [List.nil_append, List.length_nil, Nat.zero_add, Nat.sub_zero] at c0 r0 q0
      refine ⟨(t0, s1), ?_, ⟨_, b1, q0, hp1, ?_⟩, ?_⟩
      · simp only [tupleEncoder2, r0]
        rw [List.take_append_of_le_length (by omega)]
      · rw [List.drop_append_of_le_length (by omega)]
      · simp [tupleEncoder2, i0]; omega
  full := by
    rintro rfl ⟨s0, s1⟩ bs cap e ⟨b0, b1, hp0, hp1, rfl⟩ he hc
    simp only at hp0 hp1
    simp only [List.length_append] at hc
    by_cases c : b0.length ≤ cap
    · obtain ⟨t0, q0, ⟨c0, i0, r0⟩ | ⟨c0, i0, r0⟩⟩ := tryEncode_codes h0 hp0 (out := []) (cap := cap) (e := e) (by simp)
        (by simpa using fun _ => c)
      · simp only [List.nil_append] at r0
        obtain ⟨t1, r1⟩ := tryEncode_full h1 hp1 c he hc
        simp only [tupleEncoder2, r0, r1]
      · simp at c0; omega
    · obtain ⟨t0, r0⟩ := tryEncode_full h0 hp0 (out := []) (cap := cap) (by simp) he (by simp; omega)
      simp only [tupleEncoder2, r0]
  idle := by
    rintro ⟨s0, s1⟩ bs ⟨b0, b1, hp0, hp1, rfl⟩ hi
    simp only [tupleEncoder2, Bool.and_eq_true] at hi
    rw [h0.idle hp0 hi.1, h1.idle hp1 hi.2]
    rfl
  startOk := by
    rintro ⟨s0, s1⟩ ⟨x0, x1⟩ b ⟨b0, b1, hp0, hp1, hb⟩ hi ⟨hd0, hd1⟩ hx
    simp only at hp0 hp1
    simp only [tupleEncoder2, Bool.and_eq_true] at hi
    obtain ⟨rfl, rfl⟩ := List.append_eq_nil_iff.1 hb.symm
    cases e0 : enc0 x0 with
    | error k => simp [e0, Except.bind] at hx
    | ok c0 =>
      cases e1 : enc1 x1 with
      | error k => simp [e0, e1, Except.bind] at hx
      | ok c1 =>
        simp only [e0, e1, Except.bind, Except.ok.injEq] at hx
        obtain ⟨t0, r0, q0⟩ := h0.startOk hp0 hi.1 hd0 e0
        obtain ⟨t1, r1, q1⟩ := h1.startOk hp1 hi.2 hd1 e1
        exact ⟨(t0, t1), by simp only [tupleEncoder2, r0, r1, Res.step], c0, c1, q0, q1, hx.symm⟩
  startErr := by
    rintro ⟨s0, s1⟩ ⟨x0, x1⟩ k ⟨b0, b1, hp0, hp1, hb⟩ hi ⟨hd0, hd1⟩ hx
    simp only at hp0 hp1
    simp only [tupleEncoder2, Bool.and_eq_true] at hi
    obtain ⟨rfl, rfl⟩ := List.append_eq_nil_iff.1 hb.symm
    cases e0 : enc0 x0 with
    | error k' =>
      simp only [e0, Except.bind, Except.error.injEq] at hx
      subst hx
      have r0 := h0.startErr hp0 hi.1 hd0 e0
      rcases hq : E0.start s0 x0 with ⟨r, t⟩
      rw [hq] at r0
      simp only at r0
      subst r0
      simp only [tupleEncoder2, hq, Res.step]
    | ok c0 =>
      obtain ⟨t0, r0, q0⟩ := h0.startOk hp0 hi.1 hd0 e0
      cases e1 : enc1 x1 with
      | ok c1 => simp [e0, e1, Except.bind] at hx
      | error k' =>
        simp only [e0, e1, Except.bind, Except.error.injEq] at hx
        subst hx
        have r1 := h1.startErr hp1 hi.2 hd1 e1
        rcases hq : E1.start s1 x1 with ⟨r, t⟩
        rw [hq] at r1
        simp only at r1
        subst r1
        simp only [tupleEncoder2, r0, hq, Res.step]
  req := by
    rintro ⟨s0, s1⟩ bs ⟨b0, b1, hp0, hp1, rfl⟩
    simp only at hp0 hp1
    simp only [tupleEncoder2, enc_zero]
    rcases h0.req hp0 with r0 | ⟨r0, i0⟩ <;> rcases h1.req hp1 with r1 | ⟨r1, i1⟩
    · left; simp [r0, r1, ByteCount.addForEncoding]
    · right; simp [r0, r1, ByteCount.addForEncoding, i1]
    · right; simp [r0, r1, ByteCount.addForEncoding, i0]
    · right; simp [r0, r1, ByteCount.addForEncoding, i1]

theorem exact_pair {σ0 α0 σ1 α1 : Type} {E0 : SizedEncoder σ0 α0} {E1 : SizedEncoder σ1 α1} {P0 P1}
    (h0 : Exact E0 P0) (h1 : Exact E1 P1) : Exact (sizedTupleEncoder2 E0 E1) (PairLeft P0 P1) where
  exact := by
    rintro ⟨s0, s1⟩ bs ⟨b0, b1, hp0, hp1, rfl⟩
    simp [sizedTupleEncoder2, h0.exact hp0, h1.exact hp1]
  fin := by
    rintro ⟨s0, s1⟩ bs ⟨b0, b1, hp0, hp1, rfl⟩
    simp only at hp0 hp1
    simp [sizedTupleEncoder2, tupleEncoder2, enc_zero, h0.fin hp0, h1.fin hp1, ByteCount.addForEncoding]

end Bytecodec
