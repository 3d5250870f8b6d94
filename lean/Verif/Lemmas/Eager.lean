import Verif.Lemmas.CodesIo
import Verif.Lemmas.SafeEnc
import Verif.Spec.AssembledEnc
/-!
# Encoders that fill their buffers in every state
-/
namespace Bytecodec

open Spec

variable {σ α β : Type}

/-- The law: in the states of the invariant `I`, a successful call that leaves the encoder busy has
filled the buffer. -/
structure Fills (E : Encoder σ α) (I : σ → Prop) : Prop where
  fill : ∀ {s cap e bs s'}, I s → EosSane e cap → E.encode s cap e = (.ok bs, s') → E.isIdle s' = false → bs.length = cap
  encode : ∀ {s} cap e, EosSane e cap → I s → I (E.encode s cap e).2
  start : ∀ {s} x, I s → I (E.start s x).2

theorem Fills.reach {E : Encoder σ α} {I : σ → Prop} (h : Fills E I) {s₀ s : σ} (h0 : I s₀)
    (hr : EncReach E s₀ s) : I s := by
  induction hr with
  | refl => exact h0
  | encode cap e _ he ih => exact h.encode cap e he ih
  | start x _ ih => exact h.start x ih

theorem bytes_fill (asRef : β → Bytes) {s : BytesEncoderState β} {cap : Nat} {e : Eos} {bs : Bytes}
    {s' : BytesEncoderState β} (h : (bytesEncoder asRef).encode s cap e = (.ok bs, s'))
    (hi : (bytesEncoder asRef).isIdle s' = false) : bs.length = cap := by
  obtain ⟨b, off⟩ := s
  cases b with
  | none => cases h; cases hi
  | some b =>
    simp only [bytesEncoder] at h
    split at h
    · cases h
    · split at h
      · cases h; cases hi
      · split at h
        · cases h
        · cases h
          simp only [List.length_take, List.length_drop]
          omega

theorem fills_bytes (asRef : β → Bytes) : Fills (bytesEncoder asRef).toEncoder (fun _ => True) :=
  ⟨fun _ _ h hi => bytes_fill asRef h hi, fun _ _ _ _ => trivial, fun _ _ => trivial⟩

theorem fills_padding : Fills paddingEncoder (fun _ => True) where
  fill := by
    intro s cap e bs s' _ _ h hi
    cases s with
    | none => cases h; cases hi
    | some b => cases h; simp
  encode := fun _ _ _ _ => trivial
  start := fun _ _ => trivial

theorem fills_monolithic (ser : MonolithicSerializer α) :
    Fills (monolithicEncoder ser) (fun s => s.item.isSome = true → s.buf.bytes = none) where
  fill := by
    rintro ⟨item, buf⟩ cap e bs s' hI _ h hi
    cases item with
    | none =>
      simp only [monolithicEncoder] at h
      generalize hp : (bytesEncoder id).encode buf cap e = p at h
      obtain ⟨r, b⟩ := p
      cases r <;> simp only [Res.step] at h <;> cases h
      exact bytes_fill id hp (by simpa [monolithicEncoder] using hi)
    | some x =>
      have hb : buf.bytes = none := hI rfl
      simp only [monolithicEncoder, serialize_chain, Res.step] at h
      generalize (ser x).2 = r at h
      cases r <;> simp only at h <;> try cases h
      split at h
      · cases h
        simp [monolithicEncoder, bytesEncoder, hb] at hi
      · next hne =>
        simp only [bytesEncoder, hb, Option.isNone_none, if_true] at h
        cases h
        simp only [List.nil_append, List.isEmpty_iff, List.drop_eq_nil_iff] at hne ⊢
        rw [List.length_take]
        omega
  encode := by
    rintro ⟨item, buf⟩ cap e _ hI
    cases item with
    | none =>
      simp only [monolithicEncoder]
      generalize (bytesEncoder id).encode buf cap e = p
      obtain ⟨r, b⟩ := p
      cases r <;> simp [Res.step]
    | some x =>
      simp only [monolithicEncoder, serialize_chain, Res.step]
      generalize (ser x).2 = r
      cases r <;> simp only <;> try simp
      split
      · simp
      · have hb : buf.bytes = none := hI rfl
        simp [bytesEncoder, hb]
  start := by
    rintro ⟨item, buf⟩ x hI
    simp only [monolithicEncoder]
    split
    · next h => simp only [Bool.and_eq_true] at h; intro _; simpa [bytesEncoder] using h.2
    · exact hI

theorem fills_mapErr {E : Encoder σ α} {I : σ → Prop} (h : Fills E I) (f : ErrorKind → ErrorKind) :
    Fills (mapErrEncoder E f) I where
  fill := by
    intro s cap e bs s' hI hs he hi
    simp only [mapErrEncoder] at he
    generalize hp : E.encode s cap e = p at he
    obtain ⟨r, t⟩ := p
    cases r <;> simp only [Res.mapErr] at he <;> cases he
    exact h.fill hI hs hp hi
  encode := fun cap e hs hI => h.encode cap e hs hI
  start := fun x hI => h.start x hI

theorem fills_mapFrom {E : Encoder σ α} {I : σ → Prop} (h : Fills E I) (f : β → α) :
    Fills (mapFromEncoder E f) I := ⟨h.fill, h.encode, fun x hI => h.start (f x) hI⟩

theorem fills_tryMapFrom {E : Encoder σ α} {I : σ → Prop} (h : Fills E I) (f : β → Except ErrorKind α) :
    Fills (tryMapFromEncoder E f) I := by
  refine ⟨h.fill, h.encode, fun x hI => ?_⟩
  simp only [tryMapFromEncoder]
  cases f x with
  | ok y => exact h.start y hI
  | error k => exact hI

theorem fills_optional {E : Encoder σ α} {I : σ → Prop} (h : Fills E I) : Fills (optionalEncoder E) I := by
  refine ⟨h.fill, h.encode, fun x hI => ?_⟩
  cases x with
  | none => exact hI
  | some x => exact h.start x hI

theorem fills_maxBytes {E : Encoder σ α} {I : σ → Prop} (h : Fills E I) :
    Fills (maxBytesEncoder E) (fun s => I s.inner) where
  fill := by
    intro s cap e bs s' hI hs he hi
    simp only [maxBytesEncoder] at he
    generalize hp : E.encode s.inner cap e = p at he
    obtain ⟨r, t⟩ := p
    cases r <;> simp only [Res.step] at he <;> try cases he
    split at he
    · cases he
    · split at he
      · next hidle => cases he; rw [show (maxBytesEncoder E).isIdle _ = E.isIdle t from rfl, hidle] at hi; cases hi
      · next hidle => cases he; exact h.fill hI hs hp (by simpa using hidle)
  encode := by
    intro s cap e hs hI
    have := h.encode cap e hs hI
    simp only [maxBytesEncoder]
    generalize E.encode s.inner cap e = p at this
    obtain ⟨r, t⟩ := p
    cases r <;> simp only [Res.step] <;> try exact this
    split
    · exact this
    · split <;> exact this
  start := by
    intro s x hI
    have := h.start x hI
    simp only [maxBytesEncoder]
    generalize E.start s.inner x = p at this
    obtain ⟨r, t⟩ := p
    cases r <;> simp only [Res.step] <;> exact this

theorem fills_preEncode (E : Encoder σ α) : Fills (preEncodeEncoder E).toEncoder (fun _ => True) where
  fill := by
    intro s cap e bs s' _ _ he hi
    simp only [preEncodeEncoder] at he
    generalize hp : (bytesEncoder id).encode s.preEncoded cap e = p at he
    obtain ⟨r, t⟩ := p
    cases r <;> simp only [Res.step] at he <;> cases he
    exact bytes_fill id hp hi
  encode := fun _ _ _ _ => trivial
  start := fun _ _ => trivial

/-- A component of a tuple: falling through, or returning with a full buffer. -/
theorem try_fill {E : Encoder σ α} {I : σ → Prop} (h : Fills E I) {s : σ} (hI : I s) {out : Bytes}
    {cap : Nat} {e : Eos} (hs : EosSane e cap) :
    (∀ bs s', tryEncode E s out cap e = .ret (.ok bs) s' → bs.length = cap) ∧
    (∀ r s', tryEncode E s out cap e = .ret r s' → I s') ∧
    (∀ bs s', tryEncode E s out cap e = .next bs s' → I s' ∧ E.isIdle s' = true) := by
  unfold tryEncode
  by_cases h1 : E.isIdle s = true
  · simp only [if_pos h1]
    exact ⟨nofun, nofun, fun _ _ h => by cases h; exact ⟨hI, h1⟩⟩
  · by_cases h2 : cap < out.length
    · simp only [if_neg h1, if_pos h2]
      exact ⟨nofun, fun _ _ h => by cases h; exact hI, nofun⟩
    · simp only [if_neg h1, if_neg h2]
      have hinv := h.encode (cap - out.length) e (hs.mono (by omega)) hI
      generalize hp : E.encode s (cap - out.length) e = p at hinv ⊢
      obtain ⟨r, t⟩ := p
      cases r with
      | ok bs =>
        by_cases h3 : E.isIdle t = true
        · simp only [if_pos h3]
          exact ⟨nofun, nofun, fun _ _ h => by cases h; exact ⟨hinv, h3⟩⟩
        · simp only [if_neg h3]
          refine ⟨fun b s' hb => ?_, fun _ _ h => by cases h; exact hinv, nofun⟩
          cases hb
          have := h.fill hI (hs.mono (by omega)) hp (by simpa using h3)
          simp only [List.length_append]
          omega
      | err k => exact ⟨nofun, fun _ _ h => by cases h; exact hinv, nofun⟩
      | panic => exact ⟨nofun, fun _ _ h => by cases h; exact hinv, nofun⟩
      | capacity => exact ⟨nofun, fun _ _ h => by cases h; exact hinv, nofun⟩
      | diverge => exact ⟨nofun, fun _ _ h => by cases h; exact hinv, nofun⟩

theorem fills_pair {σ0 α0 σ1 α1 : Type} {E0 : Encoder σ0 α0} {E1 : Encoder σ1 α1} {I0 : σ0 → Prop}
    {I1 : σ1 → Prop} (h0 : Fills E0 I0) (h1 : Fills E1 I1) :
    Fills (tupleEncoder2 E0 E1) (fun s => I0 s.1 ∧ I1 s.2) where
  fill := by
    intro s cap e bs s' hI hs he hi
    simp only [tupleEncoder2] at he
    have a0 := try_fill h0 hI.1 (out := []) (cap := cap) (e := e) hs
    generalize tryEncode E0 s.1 [] cap e = p at he a0
    cases p with
    | ret r t => cases he; exact a0.1 _ _ rfl
    | next o t =>
      simp only at he
      have a1 := try_fill h1 hI.2 (out := o) (cap := cap) (e := e) hs
      generalize tryEncode E1 s.2 o cap e = p at he a1
      cases p with
      | ret r t => cases he; exact a1.1 _ _ rfl
      | next o t' =>
        cases he
        simp only [tupleEncoder2, (a0.2.2 _ _ rfl).2, (a1.2.2 _ _ rfl).2, Bool.and_self] at hi
        cases hi
  encode := by
    intro s cap e hs hI
    simp only [tupleEncoder2]
    have a0 := try_fill h0 hI.1 (out := []) (cap := cap) (e := e) hs
    generalize tryEncode E0 s.1 [] cap e = p at a0
    cases p with
    | ret r t => exact ⟨a0.2.1 _ _ rfl, hI.2⟩
    | next o t =>
      simp only
      have a1 := try_fill h1 hI.2 (out := o) (cap := cap) (e := e) hs
      generalize tryEncode E1 s.2 o cap e = p at a1
      cases p with
      | ret r t' => exact ⟨(a0.2.2 _ _ rfl).1, a1.2.1 _ _ rfl⟩
      | next o t' => exact ⟨(a0.2.2 _ _ rfl).1, (a1.2.2 _ _ rfl).1⟩
  start := by
    intro s x hI
    simp only [tupleEncoder2]
    have b0 := h0.start x.1 hI.1
    generalize E0.start s.1 x.1 = p at b0
    obtain ⟨r, t⟩ := p
    cases r <;> simp only [Res.step] <;> try exact ⟨b0, hI.2⟩
    have b1 := h1.start x.2 hI.2
    generalize E1.start s.2 x.2 = p at b1
    obtain ⟨r, t'⟩ := p
    cases r <;> simp only <;> exact ⟨b0, b1⟩

/-- A frame cuts the buffer only at its own end, where it is complete or fails. -/
theorem fills_length {E : Encoder σ α} {I : σ → Prop} (h : Fills E I) :
    Fills (lengthEncoder E).toEncoder (fun s => I s.inner ∧ s.remaining < 2 ^ 64 ∧ s.expected < 2 ^ 64) where
  fill := by
    rintro ⟨i, x, r⟩ cap e bs s' ⟨hI, hr, _⟩ hs he hi
    simp only at hI hr
    simp only [lengthEncoder] at he
    split at he
    · cases he
    · have hes : EosSane (if cap < r then e else Eos.new true) (if cap < r then cap else r) := by
        split
        · exact hs
        · exact .new true hr
      generalize hp : E.encode i (if cap < r then cap else r) (if cap < r then e else Eos.new true) = p at he
      obtain ⟨q, t⟩ := p
      cases q <;> simp only [Res.step] at he <;> try cases he
      split at he
      · cases he
      · split at he
        · cases he
        · next hlt hni =>
          cases he
          have hrem : r - bs.length ≠ 0 := by simpa [lengthEncoder] using hi
          have hb : E.isIdle t = false := by
            cases hq : E.isIdle t with
            | false => rfl
            | true => exact absurd ⟨hq, hrem⟩ hni
          have := h.fill hI hes hp hb
          split at this
          · exact this
          · omega
  encode := by
    rintro ⟨i, x, r⟩ cap e hs ⟨hI, hr, hx⟩
    simp only at hI hr hx
    simp only [lengthEncoder]
    split
    · exact ⟨hI, hr, hx⟩
    · have hes : EosSane (if cap < r then e else Eos.new true) (if cap < r then cap else r) := by
        split
        · exact hs
        · exact .new true hr
      have := h.encode _ _ hes hI
      generalize E.encode i (if cap < r then cap else r) (if cap < r then e else Eos.new true) = p at this ⊢
      obtain ⟨q, t⟩ := p
      cases q <;> simp only [Res.step] <;> try exact ⟨this, hr, hx⟩
      split
      · exact ⟨this, hr, hx⟩
      · split <;> exact ⟨this, Nat.lt_of_le_of_lt (Nat.sub_le _ _) hr, hx⟩
  start := by
    rintro ⟨i, x, r⟩ y ⟨hI, hr, hx⟩
    simp only at hI hr hx
    simp only [lengthEncoder]
    split
    · have := h.start y hI
      generalize E.start i y = p at this ⊢
      obtain ⟨q, t⟩ := p
      cases q <;> exact ⟨this, hx, hx⟩
    · exact ⟨hI, hr, hx⟩

theorem startNext_reach {E : Encoder σ α} {s₀ : σ} : ∀ (xs : List α) {s : σ}, EncReach E s₀ s →
    (∀ s' rest, startNext E s xs = .busy s' rest → EncReach E s₀ s' ∧ E.isIdle s' = false) ∧
    (∀ s', startNext E s xs = .exhausted s' → EncReach E s₀ s') ∧
    (∀ r s' rest, startNext E s xs = .failed r s' rest → EncReach E s₀ s') := by
  intro xs
  induction xs with
  | nil =>
    intro s hr
    simp only [startNext]
    split
    · exact ⟨nofun, fun _ h => by cases h; exact hr, nofun⟩
    · next hi => exact ⟨fun _ _ h => by cases h; exact ⟨hr, by simpa using hi⟩, nofun, nofun⟩
  | cons x xs ih =>
    intro s hr
    simp only [startNext]
    split
    · have h' := EncReach.start x hr
      generalize E.start s x = p at h'
      obtain ⟨r, t⟩ := p
      cases r with
      | ok u => exact ih h'
      | err k => exact ⟨nofun, nofun, fun _ _ _ h => by cases h; exact h'⟩
      | panic => exact ⟨nofun, nofun, fun _ _ _ h => by cases h; exact h'⟩
      | capacity => exact ⟨nofun, nofun, fun _ _ _ h => by cases h; exact h'⟩
      | diverge => exact ⟨nofun, nofun, fun _ _ _ h => by cases h; exact h'⟩
    · next hi => exact ⟨fun _ _ h => by cases h; exact ⟨hr, by simpa using hi⟩, nofun, nofun⟩

theorem repeatLoop_fill {E : Encoder σ α} {s₀ : σ} (hE : Substantial E s₀) {cap : Nat} {e : Eos} (he : EosSane e cap) :
    ∀ (n : Nat) (out : Bytes) (s : σ) (items : Option (List α)), cap + 1 - out.length ≤ n → EncReach E s₀ s →
    EncReach E s₀ (repeatLoop E cap e out s items).2.inner ∧
    ∀ bs t, repeatLoop E cap e out s items = (.ok bs, t) → t.items.isNone = false → bs.length = cap := by
  intro n
  induction n with
  | zero =>
    intro out s items hn hr
    rw [repeatLoop]
    obtain ⟨h1, h2, h3⟩ := startNext_reach (items.getD []) hr
    generalize startNext E s (items.getD []) = p at h1 h2 h3
    cases p with
    | exhausted s' => exact ⟨h2 _ rfl, fun _ _ h hi => by cases h; cases hi⟩
    | failed r s' rest => exact ⟨h3 _ _ _ rfl, fun _ _ h => by cases r <;> cases congrArg Prod.fst h⟩
    | busy s' rest =>
      simp only [if_pos (show cap < out.length by omega)]
      exact ⟨(h1 _ _ rfl).1, nofun⟩
  | succ n ih =>
    intro out s items hn hr
    rw [repeatLoop]
    obtain ⟨h1, h2, h3⟩ := startNext_reach (items.getD []) hr
    generalize startNext E s (items.getD []) = p at h1 h2 h3
    cases p with
    | exhausted s' => exact ⟨h2 _ rfl, fun _ _ h hi => by cases h; cases hi⟩
    | failed r s' rest => exact ⟨h3 _ _ _ rfl, fun _ _ h => by cases r <;> cases congrArg Prod.fst h⟩
    | busy s' rest =>
      obtain ⟨hr', hb⟩ := h1 _ _ rfl
      simp only
      split
      · exact ⟨hr', nofun⟩
      · next hle =>
        have hes : EosSane e (cap - out.length) := he.mono (by omega)
        have hne := hE s' hr' hb (cap - out.length) e
        have hr2 := EncReach.encode (cap - out.length) e hr' hes
        generalize E.encode s' (cap - out.length) e = p at hne hr2 ⊢
        obtain ⟨r, t⟩ := p
        cases r with
        | ok bs =>
          simp only
          split
          · next h0 =>
            refine ⟨hr2, fun bs' t' h _ => ?_⟩
            cases h
            apply Nat.le_antisymm (by omega)
            apply Nat.le_of_not_lt
            intro hlt
            exact hne t hes (by omega) (by rw [List.length_eq_zero_iff.1 h0])
          · exact ih _ _ _ (by simp only [List.length_append]; omega) hr2
        | err k => exact ⟨hr2, nofun⟩
        | panic => exact ⟨hr2, nofun⟩
        | capacity => exact ⟨hr2, nofun⟩
        | diverge => exact ⟨hr2, nofun⟩

theorem fills_repeat {E : Encoder σ α} {s₀ : σ} (h : Substantial E s₀) :
    Fills (repeatEncoder E) (fun s => EncReach E s₀ s.inner) where
  fill := by
    intro s cap e bs s' hI hs he hi
    exact (repeatLoop_fill h hs _ [] s.inner s.items (Nat.le_refl _) hI).2 _ _ he hi
  encode := by
    intro s cap e hs hI
    exact (repeatLoop_fill h hs _ [] s.inner s.items (Nat.le_refl _) hI).1
  start := by
    intro s x hI
    simp only [repeatEncoder]
    split <;> exact hI

/-- Numbers are never empty. -/
theorem substantial_number {α : Type} {f : α → Except ErrorKind Bytes} (hf : ∀ x b, f x = .ok b → b ≠ []) :
    Substantial (fixEncoder f).toEncoder .new := by
  have inv : ∀ s, EncReach (fixEncoder f).toEncoder .new s → ∀ b, s.bytes = some b → s.offset < b.length := by
    intro s hr
    induction hr with
    | refl => intro b h; cases h
    | @encode s cap e _ _ ih =>
      intro b hb
      obtain ⟨o, off⟩ := s
      cases o with
      | none => cases hb
      | some c =>
        have h0 : off < c.length := ih c rfl
        simp only [fixEncoder, bytesEncoder, id] at hb ⊢
        rw [if_neg (by omega)] at hb ⊢
        by_cases hc : off + min cap (c.length - off) = c.length
        · simp [hc] at hb
        · simp only [hc, if_false] at hb ⊢
          split at hb <;> cases hb <;> simp_all <;> omega
    | @start s x _ ih =>
      intro b hb
      simp only [fixEncoder] at hb ⊢
      cases hx : f x with
      | error k => simp only [hx] at hb ⊢; exact ih b hb
      | ok c =>
        simp only [hx, bytesEncoder] at hb ⊢
        split at hb
        · next hn =>
          cases hb
          rw [if_pos hn]
          exact List.length_pos_iff.2 (hf x _ hx)
        · next hn =>
          rw [if_neg hn]
          exact ih b hb
  intro s hr hi cap e s' _ hcap heq
  have := inv s hr
  obtain ⟨o, off⟩ := s
  cases o with
  | none => cases hi
  | some c =>
    have h0 : off < c.length := this c rfl
    simp only [fixEncoder, bytesEncoder, id] at heq
    rw [if_neg (by omega)] at heq
    have hout : (c.drop off).take (min cap (c.length - off)) ≠ [] := by
      intro h
      have := congrArg List.length h
      simp only [List.length_take, List.length_drop, List.length_nil] at this
      omega
    split at heq
    · exact hout (Res.ok.inj (congrArg Prod.fst heq))
    · split at heq
      · cases congrArg Prod.fst heq
      · exact hout (Res.ok.inj (congrArg Prod.fst heq))

theorem eager_fills {E : Encoder σ α} {s : σ} (h : Eager E s) : ∃ I, Fills E I ∧ I s := by
  induction h with
  | bytes asRef => exact ⟨_, fills_bytes asRef, trivial⟩
  | number f => exact ⟨fun _ => True, ⟨fun _ _ h hi => bytes_fill id h hi, fun _ _ _ _ => trivial, fun _ _ => trivial⟩, trivial⟩
  | utf8 => exact ⟨fun _ => True, ⟨fun _ _ h hi => bytes_fill utf8Bytes h hi, fun _ _ _ _ => trivial, fun _ _ => trivial⟩, trivial⟩
  | null => exact ⟨fun _ => True, ⟨fun _ _ _ hi => (by cases hi), fun _ _ _ _ => trivial, fun _ _ => trivial⟩, trivial⟩
  | padding => exact ⟨_, fills_padding, trivial⟩
  | monolithic ser => exact ⟨_, fills_monolithic ser, by simp [MonoEncState.new]⟩
  | mapErr f _ ih => obtain ⟨I, h1, h2⟩ := ih; exact ⟨I, fills_mapErr h1 f, h2⟩
  | mapFrom f _ ih => obtain ⟨I, h1, h2⟩ := ih; exact ⟨I, fills_mapFrom h1 f, h2⟩
  | tryMapFrom f _ ih => obtain ⟨I, h1, h2⟩ := ih; exact ⟨I, fills_tryMapFrom h1 f, h2⟩
  | optional _ ih => obtain ⟨I, h1, h2⟩ := ih; exact ⟨I, fills_optional h1, h2⟩
  | maxBytes n _ ih => obtain ⟨I, h1, h2⟩ := ih; exact ⟨_, fills_maxBytes h1, h2⟩
  | length n hn _ ih => obtain ⟨I, h1, h2⟩ := ih; exact ⟨_, fills_length h1, h2, hn, hn⟩
  | repeated h => exact ⟨_, fills_repeat h, .refl⟩
  | preEncode E s => exact ⟨_, fills_preEncode E, trivial⟩
  | pair _ _ ih0 ih1 =>
    obtain ⟨I0, a0, b0⟩ := ih0
    obtain ⟨I1, a1, b1⟩ := ih1
    exact ⟨_, fills_pair a0 a1, b0, b1⟩

end Bytecodec
