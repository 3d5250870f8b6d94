import Verif.Lemmas.CodesIo
/-!
# Every encoder assembled from the library is lawful
-/
namespace Bytecodec

open Spec

variable {σ α β : Type}

/-- A lawful encoder in the state its constructors return. -/
def Fresh (strict : Bool) (E : Encoder σ α) (s : σ) (dom : α → Prop) (enc : α → Except ErrorKind Bytes)
    (P : σ → Bytes → Prop) : Prop :=
  Codes strict E P dom enc ∧ P s [] ∧ E.isIdle s = true

/-- The invariant of `EncRun`: what is left is what was accepted and not yet emitted. -/
theorem encRun_inv {strict : Bool} {E : Encoder σ α} {s₀ : σ} {dom enc P} (h : Fresh strict E s₀ dom enc P)
    {s : σ} {acc em : Bytes} (hr : EncRun E dom enc s₀ s acc em) :
    ∃ rest, acc = em ++ rest ∧ P s rest := by
  obtain ⟨hc, h0, hi0⟩ := h
  induction hr with
  | new => exact ⟨[], rfl, h0⟩
  | start _ hi hd hx hs ih =>
    obtain ⟨rest, rfl, hp⟩ := ih
    have := hc.idle hp hi
    subst this
    obtain ⟨s', h1, h2⟩ := hc.startOk hp hi hd hx
    rw [h1] at hs
    cases hs
    exact ⟨_, by simp, h2⟩
  | @encode s s' acc em out cap e _ he hs ih =>
    obtain ⟨rest, rfl, hp⟩ := ih
    obtain ⟨s'', h1, h2, _⟩ := hc.step (cap := cap) (e := e) hp (by intro hr; have := he hr; simpa using this)
    rw [h1] at hs
    cases hs
    exact ⟨_, by rw [List.append_assoc, List.take_append_drop], h2⟩

/-! ## The contract and the law -/

theorem fresh_emits {strict : Bool} {E : Encoder σ α} {s₀ : σ} {dom enc P}
    (h : Fresh strict E s₀ dom enc P) : Emits strict E s₀ dom enc where
  new := h.2.2
  inOrder := by
    intro s acc em hr
    obtain ⟨rest, rfl, _⟩ := encRun_inv h hr
    exact List.prefix_append _ _
  complete := by
    intro s acc em hr hi
    obtain ⟨rest, rfl, hp⟩ := encRun_inv h hr
    have := h.1.idle hp hi
    simp [this]
  encode := by
    intro s acc em cap e hr he
    obtain ⟨rest, rfl, hp⟩ := encRun_inv h hr
    simp only [List.length_append, Nat.add_sub_cancel_left, List.drop_left] at he ⊢
    obtain ⟨s', h1, _, h3⟩ := h.1.step hp he
    exact ⟨s', h1, h3⟩
  tooShort := by
    intro hs s acc em cap e hr he hc
    obtain ⟨rest, rfl, hp⟩ := encRun_inv h hr
    simp only [List.length_append, Nat.add_sub_cancel_left] at hc
    exact h.1.full hs hp he hc
  accepts := by
    intro s acc em x b hr hi hd hx
    obtain ⟨rest, rfl, hp⟩ := encRun_inv h hr
    have := h.1.idle hp hi
    subst this
    obtain ⟨s', h1, _⟩ := h.1.startOk hp hi hd hx
    rw [h1]
  rejects := by
    intro s acc em x k hr hi hd hx
    obtain ⟨rest, rfl, hp⟩ := encRun_inv h hr
    have := h.1.idle hp hi
    subst this
    exact h.1.startErr hp hi hd hx
  requiring := by
    intro s acc em hr
    obtain ⟨rest, rfl, hp⟩ := encRun_inv h hr
    simpa only [List.length_append, Nat.add_sub_cancel_left] using h.1.req hp

theorem fresh_emitsSized {strict : Bool} {E : SizedEncoder σ α} {s₀ : σ} {dom enc P}
    (h : Fresh strict E.toEncoder s₀ dom enc P) (hx : Exact E P) : EmitsSized strict E s₀ dom enc where
  toEmits := fresh_emits h
  sizes := by
    intro s acc em hr
    obtain ⟨rest, rfl, hp⟩ := encRun_inv h hr
    simp only [List.length_append, Nat.add_sub_cancel_left]
    exact ⟨hx.exact hp, hx.fin hp⟩

/-- What is owed, as the state predicate of the law. -/
def Owed (E : Encoder σ α) (s₀ : σ) (dom : α → Prop) (enc : α → Except ErrorKind Bytes) (s : σ)
    (bs : Bytes) : Prop := ∃ em, EncRun E dom enc s₀ s (em ++ bs) em

theorem emits_fresh {strict : Bool} {E : Encoder σ α} {s₀ : σ} {dom enc} (h : Emits strict E s₀ dom enc) :
    Fresh strict E s₀ dom enc (Owed E s₀ dom enc) := by
  refine ⟨?_, ⟨[], .new⟩, h.new⟩
  constructor
  · rintro s bs cap e ⟨em, hr⟩ he
    obtain ⟨s', h1, h2⟩ := h.encode (cap := cap) (e := e) hr (by simpa using he)
    simp only [List.length_append, Nat.add_sub_cancel_left, List.drop_left] at h1 h2
    refine ⟨s', h1, ⟨em ++ bs.take cap, ?_⟩, h2⟩
    rw [List.append_assoc, List.take_append_drop]
    exact .encode hr (by simpa using he) h1
  · rintro hs s bs cap e ⟨em, hr⟩ he hc
    exact h.tooShort hs hr he (by simpa using hc)
  · rintro s bs ⟨em, hr⟩ hi
    have := h.complete hr hi
    simpa using this
  · rintro s x b ⟨em, hr⟩ hi hd hx
    have h1 := h.accepts hr hi hd hx
    rcases hq : E.start s x with ⟨r, s'⟩
    rw [hq] at h1
    simp only at h1
    subst h1
    refine ⟨s', rfl, em, ?_⟩
    have := EncRun.start hr hi hd hx hq
    simpa using this
  · rintro s x k ⟨em, hr⟩ hi hd hx
    exact h.rejects hr hi hd hx
  · rintro s bs ⟨em, hr⟩
    simpa only [List.length_append, Nat.add_sub_cancel_left] using h.requiring hr

theorem emitsSized_exact {strict : Bool} {E : SizedEncoder σ α} {s₀ : σ} {dom enc}
    (h : EmitsSized strict E s₀ dom enc) : Exact E (Owed E.toEncoder s₀ dom enc) := by
  constructor
  · rintro s bs ⟨em, hr⟩
    simpa using (h.sizes hr).1
  · rintro s bs ⟨em, hr⟩
    simpa using (h.sizes hr).2

/-! ## Encoders assembled from the library -/

theorem parts_writes {own : OwnEncoding}
    (hP : ∀ strict σ α (E : Encoder σ α) s dom enc, own strict σ α E s dom enc → Emits strict E s dom enc)
    {strict : Bool} {E : Encoder σ α} {s : σ} {dom enc} (h : WritesWith own strict E s dom enc) :
    ∃ P, Fresh strict E s dom enc P := by
  induction h with
  | own h => exact ⟨_, emits_fresh (hP _ _ _ _ _ _ _ h)⟩
  | bytes asRef strict => exact ⟨_, codes_bytes asRef strict, rfl, rfl⟩
  | number f strict => exact ⟨_, codes_number f strict, rfl, rfl⟩
  | utf8 strict => exact ⟨_, codes_utf8 strict, rfl, rfl⟩
  | null strict => exact ⟨_, codes_null strict, rfl, rfl⟩
  | monolithic ser => exact ⟨_, codes_monolithic ser, rfl, rfl⟩
  | mapErr f hf _ ih =>
    obtain ⟨P, h1, h2, h3⟩ := ih
    exact ⟨P, codes_mapErr f hf h1, h2, h3⟩
  | mapFrom f _ ih =>
    obtain ⟨P, h1, h2, h3⟩ := ih
    exact ⟨P, codes_mapFrom f h1, h2, h3⟩
  | tryMapFrom f _ ih =>
    obtain ⟨P, h1, h2, h3⟩ := ih
    exact ⟨P, codes_tryMapFrom f h1, h2, h3⟩
  | optional _ ih =>
    obtain ⟨P, h1, h2, h3⟩ := ih
    exact ⟨P, codes_optional h1, h2, h3⟩
  | maxBytes n _ ih =>
    obtain ⟨P, h1, h2, h3⟩ := ih
    exact ⟨_, codes_maxBytes n h1, ⟨h2, rfl, Nat.zero_le _, fun _ => rfl⟩, h3⟩
  | preEncode _ ih =>
    obtain ⟨P, h1, h2, h3⟩ := ih
    exact ⟨_, codes_preEncode h1, ⟨rfl, h2, h3⟩, rfl⟩
  | repeated _ ih =>
    obtain ⟨P, h1, h2, h3⟩ := ih
    exact ⟨_, codes_repeat h1, ⟨rfl, h2, h3⟩, rfl⟩
  | pair _ _ ih0 ih1 =>
    obtain ⟨P0, h1, h2, h3⟩ := ih0
    obtain ⟨P1, k1, k2, k3⟩ := ih1
    refine ⟨_, codes_pair h1 k1, ⟨[], [], h2, k2, rfl⟩, ?_⟩
    simp [tupleEncoder2, h3, k3]
  | weaken _ hd hs ih =>
    obtain ⟨P, h1, h2, h3⟩ := ih
    exact ⟨P, h1.weaken hd hs, h2, h3⟩

theorem parts_sizedWrites {own : OwnEncoding} {ownSized : OwnSizedEncoding}
    (hP : ∀ strict σ α (E : Encoder σ α) s dom enc, own strict σ α E s dom enc → Emits strict E s dom enc)
    (hS : ∀ strict σ α (E : SizedEncoder σ α) s dom enc, ownSized strict σ α E s dom enc →
      EmitsSized strict E s dom enc)
    {strict : Bool} {E : SizedEncoder σ α} {s : σ} {dom enc}
    (h : SizedWritesWith own ownSized strict E s dom enc) : ∃ P, Fresh strict E.toEncoder s dom enc P ∧ Exact E P := by
  induction h with
  | own h => exact ⟨_, emits_fresh (hS _ _ _ _ _ _ _ h).toEmits, emitsSized_exact (hS _ _ _ _ _ _ _ h)⟩
  | bytes asRef strict => exact ⟨_, ⟨codes_bytes asRef strict, rfl, rfl⟩, exact_bytes asRef⟩
  | number f strict => exact ⟨_, ⟨codes_number f strict, rfl, rfl⟩, exact_number f⟩
  | utf8 strict => exact ⟨_, ⟨codes_utf8 strict, rfl, rfl⟩, exact_utf8⟩
  | null strict => exact ⟨_, ⟨codes_null strict, rfl, rfl⟩, exact_null⟩
  | mapErr f hf _ ih =>
    obtain ⟨P, ⟨h1, h2, h3⟩, h4⟩ := ih
    exact ⟨P, ⟨codes_mapErr f hf h1, h2, h3⟩, h4.exact, h4.fin⟩
  | mapFrom f _ ih =>
    obtain ⟨P, ⟨h1, h2, h3⟩, h4⟩ := ih
    exact ⟨P, ⟨codes_mapFrom f h1, h2, h3⟩, h4.exact, h4.fin⟩
  | tryMapFrom f _ ih =>
    obtain ⟨P, ⟨h1, h2, h3⟩, h4⟩ := ih
    exact ⟨P, ⟨codes_tryMapFrom f h1, h2, h3⟩, h4.exact, h4.fin⟩
  | optional _ ih =>
    obtain ⟨P, ⟨h1, h2, h3⟩, h4⟩ := ih
    exact ⟨P, ⟨codes_optional h1, h2, h3⟩, h4.exact, h4.fin⟩
  | maxBytes n _ ih =>
    obtain ⟨P, ⟨h1, h2, h3⟩, h4⟩ := ih
    exact ⟨_, ⟨codes_maxBytes n h1, ⟨h2, rfl, Nat.zero_le _, fun _ => rfl⟩, h3⟩,
      fun h => h4.exact h.1, fun h => h4.fin h.1⟩
  | preEncode hw =>
    obtain ⟨P, h1, h2, h3⟩ := parts_writes hP hw
    exact ⟨_, ⟨codes_preEncode h1, ⟨rfl, h2, h3⟩, rfl⟩, exact_preEncode _ P⟩
  | pair _ _ ih0 ih1 =>
    obtain ⟨P0, ⟨h1, h2, h3⟩, h4⟩ := ih0
    obtain ⟨P1, ⟨k1, k2, k3⟩, k4⟩ := ih1
    refine ⟨_, ⟨codes_pair h1 k1, ⟨[], [], h2, k2, rfl⟩, ?_⟩, exact_pair h4 k4⟩
    simp [sizedTupleEncoder2, tupleEncoder2, h3, k3]

theorem writes_fresh {strict : Bool} {E : Encoder σ α} {s : σ} {dom enc} (h : Writes strict E s dom enc) :
    ∃ P, Fresh strict E s dom enc P :=
  parts_writes (fun _ _ _ _ _ _ _ h => h.elim) h

theorem sizedWrites_fresh {strict : Bool} {E : SizedEncoder σ α} {s : σ} {dom enc}
    (h : SizedWrites strict E s dom enc) : ∃ P, Fresh strict E.toEncoder s dom enc P ∧ Exact E P :=
  parts_sizedWrites (fun _ _ _ _ _ _ _ h => h.elim) (fun _ _ _ _ _ _ _ h => h.elim) h

end Bytecodec
