import Verif.Lemmas.ExactAsk
/-!
# What `requiring_bytes` says when the size of the item is known (C80)
-/
namespace Bytecodec.Props
open Spec

variable {σ α : Type}

/-- C80 for items of a fixed size: for every decoder put together from byte arrays, numbers and `length`
frames with tuples and the other combinators that keep the size fixed, and in every state a caller can
reach, the number reported by `requiring_bytes` is exactly the number of bytes that the calls leading to
the item consume, whatever chunks they get. `own` are further parts, of the user's own making or `length`
over a part of any kind (`C52_length_exact`), of which the same is known. -/
theorem C80_fixed_size {own : OwnDecoder}
    (ho : ∀ σ α (D : Decoder σ α) s, own σ α D s → ∀ t, Reach D s t → ExactAsk D t)
    {D : Decoder σ α} {s₀ s : σ} (h : AssembledWith own Shape.fixedSize D s₀) (hr : Reach D s₀ s)
    {n : Nat} {q : Bool} {t : σ} {x : α} {t' : σ} (hc : Calls D s n q t) (hf : D.finish t = (.ok x, t')) :
    D.requiring s = .finite n :=
  exactAsk_parts ho h s hr n q t x t' hc hf

/-- A two-byte number and then two bytes, half-way through: three bytes are missing, and three it is. -/
private def header := tupleDecoder2 (fixDecoder (fun b => b.length)) bytesDecoder

example : AssembledWith (fun _ _ _ _ => False) Shape.fixedSize header (fixInit 2, .new [0, 0]) :=
  .pair trivial (.number _ _ trivial) (.bytes _ trivial)

example :
    let s := (header.decode (fixInit 2, .new [0, 0]) [1] (Eos.new false)).2
    let p1 := header.decode s [2, 3] (Eos.new false)
    let p2 := header.decode p1.2 [4, 5, 6] (Eos.new false)
    header.requiring s = .finite 3 ∧ p1.1 = .ok 2 ∧ p2.1 = .ok 1 ∧ (header.finish p2.2).1 = .ok (2, [3, 4]) := by
  decide +kernel

/-- `own` may be every decoder with a `length` around it. -/
example : ∀ σ α (D : Decoder σ α) s,
    (∃ (τ : Type) (E : Decoder τ α) (h : σ = LengthState τ), h ▸ D = lengthDecoder E) →
    ∀ t, Reach D s t → ExactAsk D t := by
  rintro σ α D s ⟨τ, E, rfl, h⟩ t _
  simp only at h
  subst h
  exact exactAsk_length t

/-- C80 for items that end with the stream: a decoder that takes everything up to the end of the stream
reports `Infinite` as long as it is not idle, in every state a caller can reach. -/
theorem C80_to_the_end {own : OwnDecoder}
    (ho : ∀ σ α (D : Decoder σ α) s, own σ α D s → ∀ t, Reach D s t → D.isIdle t = false →
      D.requiring t = .infinite)
    {D : Decoder σ α} {s₀ s : σ} (h : AssembledWith own Shape.toTheEnd D s₀) (hr : Reach D s₀ s)
    (hi : D.isIdle s = false) : D.requiring s = .infinite :=
  end_parts ho h s hr hi

example : AssembledWith (fun _ _ _ _ => False) Shape.toTheEnd (maxBytesDecoder (utf8Decoder remainingBytesDecoder))
    (.new .new 10) ∧
    (maxBytesDecoder (utf8Decoder remainingBytesDecoder)).isIdle
      ((maxBytesDecoder (utf8Decoder remainingBytesDecoder)).decode (.new .new 10) [1, 2] (Eos.new false)).2 = false :=
  ⟨.maxBytes _ trivial (.utf8 trivial (.remaining trivial)), rfl⟩

/-- In particular the padding decoder asks for everything until it was told the end of the stream, and
for nothing from then on until `finish_decoding`. -/
theorem C80_padding (expected : Option UInt8) {s t : PaddingState} {b : Bytes} {e : Eos} {n : Nat}
    (hr : Reach paddingDecoder (.new expected) s) (hi : paddingDecoder.isIdle s = false)
    (hd : paddingDecoder.decode s b e = (.ok n, t)) :
    paddingDecoder.requiring s = .infinite ∧
    paddingDecoder.requiring t = (if e.isReached then .finite 0 else .infinite) ∧
    paddingDecoder.requiring (paddingDecoder.finish t).2 = .infinite := by
  have hs : s.eos = false := hi
  have ht : t.eos = e.isReached := by
    simp only [paddingDecoder, hs, if_neg (Bool.false_ne_true)] at hd
    split at hd
    · split at hd <;> cases hd
      rfl
    · cases hd; rfl
  refine ⟨end_parts (own := fun _ _ _ _ => False) (fun _ _ _ _ h => h.elim) (.padding _ trivial) s hr hi, ?_, ?_⟩
  · simp only [paddingDecoder, ht]
  · simp only [paddingDecoder]
    by_cases h : t.eos
    · simp [h]
    · simp [h]

example : Reach paddingDecoder (.new (some 7)) (.new (some 7)) ∧
    paddingDecoder.isIdle (.new (some 7)) = false ∧
    paddingDecoder.decode (.new (some 7)) [7, 7] (Eos.new true) = (.ok 2, ⟨some 7, true⟩) :=
  ⟨.refl, rfl, rfl⟩

/-- C80, where the size is not fixed: `and_then` asks for what its first decoder asks for until that one
is done, and for what the second one asks for from then on, so a report is exact for the part at work:
the calls up to the end of the first part consume what was asked for. -/
theorem C80_and_then_first {σ0 α0 σ1 α1 : Type} {D0 : Decoder σ0 α0} {D1 : Decoder σ1 α1} {f : α0 → σ1}
    {s t t' : σ0} {s1 : Option σ1} {n : Nat} {q : Bool} {x : α0} (h0 : ExactAsk D0 s) (hs : s1 = none)
    (hc : Calls D0 s n q t) (hf : D0.finish t = (.ok x, t')) :
    (andThenDecoder D0 D1 f).requiring (s, s1) = .finite n := by
  subst hs
  exact h0 _ _ _ _ _ hc hf

/-- … and the second part, once it has begun, exactly what it asks for. -/
theorem C80_and_then_second {σ0 α0 σ1 α1 : Type} {D0 : Decoder σ0 α0} {D1 : Decoder σ1 α1} {f : α0 → σ1}
    {s0 : σ0} {s1 : σ1} (h1 : ExactAsk D1 s1) {t t' : σ0 × Option σ1} {n : Nat} {q : Bool} {x : α1}
    (hc : Calls (andThenDecoder D0 D1 f) (s0, some s1) n q t)
    (hf : (andThenDecoder D0 D1 f).finish t = (.ok x, t')) :
    (andThenDecoder D0 D1 f).requiring (s0, some s1) = .finite n := by
  have key : ∀ {s t n q}, Calls (andThenDecoder D0 D1 f) s n q t → ∀ {s1}, s.2 = some s1 →
      ∃ t1, t.2 = some t1 ∧ CallsSum D1 s1 n t1 := by
    intro s t n q hc
    induction hc with
    | nil s => intro s1 h; exact ⟨s1, h, .nil ..⟩
    | @cons s s' t n m q b e hd _ ih =>
      intro s1 h
      obtain ⟨s0, o⟩ := s
      simp only at h
      subst h
      obtain ⟨t1, rfl, ht⟩ := andThen_some.1 hd
      obtain ⟨u, g1, g2⟩ := ih rfl
      refine ⟨u, g1, ?_⟩
      rcases ht with ht | ht
      · obtain ⟨k, hk, hu⟩ := tryDecode_next_runs ht
        rw [show n = k by omega]
        exact hu.trans g2
      · obtain ⟨k, hk, hu⟩ := tryDecode_ret_runs ht
        rw [show n = k by omega]
        exact hu.trans g2
  obtain ⟨t1, g1, g2⟩ := key hc rfl
  obtain ⟨t0, o⟩ := t
  simp only at g1
  subst g1
  exact h1.runs g2 (Prod.ext (andThen_fin.1 hf).1 rfl)

/-- A length-prefixed frame of at most 255 bytes: once the prefix is there the report is exact. -/
example :
    let F := andThenDecoder (fixDecoder (fun b => (b.headD 0).toNat)) (lengthDecoder remainingBytesDecoder)
      (fun n => LengthState.new RemainingState.new n)
    let p := F.decode (fixInit 1, none) [3, 7] (Eos.new false)
    F.requiring (fixInit 1, none) = .finite 1 ∧ p.2.2.isSome = true ∧ F.requiring p.2 = .finite 2 ∧
    (F.decode p.2 [8, 9, 10] (Eos.new false)).1 = .ok 2 ∧
    (F.finish (F.decode p.2 [8, 9, 10] (Eos.new false)).2).1 = .ok [7, 8, 9] := by
  decide +kernel

/-- C80 for collections: while `collectN` or `collect` is not idle, it asks for exactly the bytes that
are missing from the item it is working on, if the items have a fixed size. -/
theorem C80_collections {D : Decoder σ α} {s t t' : σ} {n : Nat} {q : Bool} {x : α} (h : ExactAsk D s)
    (hc : Calls D s n q t) (hf : D.finish t = (.ok x, t')) :
    (∀ u : CollectNState σ α, u.inner = s → (collectNDecoder D).isIdle u = false →
      (collectNDecoder D).requiring u = .finite n) ∧
    (∀ u : CollectState σ α, u.inner = s → (collectDecoder D).isIdle u = false →
      (collectDecoder D).requiring u = .finite n) := by
  have hr := h _ _ _ _ _ hc hf
  refine ⟨?_, ?_⟩
  · rintro u rfl hu
    simp only [collectNDecoder, beq_eq_false_iff_ne, ne_eq] at hu ⊢
    rw [if_neg hu, hr]
  · rintro u rfl hu
    simp only [collectDecoder] at hu ⊢
    rw [hu, ← hr]
    rfl

example : ExactAsk (fixDecoder (fun b => b.length)) (fixInit 2) :=
  fun _ _ _ _ _ hc hf => C80_fixed_size (own := fun _ _ _ _ => False) (fun _ _ _ _ h => h.elim)
    (.number _ 2 trivial) .refl hc hf

end Bytecodec.Props
