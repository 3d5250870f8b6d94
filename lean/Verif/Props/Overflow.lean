import Verif.Model.Overflow
import Verif.Model.Tuple
import Verif.Model.DecCombinator
import Verif.Model.Fixnum
import Verif.Model.NullPadding
import Verif.Spec.Counts
import Verif.Spec.Decode
import Verif.Lemmas.Overflow
/-!
# Overflow of the sums of tuples (C61)
-/
namespace Bytecodec.Props
open Spec ByteCount

private abbrev stepD (acc : Res ByteCount) (c : ByteCount) : Res ByteCount :=
  match acc with
  | .ok a => a.addForDecodingChecked c
  | r => r

private abbrev stepE (acc : Res ByteCount) (c : ByteCount) : Res ByteCount :=
  match acc with
  | .ok a => a.addForEncodingChecked c
  | r => r

private theorem foldD_stop (cs : List ByteCount) (r : Res ByteCount) (h : ∀ a, r ≠ .ok a) :
    cs.foldl stepD r = r := by
  induction cs with
  | nil => rfl
  | cons c cs ih =>
    simp only [List.foldl_cons]
    rw [show stepD r c = r by cases r <;> first | rfl | exact absurd rfl (h _)]
    exact ih

private theorem foldE_stop (cs : List ByteCount) (r : Res ByteCount) (h : ∀ a, r ≠ .ok a) :
    cs.foldl stepE r = r := by
  induction cs with
  | nil => rfl
  | cons c cs ih =>
    simp only [List.foldl_cons]
    rw [show stepE r c = r by cases r <;> first | rfl | exact absurd rfl (h _)]
    exact ih

private theorem foldD_ok (cs : List ByteCount) (a : ByteCount) (h : knownTotal (a :: cs) < 2 ^ 64) :
    cs.foldl stepD (.ok a) = .ok (cs.foldl addForDecoding a) := by
  induction cs generalizing a with
  | nil => rfl
  | cons c cs ih =>
    simp only [List.foldl_cons]
    have e : stepD (.ok a) c = .ok (addForDecoding a c) := by
      cases a <;> cases c <;> simp [stepD, addForDecodingChecked, knownTotal] at h ⊢
      omega
    rw [e]
    apply ih
    rcases a with (_ | a) | _ | _ <;> rcases c with (_ | c) | _ | _ <;>
      simp [addForDecoding, knownTotal] at h ⊢ <;> omega

private theorem foldE_ok (cs : List ByteCount) (a : ByteCount) (h : knownTotal (a :: cs) < 2 ^ 64) :
    cs.foldl stepE (.ok a) = .ok (cs.foldl addForEncoding a) := by
  induction cs generalizing a with
  | nil => rfl
  | cons c cs ih =>
    simp only [List.foldl_cons]
    have e : stepE (.ok a) c = .ok (addForEncoding a c) := by
      cases a <;> cases c <;> simp [stepE, addForEncodingChecked, knownTotal] at h ⊢
      omega
    rw [e]
    apply ih
    rcases a with (_ | a) | _ | _ <;> rcases c with (_ | c) | _ | _ <;>
      simp [addForEncoding, knownTotal] at h ⊢ <;> omega

private theorem foldD_panic (cs : List ByteCount) (a : ByteCount) (ha : a ≠ infinite)
    (hi : infinite ∉ cs) (hu : ∀ n, finite n ∈ cs → n < 2 ^ 64)
    (h : knownTotal [a] < 2 ^ 64) (ho : 2 ^ 64 ≤ knownTotal (a :: cs)) :
    cs.foldl stepD (.ok a) = .panic := by
  induction cs generalizing a with
  | nil => omega
  | cons c cs ih =>
    simp only [List.foldl_cons]
    simp only [List.mem_cons, not_or] at hi
    by_cases hac : ∃ x y, a = finite x ∧ c = finite y ∧ 2 ^ 64 ≤ x + y
    · obtain ⟨x, y, rfl, rfl, hxy⟩ := hac
      rw [show stepD (.ok (finite x)) (finite y) = .panic by
        simp only [stepD, addForDecodingChecked]; rw [if_neg (by omega)]]
      exact foldD_stop _ _ (by simp)
    · have e : stepD (.ok a) c = .ok (addForDecoding a c) := by
        cases a <;> cases c <;> simp [stepD, addForDecodingChecked] at hac ⊢
        exact hac
      rw [e]
      refine ih _ ?_ hi.2 (fun n hn => hu n (.tail _ hn)) ?_ ?_
      · rcases a with (_ | a) | _ | _ <;> rcases c with (_ | c) | _ | _ <;>
          simp [addForDecoding] at ha hi ⊢
      · have hc : ∀ n, c = finite n → n < 2 ^ 64 := fun n e => hu n (e ▸ .head _)
        rcases a with (_ | a) | _ | _ <;> rcases c with (_ | c) | _ | _ <;>
          simp [addForDecoding, knownTotal] at ha hi h ho hac hc ⊢ <;> omega
      · rcases a with (_ | a) | _ | _ <;> rcases c with (_ | c) | _ | _ <;>
          simp [addForDecoding, knownTotal] at ha hi h ho hac ⊢ <;> omega

private theorem foldE_panic (cs : List ByteCount) (n : Nat)
    (hi : ∀ c ∈ cs, ∃ m, c = finite m) (h : n < 2 ^ 64) (ho : 2 ^ 64 ≤ n + knownTotal cs) :
    cs.foldl stepE (.ok (finite n)) = .panic := by
  induction cs generalizing n with
  | nil => simp [knownTotal] at ho; omega
  | cons c cs ih =>
    simp only [List.foldl_cons]
    obtain ⟨m, rfl⟩ := hi c (.head _)
    by_cases hs : n + m < 2 ^ 64
    · rw [show stepE (.ok (finite n)) (finite m) = .ok (finite (n + m)) by
        simp only [stepE, addForEncodingChecked]; rw [if_pos hs]; rfl]
      refine ih _ (fun c hc => hi c (.tail _ hc)) hs ?_
      simp only [knownTotal] at ho; omega
    · rw [show stepE (.ok (finite n)) (finite m) = .panic by
        simp only [stepE, addForEncodingChecked]; rw [if_neg hs]]
      exact foldE_stop _ _ (by simp)

private abbrev stepN (acc : Res Nat) (n : Nat) : Res Nat :=
  match acc with
  | .ok a => if a + n < 2 ^ 64 then .ok (a + n) else .panic
  | r => r

private theorem foldN_stop (ns : List Nat) : ns.foldl stepN .panic = .panic := by
  induction ns with
  | nil => rfl
  | cons n ns ih => exact ih

private theorem foldN (ns : List Nat) (k : Nat) (hk : k < 2 ^ 64) :
    ns.foldl stepN (.ok k) = if k + ns.sum < 2 ^ 64 then .ok (k + ns.sum) else .panic := by
  induction ns generalizing k with
  | nil => rw [List.sum_nil, Nat.add_zero, if_pos hk]; rfl
  | cons n ns ih =>
    rw [List.foldl_cons, List.sum_cons, ← Nat.add_assoc]
    by_cases h : k + n < 2 ^ 64
    · rw [show stepN (.ok k) n = .ok (k + n) by simp only [stepN]; rw [if_pos h]]
      exact ih _ h
    · rw [show stepN (.ok k) n = .panic by simp only [stepN]; rw [if_neg h], foldN_stop, if_neg (by omega)]

private theorem foldD_value (cs : List ByteCount) (a : ByteCount) :
    cs.foldl addForDecoding a =
      if infinite ∈ a :: cs then infinite
      else if 0 < knownTotal (a :: cs) then finite (knownTotal (a :: cs))
      else if unknown ∈ a :: cs then unknown else finite 0 := by
  induction cs generalizing a with
  | nil => rcases a with (_ | a) | _ | _ <;> simp [knownTotal]
  | cons c cs ih =>
    rw [List.foldl_cons, ih]
    rcases a with (_ | a) | _ | _ <;> rcases c with (_ | c) | _ | _ <;>
      simp only [addForDecoding, knownTotal, List.mem_cons, ← Nat.add_assoc, Nat.zero_add] <;>
      (try simp) <;> (try split) <;> (try rfl) <;> (try rw [if_pos (by omega), if_pos (by omega)])

private theorem foldE_value (cs : List ByteCount) (a : ByteCount) :
    cs.foldl addForEncoding a =
      if infinite ∈ a :: cs then infinite
      else if unknown ∈ a :: cs then unknown else finite (knownTotal (a :: cs)) := by
  induction cs generalizing a with
  | nil => cases a <;> simp [knownTotal]
  | cons c cs ih =>
    rw [List.foldl_cons, ih]
    cases a <;> cases c <;> simp [addForEncoding, knownTotal, Nat.add_assoc]

/-- C61: as long as the known counts of the components add up to less than 2^64, the decoder of a tuple
of any arity answers, and its answer is: `Infinite` if a component says so, otherwise the total of what
is known, otherwise (nothing known to be needed) `Unknown` if a component says so. -/
theorem C61_decoder (cs : List ByteCount) (h : knownTotal cs < 2 ^ 64) :
    tupleRequiringDec cs = .ok (
      if infinite ∈ cs then infinite
      else if 0 < knownTotal cs then finite (knownTotal cs)
      else if unknown ∈ cs then unknown else finite 0) := by
  have := foldD_ok cs (finite 0) (by simpa [knownTotal] using h)
  refine this.trans ?_
  rw [foldD_value]
  simp [knownTotal]

/-- C61: the encoder of a tuple, likewise; one `Unknown` makes the answer `Unknown`. -/
theorem C61_encoder (cs : List ByteCount) (h : knownTotal cs < 2 ^ 64) :
    tupleRequiringEnc cs = .ok (
      if infinite ∈ cs then infinite
      else if unknown ∈ cs then unknown else finite (knownTotal cs)) := by
  have := foldE_ok cs (finite 0) (by simpa [knownTotal] using h)
  refine this.trans ?_
  rw [foldE_value]
  simp [knownTotal]

/-- C61: the exact size of a tuple is the sum of the sizes, or the addition overflows. -/
theorem C61_exact (ns : List Nat) :
    tupleExact ns = if ns.sum < 2 ^ 64 then .ok ns.sum else .panic := by
  have h := foldN ns 0 (by decide)
  rw [Nat.zero_add] at h
  exact h

/-- C61: the additions of a decoder overflow exactly when the known counts add up to 2^64 or more (no
component being `Infinite`; every count is a `u64`). -/
theorem C61_decoder_overflow (cs : List ByteCount) (hu : ∀ n, finite n ∈ cs → n < 2 ^ 64)
    (hi : infinite ∉ cs) :
    tupleRequiringDec cs = .panic ↔ 2 ^ 64 ≤ knownTotal cs := by
  constructor
  · intro h
    refine Nat.le_of_not_lt fun hlt => ?_
    rw [C61_decoder cs hlt] at h
    cases h
  · intro h
    exact foldD_panic cs (finite 0) (by simp) hi hu (by decide) (by simpa [knownTotal] using h)

/-- C61: likewise for an encoder whose components know their size. -/
theorem C61_encoder_overflow (cs : List ByteCount) (hi : ∀ c ∈ cs, ∃ m, c = finite m) :
    tupleRequiringEnc cs = .panic ↔ 2 ^ 64 ≤ knownTotal cs := by
  constructor
  · intro h
    refine Nat.le_of_not_lt fun hlt => ?_
    rw [C61_encoder cs hlt] at h
    cases h
  · intro h
    exact foldE_panic cs 0 hi (by decide) (by simpa using h)

example : knownTotal [finite 4, unknown, finite 5] = 9 ∧ infinite ∉ [finite 4, unknown, finite 5] ∧
    tupleRequiringDec [finite 4, unknown, finite 5] = .ok (finite 9) ∧
    tupleRequiringEnc [finite 4, unknown, finite 5] = .ok unknown := by decide

example : infinite ∉ [finite (2 ^ 63), unknown, finite (2 ^ 63)] ∧
    2 ^ 64 ≤ knownTotal [finite (2 ^ 63), unknown, finite (2 ^ 63)] := by decide

/-- The dictionaries of the tuples of decoders give the same answers, at every arity: the sums without a
bound are the checked ones as long as the total fits. -/
theorem C61_dictionaries {σ0 α0 σ1 α1 σ2 α2 σ3 α3 σ4 α4 σ5 α5 σ6 α6 σ7 α7 : Type}
    (D0 : Decoder σ0 α0) (D1 : Decoder σ1 α1) (D2 : Decoder σ2 α2) (D3 : Decoder σ3 α3)
    (D4 : Decoder σ4 α4) (D5 : Decoder σ5 α5) (D6 : Decoder σ6 α6) (D7 : Decoder σ7 α7)
    (s0 : σ0) (s1 : σ1) (s2 : σ2) (s3 : σ3) (s4 : σ4) (s5 : σ5) (s6 : σ6) (s7 : σ7) :
    (knownTotal [D0.requiring s0, D1.requiring s1] < 2 ^ 64 →
      tupleRequiringDec [D0.requiring s0, D1.requiring s1] =
        .ok ((tupleDecoder2 D0 D1).requiring (s0, s1))) ∧
    (knownTotal [D0.requiring s0, D1.requiring s1, D2.requiring s2] < 2 ^ 64 →
      tupleRequiringDec [D0.requiring s0, D1.requiring s1, D2.requiring s2] =
        .ok ((tupleDecoder3 D0 D1 D2).requiring (s0, s1, s2))) ∧
    (knownTotal [D0.requiring s0, D1.requiring s1, D2.requiring s2, D3.requiring s3] < 2 ^ 64 →
      tupleRequiringDec [D0.requiring s0, D1.requiring s1, D2.requiring s2, D3.requiring s3] =
        .ok ((tupleDecoder4 D0 D1 D2 D3).requiring (s0, s1, s2, s3))) ∧
    (knownTotal [D0.requiring s0, D1.requiring s1, D2.requiring s2, D3.requiring s3, D4.requiring s4] < 2 ^ 64 →
      tupleRequiringDec [D0.requiring s0, D1.requiring s1, D2.requiring s2, D3.requiring s3, D4.requiring s4] =
        .ok ((tupleDecoder5 D0 D1 D2 D3 D4).requiring (s0, s1, s2, s3, s4))) ∧
    (knownTotal [D0.requiring s0, D1.requiring s1, D2.requiring s2, D3.requiring s3, D4.requiring s4, D5.requiring s5] < 2 ^ 64 →
      tupleRequiringDec [D0.requiring s0, D1.requiring s1, D2.requiring s2, D3.requiring s3, D4.requiring s4, D5.requiring s5] =
        .ok ((tupleDecoder6 D0 D1 D2 D3 D4 D5).requiring (s0, s1, s2, s3, s4, s5))) ∧
    (knownTotal [D0.requiring s0, D1.requiring s1, D2.requiring s2, D3.requiring s3, D4.requiring s4, D5.requiring s5, D6.requiring s6] < 2 ^ 64 →
      tupleRequiringDec [D0.requiring s0, D1.requiring s1, D2.requiring s2, D3.requiring s3, D4.requiring s4, D5.requiring s5, D6.requiring s6] =
        .ok ((tupleDecoder7 D0 D1 D2 D3 D4 D5 D6).requiring (s0, s1, s2, s3, s4, s5, s6))) ∧
    (knownTotal [D0.requiring s0, D1.requiring s1, D2.requiring s2, D3.requiring s3, D4.requiring s4, D5.requiring s5, D6.requiring s6, D7.requiring s7] < 2 ^ 64 →
      tupleRequiringDec [D0.requiring s0, D1.requiring s1, D2.requiring s2, D3.requiring s3, D4.requiring s4, D5.requiring s5, D6.requiring s6, D7.requiring s7] =
        .ok ((tupleDecoder8 D0 D1 D2 D3 D4 D5 D6 D7).requiring (s0, s1, s2, s3, s4, s5, s6, s7))) := by
  have key : ∀ (cs : List ByteCount), knownTotal cs < 2 ^ 64 → knownTotal (finite 0 :: cs) < 2 ^ 64 := by
    intro cs h
    simpa [knownTotal] using h
  exact ⟨foldD_ok _ (finite 0) ∘ key _,
    foldD_ok _ (finite 0) ∘ key _,
    foldD_ok _ (finite 0) ∘ key _,
    foldD_ok _ (finite 0) ∘ key _,
    foldD_ok _ (finite 0) ∘ key _,
    foldD_ok _ (finite 0) ∘ key _,
    foldD_ok _ (finite 0) ∘ key _⟩

/-- The same for the tuples of encoders. -/
theorem C61_dictionaries_encoder {σ0 α0 σ1 α1 σ2 α2 σ3 α3 σ4 α4 σ5 α5 σ6 α6 σ7 α7 : Type}
    (E0 : Encoder σ0 α0) (E1 : Encoder σ1 α1) (E2 : Encoder σ2 α2) (E3 : Encoder σ3 α3)
    (E4 : Encoder σ4 α4) (E5 : Encoder σ5 α5) (E6 : Encoder σ6 α6) (E7 : Encoder σ7 α7)
    (s0 : σ0) (s1 : σ1) (s2 : σ2) (s3 : σ3) (s4 : σ4) (s5 : σ5) (s6 : σ6) (s7 : σ7) :
    (knownTotal [E0.requiring s0, E1.requiring s1] < 2 ^ 64 →
      tupleRequiringEnc [E0.requiring s0, E1.requiring s1] =
        .ok ((tupleEncoder2 E0 E1).requiring (s0, s1))) ∧
    (knownTotal [E0.requiring s0, E1.requiring s1, E2.requiring s2] < 2 ^ 64 →
      tupleRequiringEnc [E0.requiring s0, E1.requiring s1, E2.requiring s2] =
        .ok ((tupleEncoder3 E0 E1 E2).requiring (s0, s1, s2))) ∧
    (knownTotal [E0.requiring s0, E1.requiring s1, E2.requiring s2, E3.requiring s3] < 2 ^ 64 →
      tupleRequiringEnc [E0.requiring s0, E1.requiring s1, E2.requiring s2, E3.requiring s3] =
        .ok ((tupleEncoder4 E0 E1 E2 E3).requiring (s0, s1, s2, s3))) ∧
    (knownTotal [E0.requiring s0, E1.requiring s1, E2.requiring s2, E3.requiring s3, E4.requiring s4] < 2 ^ 64 →
      tupleRequiringEnc [E0.requiring s0, E1.requiring s1, E2.requiring s2, E3.requiring s3, E4.requiring s4] =
        .ok ((tupleEncoder5 E0 E1 E2 E3 E4).requiring (s0, s1, s2, s3, s4))) ∧
    (knownTotal [E0.requiring s0, E1.requiring s1, E2.requiring s2, E3.requiring s3, E4.requiring s4, E5.requiring s5] < 2 ^ 64 →
      tupleRequiringEnc [E0.requiring s0, E1.requiring s1, E2.requiring s2, E3.requiring s3, E4.requiring s4, E5.requiring s5] =
        .ok ((tupleEncoder6 E0 E1 E2 E3 E4 E5).requiring (s0, s1, s2, s3, s4, s5))) ∧
    (knownTotal [E0.requiring s0, E1.requiring s1, E2.requiring s2, E3.requiring s3, E4.requiring s4, E5.requiring s5, E6.requiring s6] < 2 ^ 64 →
      tupleRequiringEnc [E0.requiring s0, E1.requiring s1, E2.requiring s2, E3.requiring s3, E4.requiring s4, E5.requiring s5, E6.requiring s6] =
        .ok ((tupleEncoder7 E0 E1 E2 E3 E4 E5 E6).requiring (s0, s1, s2, s3, s4, s5, s6))) ∧
    (knownTotal [E0.requiring s0, E1.requiring s1, E2.requiring s2, E3.requiring s3, E4.requiring s4, E5.requiring s5, E6.requiring s6, E7.requiring s7] < 2 ^ 64 →
      tupleRequiringEnc [E0.requiring s0, E1.requiring s1, E2.requiring s2, E3.requiring s3, E4.requiring s4, E5.requiring s5, E6.requiring s6, E7.requiring s7] =
        .ok ((tupleEncoder8 E0 E1 E2 E3 E4 E5 E6 E7).requiring (s0, s1, s2, s3, s4, s5, s6, s7))) := by
  have key : ∀ (cs : List ByteCount), knownTotal cs < 2 ^ 64 → knownTotal (finite 0 :: cs) < 2 ^ 64 := by
    intro cs h
    simpa [knownTotal] using h
  exact ⟨foldE_ok _ (finite 0) ∘ key _,
    foldE_ok _ (finite 0) ∘ key _,
    foldE_ok _ (finite 0) ∘ key _,
    foldE_ok _ (finite 0) ∘ key _,
    foldE_ok _ (finite 0) ∘ key _,
    foldE_ok _ (finite 0) ∘ key _,
    foldE_ok _ (finite 0) ∘ key _⟩

/-- The same for the exact sizes of tuples. -/
theorem C61_dictionaries_exact {σ0 α0 σ1 α1 σ2 α2 σ3 α3 σ4 α4 σ5 α5 σ6 α6 σ7 α7 : Type}
    (E0 : SizedEncoder σ0 α0) (E1 : SizedEncoder σ1 α1) (E2 : SizedEncoder σ2 α2) (E3 : SizedEncoder σ3 α3)
    (E4 : SizedEncoder σ4 α4) (E5 : SizedEncoder σ5 α5) (E6 : SizedEncoder σ6 α6) (E7 : SizedEncoder σ7 α7)
    (s0 : σ0) (s1 : σ1) (s2 : σ2) (s3 : σ3) (s4 : σ4) (s5 : σ5) (s6 : σ6) (s7 : σ7) :
    ([E0.exact s0, E1.exact s1].sum < 2 ^ 64 →
      tupleExact [E0.exact s0, E1.exact s1] =
        .ok ((sizedTupleEncoder2 E0 E1).exact (s0, s1))) ∧
    ([E0.exact s0, E1.exact s1, E2.exact s2].sum < 2 ^ 64 →
      tupleExact [E0.exact s0, E1.exact s1, E2.exact s2] =
        .ok ((sizedTupleEncoder3 E0 E1 E2).exact (s0, s1, s2))) ∧
    ([E0.exact s0, E1.exact s1, E2.exact s2, E3.exact s3].sum < 2 ^ 64 →
      tupleExact [E0.exact s0, E1.exact s1, E2.exact s2, E3.exact s3] =
        .ok ((sizedTupleEncoder4 E0 E1 E2 E3).exact (s0, s1, s2, s3))) ∧
    ([E0.exact s0, E1.exact s1, E2.exact s2, E3.exact s3, E4.exact s4].sum < 2 ^ 64 →
      tupleExact [E0.exact s0, E1.exact s1, E2.exact s2, E3.exact s3, E4.exact s4] =
        .ok ((sizedTupleEncoder5 E0 E1 E2 E3 E4).exact (s0, s1, s2, s3, s4))) ∧
    ([E0.exact s0, E1.exact s1, E2.exact s2, E3.exact s3, E4.exact s4, E5.exact s5].sum < 2 ^ 64 →
      tupleExact [E0.exact s0, E1.exact s1, E2.exact s2, E3.exact s3, E4.exact s4, E5.exact s5] =
        .ok ((sizedTupleEncoder6 E0 E1 E2 E3 E4 E5).exact (s0, s1, s2, s3, s4, s5))) ∧
    ([E0.exact s0, E1.exact s1, E2.exact s2, E3.exact s3, E4.exact s4, E5.exact s5, E6.exact s6].sum < 2 ^ 64 →
      tupleExact [E0.exact s0, E1.exact s1, E2.exact s2, E3.exact s3, E4.exact s4, E5.exact s5, E6.exact s6] =
        .ok ((sizedTupleEncoder7 E0 E1 E2 E3 E4 E5 E6).exact (s0, s1, s2, s3, s4, s5, s6))) ∧
    ([E0.exact s0, E1.exact s1, E2.exact s2, E3.exact s3, E4.exact s4, E5.exact s5, E6.exact s6, E7.exact s7].sum < 2 ^ 64 →
      tupleExact [E0.exact s0, E1.exact s1, E2.exact s2, E3.exact s3, E4.exact s4, E5.exact s5, E6.exact s6, E7.exact s7] =
        .ok ((sizedTupleEncoder8 E0 E1 E2 E3 E4 E5 E6 E7).exact (s0, s1, s2, s3, s4, s5, s6, s7))) := by
  have key : ∀ (ns : List Nat) (m : Nat), ns.sum < 2 ^ 64 → m = ns.foldl (· + ·) 0 → tupleExact ns = .ok m := by
    intro ns m h hm
    rw [C61_exact, if_pos h, hm, List.sum_eq_foldl]
  exact ⟨fun h => key _ _ h rfl,
    fun h => key _ _ h rfl,
    fun h => key _ _ h rfl,
    fun h => key _ _ h rfl,
    fun h => key _ _ h rfl,
    fun h => key _ _ h rfl,
    fun h => key _ _ h rfl⟩

example : knownTotal [u8Decoder.requiring (fixInit 1), u16beDecoder.requiring (fixInit 2)] < 2 ^ 64 ∧
    (u8Decoder.requiring (fixInit 1)) = finite 1 := by decide

/-- A skipped frame: the number of bytes as a 64-bit number, then that many bytes of any value. -/
private def frame64 : Decoder (CopyableState × Option (LengthState PaddingState)) Unit :=
  andThenDecoder u64beDecoder (lengthDecoder paddingDecoder)
    (fun n => LengthState.new (PaddingState.new none) n.toNat)

/-- C61 is false of messages that announce a huge length: a frame followed by a one byte checksum. Eight
bytes from the peer (all `0xff`) are accepted, and then `requiring_bytes` panics (in the release profile
it answers `Finite(0)`: nothing more is needed). -/
theorem C61_announced_fails :
    (((tupleDecoder2 frame64 u8Decoder).decode ((fixInit 8, none), fixInit 1)
        (List.replicate 8 255) (Eos.new false)).1 = .ok 8) ∧
    (let s := ((tupleDecoder2 frame64 u8Decoder).decode ((fixInit 8, none), fixInit 1)
        (List.replicate 8 255) (Eos.new false)).2
     tupleRequiringDec [frame64.requiring s.1, u8Decoder.requiring s.2] = .panic) := by
  decide +kernel

/-! ## Whole codecs -/

/-- The checked `requiring_bytes` of a decoder assembled from the library gives the sum that the unbounded one gives, or
panics. -/
theorem C61_decoder_sum {σ α : Type} {D : Decoder σ α} {r : σ → Res ByteCount} (h : CheckedReq D r) (s : σ) :
    r s = .ok (D.requiring s) ∨ r s = .panic := faithful h s

/-- It does not panic in any state from which some continuation of fewer than 2^64 bytes completes the item. -/
theorem C61_decoder_whole_partial {σ α : Type} {D : Decoder σ α} {r : σ → Res ByteCount} (h : CheckedReq D r) {s t t' : σ}
    {n : Nat} {q : Bool} {x : α} (hc : Calls D s n q t) (hf : D.finish t = (.ok x, t')) (hn : n < 2 ^ 64) :
    r s = .ok (D.requiring s) := by
  rcases faithful h s with h1 | h1
  · exact h1
  · have hc' : Calls (asking D fun s => capped (r s)) s n q t := calls_asking (c := D.requiring) hc
    have := (lower_capped h s n q t x t' hc' hf).1 (2 ^ 64) (by simp only [asking, h1, capped])
    omega

/-- Frames of bytes behind a number of one byte, and two numbers: nested tuples. -/
private abbrev twoFrames := tupleDecoder2 (tupleDecoder2 u8Decoder (andThenDecoder u8Decoder (lengthDecoder remainingBytesDecoder)
  (fun n => .new .new n.toNat))) u8Decoder

example : CheckedReq twoFrames (fun s => pairRequiringDec (pairRequiringDec (.ok (u8Decoder.requiring s.1.1))
    (s.1.2.2.elim (.ok (u8Decoder.requiring s.1.2.1)) fun t => .ok (.finite t.remaining))) (.ok (u8Decoder.requiring s.2))) :=
  .pair (.pair (.number fun bs => bs.headD 0) (.andThen _ (.number fun bs => bs.headD 0) (.length _)))
    (.number fun bs => bs.headD 0)

example : Calls twoFrames ((fixInit 1, fixInit 1, none), fixInit 1) 5 false
      (twoFrames.decode ((fixInit 1, fixInit 1, none), fixInit 1) [7, 2, 8, 9, 5] (Eos.new false)).2 ∧
    (twoFrames.finish
      (twoFrames.decode ((fixInit 1, fixInit 1, none), fixInit 1) [7, 2, 8, 9, 5] (Eos.new false)).2).1 =
        .ok ((7, [8, 9]), 5) :=
  ⟨.cons (m := 0) (q := false) [7, 2, 8, 9, 5] (Eos.new false) (by rfl) (.nil _), by decide +kernel⟩

/-- The checked `requiring_bytes` of an encoder assembled from the library and lawful parts of the caller's own, in every
state that the library's callers reach: it gives the sum and does not panic while fewer than 2^64 bytes are left to
be emitted. -/
theorem C61_encoder_whole {own : OwnEncoding}
    (hP : ∀ strict σ α (E : Encoder σ α) s dom enc, own strict σ α E s dom enc → Emits strict E s dom enc)
    {strict : Bool} {σ α : Type} {E : Encoder σ α} {s₀ : σ} {dom enc} {r : σ → Res ByteCount}
    (h : CheckedWrites own strict E s₀ dom enc r) {s : σ} {accepted emitted : Bytes}
    (hr : EncRun E dom enc s₀ s accepted emitted) (hl : accepted.length - emitted.length < 2 ^ 64) :
    r s = .ok (E.requiring s) := by
  obtain ⟨P, hf, hs⟩ := checkedWrites_safe hP h
  obtain ⟨rest, rfl, hp⟩ := encRun_inv hf hr
  exact hs s rest hp (by simpa using hl)

example : CheckedWrites (fun _ _ _ _ _ _ _ => False) true
    (tupleEncoder2 (tupleEncoder2 utf8Encoder.toEncoder (bytesEncoder id).toEncoder) utf8Encoder.toEncoder)
    ((.new, .new), .new) (fun _ => (True ∧ True) ∧ True) (fun x => (Except.bind (Except.bind (.ok (utf8Bytes x.1.1))
      fun b0 => Except.bind (.ok (id x.1.2)) fun b1 => .ok (b0 ++ b1)) fun b0 =>
      Except.bind (.ok (utf8Bytes x.2)) fun b1 => .ok (b0 ++ b1)))
    (fun s => pairRequiringEnc (pairRequiringEnc (.ok (utf8Encoder.requiring s.1.1))
      (.ok ((bytesEncoder id).requiring s.1.2))) (.ok (utf8Encoder.requiring s.2))) :=
  .pair (.pair (.utf8 _) (.bytes _ _)) (.utf8 _)

/-- `exact_requiring_bytes` of nested tuples: the sum, whenever it is less than 2^64. -/
theorem C61_exact_nested {σ α : Type} {E : SizedEncoder σ α} {r : σ → Res Nat} (h : CheckedExact E r) {s : σ}
    (hs : E.exact s < 2 ^ 64) : r s = .ok (E.exact s) := by
  have := exact_checked h s
  rwa [if_pos hs] at this

example : CheckedExact (sizedTupleEncoder2 (sizedTupleEncoder2 utf8Encoder (bytesEncoder id)) utf8Encoder)
    (fun s => pairExact (pairExact (.ok (utf8Encoder.exact s.1.1)) (.ok ((bytesEncoder id).exact s.1.2)))
      (.ok (utf8Encoder.exact s.2))) :=
  .pair (.pair .utf8 (.bytes _)) .utf8

/-- The counter of `max_bytes` for encoding: with an encoder that stays within its buffer, no sequence of calls whose
buffers hold fewer than 2^64 bytes in total overflows it, whatever fails in between. -/
theorem C61_max_bytes {σ α : Type} {E : Encoder σ α}
    (hE : ∀ s cap e out t, E.encode s cap e = (.ok out, t) → out.length ≤ cap) (calls : List (ECall α))
    (s : MaxBytesState σ) (hs : s.consumed + offered calls < 2 ^ 64) :
    observeE (maxBytesEncoderChecked E) s calls = observeE (maxBytesEncoder E) s calls :=
  observeE_maxBytes hE calls s hs

example : ∀ s cap e out t, (bytesEncoder (id : Bytes → Bytes)).encode s cap e = (.ok out, t) → out.length ≤ cap := by
  intro s cap e out t h
  simp only [bytesEncoder] at h
  split at h
  · split at h
    · cases h
    · split at h
      · cases h
        simp; omega
      · split at h <;> cases h
        simp; omega
  · cases h; exact Nat.zero_le _

/-- Beyond that it does: an encoder of endless items and a limit of 2^64 - 1 bytes. -/
theorem C61_max_bytes_fails :
    ((maxBytesEncoderChecked (bytesEncoder (id : Bytes → Bytes)).toEncoder).encode
      ⟨⟨some [1, 2], 0⟩, 2 ^ 64 - 1, 2 ^ 64 - 1⟩ 1 (Eos.new false)).1 = .panic := by
  decide +kernel

end Bytecodec.Props
