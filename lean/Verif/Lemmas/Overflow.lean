import Verif.Lemmas.Requiring
import Verif.Lemmas.Writes
import Verif.Spec.Overflow
/-!
# Lemmas: `requiring_bytes` does not overflow as long as the item can still be completed

A decoder whose checked answer panics is given the answer `Finite(2^64)` instead; that answer is a lower bound, too, so
no completion with fewer bytes exists.
-/
namespace Bytecodec
open Spec

variable {σ τ α β : Type}

/-- An overflow counts as 2^64 bytes. -/
def capped : Res ByteCount → ByteCount
  | .ok c => c
  | _ => .finite (2 ^ 64)

/-- The decoder with the answer `c` to `requiring_bytes`. -/
def asking (D : Decoder σ α) (c : σ → ByteCount) : Decoder σ α := { D with requiring := c }

theorem Spec.LowerBound.congr {D D' : Decoder σ α} (hd : D'.decode = D.decode) (hf : D'.finish = D.finish) {s : σ}
    (hr : D'.requiring s = D.requiring s) (h : LowerBound D s) : LowerBound D' s := by
  intro n q t x t' hc hfin
  have : Calls D s n q t := by
    clear hfin hr h
    induction hc with
    | nil s => exact .nil s
    | cons b e h1 _ ih => exact .cons b e (by rw [← hd]; exact h1) ih
  rw [hr]
  exact h n q t x t' this (by rw [← hf]; exact hfin)

theorem collectNLoop_asking (D : Decoder σ α) (c : σ → ByteCount) (b : Bytes) (e : Eos) :
    ∀ m off s items, collectNLoop (asking D c) b e m off s items = collectNLoop D b e m off s items := by
  intro m
  induction m with
  | zero => intros; rfl
  | succ m ih =>
    intro off s items
    rw [collectNLoop, collectNLoop]
    have : tryDecode (asking D c) s off b e = tryDecode D s off b e := rfl
    rw [this]
    simp only [ih]
    rfl

/-- If the known counts of two parts add up to less than 2^64, or one of them is not known, nothing overflows. -/
theorem pair_cases (a b : ByteCount) :
    (∃ x y, a = .finite x ∧ b = .finite y ∧ 2 ^ 64 ≤ x + y ∧ tupleRequiringDec [a, b] = .panic) ∨
    tupleRequiringDec [a, b] = .ok (((ByteCount.finite 0).addForDecoding a).addForDecoding b) ∨
    (∃ x, a = .finite x ∧ 2 ^ 64 ≤ x ∧ tupleRequiringDec [a, b] = .panic) := by
  simp only [tupleRequiringDec, List.foldl_cons, List.foldl_nil]
  rcases a with x | _ | _
  · by_cases hx : x < 2 ^ 64
    · simp only [ByteCount.addForDecodingChecked, Nat.zero_add, hx, if_true, ByteCount.addForDecoding]
      rcases b with y | _ | _
      · simp only
        by_cases hxy : x + y < 2 ^ 64
        · right; left
          rw [if_pos hxy]
        · left
          exact ⟨x, y, rfl, rfl, by omega, by rw [if_neg hxy]⟩
      · right; left; rfl
      · right; left
        cases x <;> rfl
    · right; right
      refine ⟨x, rfl, by omega, ?_⟩
      simp only [ByteCount.addForDecodingChecked, Nat.zero_add, if_neg hx]
  · right; left
    rcases b with y | _ | _ <;> rfl
  · right; left
    rcases b with y | _ | _
    · cases y <;> rfl
    · rfl
    · rfl

theorem lower_ask (D : Decoder σ α) (c : σ → ByteCount) {X : Decoder σ α} {s : σ} (h : LowerBound X s)
    (hd : D.decode = X.decode) (hf : D.finish = X.finish) (hr : c s = X.requiring s) : LowerBound (asking D c) s :=
  Spec.LowerBound.congr (D' := asking D c) hd hf hr h

theorem calls_asking {D : Decoder σ α} {c c' : σ → ByteCount} {s t : σ} {n : Nat} {q : Bool}
    (h : Calls (asking D c) s n q t) : Calls (asking D c') s n q t := by
  induction h with
  | nil s => exact .nil s
  | cons b e h1 _ ih => exact .cons b e h1 ih

theorem lower_capped {D : Decoder σ α} {r} (h : CheckedReq D r) :
    ∀ s, LowerBound (asking D fun s => capped (r s)) s := by
  induction h with
  | copyable => exact lower_copyable
  | bytes => exact lower_bytes
  | remaining => exact lower_remaining
  | null => exact fun s => lower_zero rfl
  | padding => exact lower_padding
  | number f =>
    intro s
    refine lower_transfer (D' := asking (fixDecoder f) _) (D := copyableBytesDecoder) (fun _ _ _ _ _ h => h) (fun _ => rfl) ?_ (lower_copyable s)
    intro t y s' hf
    obtain ⟨x, u, hx, h2⟩ := step_ok (show Res.step _ _ _ = _ from hf)
    cases h2
    exact ⟨x, hx⟩
  | monolithic parse => exact lower_monolithic parse
  | @utf8 _ D r _ ih =>
    intro s
    refine lower_transfer (D' := asking (utf8Decoder D) _) (D := asking D _) (fun _ _ _ _ _ h => h) (fun _ => rfl) ?_ (ih s)
    intro t y s' hf
    obtain ⟨x, u, hx, h2⟩ := step_ok (show Res.step _ _ _ = _ from hf)
    split at h2 <;> cases h2
    exact ⟨x, hx⟩
  | @map _ _ _ D r f _ ih =>
    intro s
    refine lower_transfer (D' := asking (mapDecoder D f) _) (D := asking D _) (fun _ _ _ _ _ h => h) (fun _ => rfl) ?_ (ih s)
    intro t y s' hf
    obtain ⟨x, u, hx, h2⟩ := step_ok (show Res.step _ _ _ = _ from hf)
    cases h2
    exact ⟨x, hx⟩
  | @tryMap _ _ _ D r f _ ih =>
    intro s
    refine lower_transfer (D' := asking (tryMapDecoder D f) _) (D := asking D _) (fun _ _ _ _ _ h => h) (fun _ => rfl) ?_ (ih s)
    intro t y s' hf
    obtain ⟨x, u, hx, h2⟩ := step_ok (show Res.step _ _ _ = _ from hf)
    split at h2 <;> cases h2
    exact ⟨x, hx⟩
  | @mapErr _ _ D r f _ ih =>
    intro s
    refine lower_transfer (D' := asking (mapErrDecoder D f) _) (D := asking D _) ?_ (fun _ => rfl) ?_ (ih s)
    · intro s b e n t hd
      simp only [asking, mapErrDecoder] at hd ⊢
      rcases hx : D.decode s b e with ⟨q, u⟩
      rw [hx] at hd
      cases q <;> cases hd
      rfl
    · intro t y s' hd
      simp only [asking, mapErrDecoder] at hd ⊢
      rcases hx : D.finish t with ⟨q, u⟩
      rw [hx] at hd
      cases q <;> cases hd
      exact ⟨_, rfl⟩
  | @omittable _ _ D r _ ih =>
    intro s
    refine lower_ask _ _ (lower_omit (ih s.inner)) rfl rfl ?_
    simp only [asking, omittableDecoder]
    split <;> rfl
  | length D => exact fun s => lower_ask _ _ (lower_length (D := D) s) rfl rfl rfl
  | maxBytes _ ih => exact fun s => lower_ask _ _ (lower_maxBytes (ih s.inner)) rfl rfl rfl
  | slice _ ih => exact fun s => lower_ask _ _ (lower_slice (ih s.inner)) rfl rfl rfl
  | peekable _ ih =>
    intro s
    refine lower_ask _ _ (lower_peekable (ih s.inner)) rfl rfl ?_
    simp only [asking, peekableDecoder]
    split <;> rfl
  | maybeEos _ ih => exact fun s => lower_ask _ _ (lower_maybeEos (ih s.inner)) rfl rfl rfl
  | @collectN _ _ D r _ ih =>
    intro s
    refine lower_ask _ _ (lower_collectN (ih s.inner)) ?_ rfl ?_
    · funext s b e
      have h := collectNLoop_asking D (fun s => capped (r s)) b e s.remaining 0 s.inner s.items
      simp only [collectNDecoder]
      rw [h]
    · simp only [asking, collectNDecoder]
      split <;> rfl
  | @pair _ _ _ _ D0 D1 r0 r1 _ _ ih0 ih1 =>
    intro s
    have low : ∀ (c0 c1 : ByteCount), LowerBound (asking D0 fun _ => c0) s.1 → LowerBound (asking D1 fun _ => c1) s.2 →
        LowerBound (asking (tupleDecoder2 D0 D1) fun _ => ((ByteCount.finite 0).addForDecoding c0).addForDecoding c1) s :=
      fun c0 c1 h0 h1 => lower_ask _ _ (lower_pair h0 h1) rfl rfl rfl
    have z0 : LowerBound (asking D0 fun _ => .finite 0) s.1 := lower_zero rfl
    have z1 : LowerBound (asking D1 fun _ => .finite 0) s.2 := lower_zero rfl
    have i0 := ih0 s.1
    have i1 := ih1 s.2
    have zr : ∀ c : ByteCount, ((ByteCount.finite 0).addForDecoding c).addForDecoding (.finite 0) = c := by
      intro c; rcases c with (_ | x) | _ | _ <;> first | rfl | simp [ByteCount.addForDecoding]
    have zl : ∀ c : ByteCount, ((ByteCount.finite 0).addForDecoding (.finite 0)).addForDecoding c = c := by
      intro c; rcases c with (_ | x) | _ | _ <;> first | rfl | simp [ByteCount.addForDecoding]
    have w0 : LowerBound (asking (tupleDecoder2 D0 D1) fun _ => capped (r0 s.1)) s :=
      lower_ask _ _ (low (capped (r0 s.1)) (.finite 0) (lower_ask _ _ i0 rfl rfl rfl) z1) rfl rfl (zr _).symm
    have w1 : LowerBound (asking (tupleDecoder2 D0 D1) fun _ => capped (r1 s.2)) s :=
      lower_ask _ _ (low (.finite 0) (capped (r1 s.2)) z0 (lower_ask _ _ i1 rfl rfl rfl)) rfl rfl (zl _).symm
    have w : LowerBound (asking (tupleDecoder2 D0 D1) fun _ =>
        ((ByteCount.finite 0).addForDecoding (capped (r0 s.1))).addForDecoding (capped (r1 s.2))) s :=
      low _ _ (lower_ask _ _ i0 rfl rfl rfl) (lower_ask _ _ i1 rfl rfl rfl)
    have fin : ∀ {k : ByteCount} {m : Nat}, LowerBound (asking (tupleDecoder2 D0 D1) fun _ => k) s → k = .finite m →
        2 ^ 64 ≤ m → LowerBound (asking (tupleDecoder2 D0 D1) fun _ => .finite (2 ^ 64)) s := by
      intro k m h hk hm
      intro n q t x t' hc hf
      have hc' : Calls (asking (tupleDecoder2 D0 D1) fun _ => k) s n q t := calls_asking hc
      have := (h n q t x t' hc' hf).1 m hk
      exact ⟨fun k' hk' => by cases hk'; omega, fun h => by cases h⟩
    show LowerBound (asking (tupleDecoder2 D0 D1) fun s => capped (pairRequiringDec (r0 s.1) (r1 s.2))) s
    have goal : ∀ c, capped (pairRequiringDec (r0 s.1) (r1 s.2)) = c →
        LowerBound (asking (tupleDecoder2 D0 D1) fun _ => c) s →
        LowerBound (asking (tupleDecoder2 D0 D1) fun s => capped (pairRequiringDec (r0 s.1) (r1 s.2))) s :=
      fun c hc h => lower_ask _ _ h rfl rfl hc
    cases h0 : r0 s.1 with
    | ok a =>
      rw [h0] at w0 w
      cases h1 : r1 s.2 with
      | ok b =>
        rw [h1] at w1 w
        rcases pair_cases a b with ⟨x, y, rfl, rfl, hxy, hp⟩ | hp | ⟨x, rfl, hx, hp⟩
        · refine goal (.finite (2 ^ 64)) (by rw [h0, h1, pairRequiringDec, hp]; rfl) (fin w rfl ?_)
          omega
        · exact goal _ (by rw [h0, h1, pairRequiringDec, hp]; rfl) w
        · exact goal (.finite (2 ^ 64)) (by rw [h0, h1, pairRequiringDec, hp]; rfl) (fin w0 rfl hx)
      | _ =>
        rw [h1] at w1
        exact goal (.finite (2 ^ 64)) (by rw [h0, h1, pairRequiringDec] <;> first | rfl | (intros; contradiction)) (fin w1 rfl (Nat.le_refl _))
    | _ =>
      rw [h0] at w0
      exact goal (.finite (2 ^ 64)) (by rw [h0, pairRequiringDec] <;> first | rfl | (intros; contradiction)) (fin w0 rfl (Nat.le_refl _))
  | @andThen _ _ _ _ D0 D1 r0 r1 f _ _ ih0 ih1 =>
    intro s
    refine lower_ask _ _ (lower_andThen (D0 := asking D0 _) (D1 := asking D1 _) (f := f) (ih0 s.1) (fun t _ => ih1 t)) rfl rfl ?_
    simp only [asking, andThenDecoder]
    cases s.2 <;> rfl
  | @captured _ _ _ F r _ ih =>
    rintro ⟨v, u⟩ n q ⟨w, u'⟩ x t' hc hf
    have hc' : Calls (asking (capturedDecoder F) (capturedDecoder F).requiring) (v, u) n q (w, u') := calls_asking hc
    obtain ⟨k1, k2⟩ := calls_captured (v := v) hc' rfl
    obtain rfl : w = v := k1
    have hf' : (capturedDecoder F).finish (w, u') = (.ok x, t') := hf
    have hf2 := (captured_finish.1 hf').1
    have hc2 : Calls (asking (F w) (F w).requiring) u n q u' := k2
    exact ih w u n q u' x _ (calls_asking hc2) hf2

theorem faithful {D : Decoder σ α} {r} (h : CheckedReq D r) : ∀ s, r s = .ok (D.requiring s) ∨ r s = .panic := by
  induction h with
  | omittable _ ih =>
    intro s
    simp only [omittableDecoder]
    split
    · exact .inl rfl
    · exact ih s.inner
  | maxBytes _ ih | slice _ ih | maybeEos _ ih => exact fun s => ih s.inner
  | peekable _ ih =>
    intro s
    simp only [peekableDecoder]
    split
    · exact .inl rfl
    · exact ih s.inner
  | collectN _ ih =>
    intro s
    simp only [collectNDecoder]
    split
    · exact .inl rfl
    · exact ih s.inner
  | @pair _ _ _ _ D0 D1 r0 r1 _ _ ih0 ih1 =>
    intro s
    rcases ih0 s.1 with h0 | h0
    · rcases ih1 s.2 with h1 | h1
      · simp only [h0, h1, pairRequiringDec]
        rcases pair_cases (D0.requiring s.1) (D1.requiring s.2) with ⟨_, _, _, _, _, hp⟩ | hp | ⟨_, _, _, hp⟩
        · exact .inr hp
        · exact .inl hp
        · exact .inr hp
      · exact .inr (by simp only [h0, h1, pairRequiringDec])
    · exact .inr (by simp only [h0, pairRequiringDec])
  | andThen f _ _ ih0 ih1 =>
    intro s
    obtain ⟨s0, o⟩ := s
    cases o with
    | none => exact ih0 s0
    | some t => exact ih1 t
  | captured _ ih => exact fun s => ih s.1 s.2
  | utf8 _ ih | map _ _ ih | tryMap _ _ ih | mapErr _ _ ih => exact fun s => ih s
  | _ => exact fun s => .inl rfl

theorem exact_checked {E : SizedEncoder σ α} {r} (h : CheckedExact E r) :
    ∀ s, r s = if E.exact s < 2 ^ 64 then .ok (E.exact s) else r s := by
  intro s
  split
  · next hs =>
    revert s
    induction h with
    | maxBytes _ ih | slice _ ih | last _ ih => exact fun s hs => ih s.inner hs
    | mapErr _ _ ih | mapFrom _ _ ih | tryMapFrom _ _ ih | optional _ ih => exact fun s hs => ih s hs
    | @pair _ _ _ _ E0 E1 r0 r1 _ _ ih0 ih1 =>
      intro s hs
      simp only [sizedTupleEncoder2, Nat.zero_add] at hs ⊢
      rw [ih0 s.1 (by omega), ih1 s.2 (by omega)]
      simp only [pairExact, tupleExact, List.foldl_cons, List.foldl_nil, Nat.zero_add]
      rw [if_pos (by omega)]
      simp only
      rw [if_pos hs]
    | _ => exact fun s hs => rfl
  · rfl

theorem pairEnc_cases (a b : ByteCount) :
    (∃ x y, a = .finite x ∧ b = .finite y ∧ 2 ^ 64 ≤ x + y ∧ tupleRequiringEnc [a, b] = .panic) ∨
    tupleRequiringEnc [a, b] = .ok (((ByteCount.finite 0).addForEncoding a).addForEncoding b) ∨
    (∃ x, a = .finite x ∧ 2 ^ 64 ≤ x ∧ tupleRequiringEnc [a, b] = .panic) := by
  simp only [tupleRequiringEnc, List.foldl_cons, List.foldl_nil]
  rcases a with x | _ | _
  · by_cases hx : x < 2 ^ 64
    · simp only [ByteCount.addForEncodingChecked, Nat.zero_add, hx, if_true, ByteCount.addForEncoding]
      rcases b with y | _ | _
      · simp only
        by_cases hxy : x + y < 2 ^ 64
        · right; left
          rw [if_pos hxy]
        · left
          exact ⟨x, y, rfl, rfl, by omega, by rw [if_neg hxy]⟩
      · right; left; rfl
      · right; left; rfl
    · right; right
      refine ⟨x, rfl, by omega, ?_⟩
      simp only [ByteCount.addForEncodingChecked, Nat.zero_add, if_neg hx]
  · right; left
    rcases b with y | _ | _ <;> rfl
  · right; left
    rcases b with y | _ | _ <;> rfl

/-- What a checked `requiring_bytes` has to do with the bytes left. -/
def Safe (E : Encoder σ α) (P : σ → Bytes → Prop) (r : σ → Res ByteCount) : Prop :=
  ∀ s rest, P s rest → rest.length < 2 ^ 64 → r s = .ok (E.requiring s)

theorem checkedWrites_safe {own : OwnEncoding}
    (hP : ∀ strict σ α (E : Encoder σ α) s dom enc, own strict σ α E s dom enc → Emits strict E s dom enc)
    {strict : Bool} {E : Encoder σ α} {s : σ} {dom enc r} (h : CheckedWrites own strict E s dom enc r) :
    ∃ P, Fresh strict E s dom enc P ∧ Safe E P r := by
  induction h with
  | own h => exact ⟨_, emits_fresh (hP _ _ _ _ _ _ _ h), fun _ _ _ _ => rfl⟩
  | bytes asRef strict => exact ⟨_, ⟨codes_bytes asRef strict, rfl, rfl⟩, fun _ _ _ _ => rfl⟩
  | number f strict => exact ⟨_, ⟨codes_number f strict, rfl, rfl⟩, fun _ _ _ _ => rfl⟩
  | utf8 strict => exact ⟨_, ⟨codes_utf8 strict, rfl, rfl⟩, fun _ _ _ _ => rfl⟩
  | null strict => exact ⟨_, ⟨codes_null strict, rfl, rfl⟩, fun _ _ _ _ => rfl⟩
  | monolithic ser => exact ⟨_, ⟨codes_monolithic ser, rfl, rfl⟩, fun _ _ _ _ => rfl⟩
  | mapErr f hf _ ih =>
    obtain ⟨P, ⟨h1, h2, h3⟩, hs⟩ := ih
    exact ⟨P, ⟨codes_mapErr f hf h1, h2, h3⟩, hs⟩
  | mapFrom f _ ih =>
    obtain ⟨P, ⟨h1, h2, h3⟩, hs⟩ := ih
    exact ⟨P, ⟨codes_mapFrom f h1, h2, h3⟩, hs⟩
  | tryMapFrom f _ ih =>
    obtain ⟨P, ⟨h1, h2, h3⟩, hs⟩ := ih
    exact ⟨P, ⟨codes_tryMapFrom f h1, h2, h3⟩, hs⟩
  | optional _ ih =>
    obtain ⟨P, ⟨h1, h2, h3⟩, hs⟩ := ih
    exact ⟨P, ⟨codes_optional h1, h2, h3⟩, hs⟩
  | maxBytes n _ ih =>
    obtain ⟨P, ⟨h1, h2, h3⟩, hs⟩ := ih
    exact ⟨_, ⟨codes_maxBytes n h1, ⟨h2, rfl, Nat.zero_le _, fun _ => rfl⟩, h3⟩, fun s rest hp hl => hs s.inner rest hp.1 hl⟩
  | preEncode hw =>
    obtain ⟨P, h⟩ := parts_writes hP (WritesWith.preEncode hw)
    exact ⟨P, h, fun _ _ _ _ => rfl⟩
  | repeated hw =>
    obtain ⟨P, h⟩ := parts_writes hP (WritesWith.repeated hw)
    exact ⟨P, h, fun _ _ _ _ => rfl⟩
  | @pair _ _ _ _ _ E0 E1 _ _ _ _ r0 _ _ r1 _ _ ih0 ih1 =>
    obtain ⟨P0, ⟨h1, h2, h3⟩, hs0⟩ := ih0
    obtain ⟨P1, ⟨k1, k2, k3⟩, hs1⟩ := ih1
    refine ⟨_, ⟨codes_pair h1 k1, ⟨[], [], h2, k2, rfl⟩, by simp [tupleEncoder2, h3, k3]⟩, ?_⟩
    rintro ⟨t0, t1⟩ rest ⟨b0, b1, hp0, hp1, rfl⟩ hl
    simp only [List.length_append] at hl hp0 hp1
    have e0 := hs0 t0 b0 hp0 (by omega)
    have e1 := hs1 t1 b1 hp1 (by omega)
    simp only [e0, e1, pairRequiringEnc]
    have q0 := h1.req hp0
    have q1 := k1.req hp1
    rcases pairEnc_cases (E0.requiring t0) (E1.requiring t1) with ⟨x, y, hx, hy, hxy, _⟩ | hp | ⟨x, hx, hxy, _⟩
    · rw [hx] at q0
      rw [hy] at q1
      rcases q0 with q0 | ⟨q0, _⟩
      · rcases q1 with q1 | ⟨q1, _⟩
        · simp only [ByteCount.finite.injEq] at q0 q1
          omega
        · cases q1
      · cases q0
    · exact hp
    · rw [hx] at q0
      rcases q0 with q0 | ⟨q0, _⟩
      · simp only [ByteCount.finite.injEq] at q0
        omega
      · cases q0
  | weaken _ hd hs ih =>
    obtain ⟨P, ⟨h1, h2, h3⟩, hsafe⟩ := ih
    exact ⟨P, ⟨h1.weaken hd hs, h2, h3⟩, hsafe⟩

theorem observeE_maxBytes {E : Encoder σ α}
    (hE : ∀ s cap e out t, E.encode s cap e = (.ok out, t) → out.length ≤ cap) (calls : List (ECall α)) :
    ∀ s : MaxBytesState σ, s.consumed + offered calls < 2 ^ 64 →
      observeE (maxBytesEncoderChecked E) s calls = observeE (maxBytesEncoder E) s calls := by
  induction calls with
  | nil => intros; rfl
  | cons c cs ih =>
    intro s hs
    have key : ecallAnswer (maxBytesEncoderChecked E) s c = ecallAnswer (maxBytesEncoder E) s c ∧
        ecallState (maxBytesEncoderChecked E) s c = ecallState (maxBytesEncoder E) s c ∧
        (ecallState (maxBytesEncoder E) s c).consumed + offered cs < 2 ^ 64 := by
      cases c with
      | start x =>
        refine ⟨rfl, rfl, ?_⟩
        simp only [offered] at hs
        simp only [ecallState, maxBytesEncoder]
        rcases E.start s.inner x with ⟨r, t⟩
        cases r <;> exact hs
      | encode cap e =>
        simp only [offered] at hs
        simp only [ecallState, ecallAnswer, maxBytesEncoder, maxBytesEncoderChecked]
        rcases hq : E.encode s.inner cap e with ⟨r, t⟩
        cases r with
        | ok out =>
          have hl := hE _ _ _ _ _ hq
          simp only [Res.step]
          rw [if_pos (show s.consumed + out.length < 2 ^ 64 by omega)]
          refine ⟨rfl, rfl, ?_⟩
          split
          · simp only; omega
          · split <;> simp only <;> omega
        | _ => exact ⟨rfl, rfl, by simp only [Res.step]; omega⟩
    simp only [observeE]
    rw [key.1, key.2.1, ih _ key.2.2]
    rfl

end Bytecodec
